import Verif.RSS.RectLemmas
import Mathlib.Tactic.LinearCombination

/-!
# The sixteen parts of `rectDistance` for pairs of sides

Each part that answers gives a point of either rectangle, and no two points are nearer.
-/

namespace Fcl
namespace RSS
namespace Rects
variable {K : Type*} [Field K] [LinearOrder K] [IsStrictOrderedRing K] {q : Rects K} {eps : K} {e : Edge K}

/-- What a part that answers has found: a point `P` of the first rectangle, `P + D` of the second, and the two
rectangles have no points nearer to each other. -/
structure Good (q : Rects K) (e : Edge K) : Prop where
  left : e.P ∈ q.left
  right : e.P + e.D ∈ q.right
  least : ∀ x ∈ q.left, ∀ y ∈ q.right, e.D.dot e.D ≤ (y - x).dot (y - x)

theorem rot_coords (w : q.WF) :
    q.R.r0.x * q.R.r0.x + q.R.r1.x * q.R.r1.x + q.R.r2.x * q.R.r2.x = 1 ∧
    q.R.r0.y * q.R.r0.y + q.R.r1.y * q.R.r1.y + q.R.r2.y * q.R.r2.y = 1 ∧
    q.R.r0.x * q.R.r0.y + q.R.r1.x * q.R.r1.y + q.R.r2.x * q.R.r2.y = 0 := by
  have h := w.rot.cols
  have hx := congrArg (fun m : M3 K => m.r0.x) h
  have hy := congrArg (fun m : M3 K => m.r1.y) h
  have hxy := congrArg (fun m : M3 K => m.r0.y) h
  exact ⟨hx, hy, hxy⟩

/-- Opens the quantities of `rectDistance`. -/
local macro "rect_open" : tactic => `(tactic| simp only [Tba, A0_dot_B0, A0_dot_B1, A1_dot_B0, A1_dot_B1, aA0_dot_B0, aA0_dot_B1,
  aA1_dot_B0, aA1_dot_B1, bA0_dot_B0, bA1_dot_B0, bA0_dot_B1, bA1_dot_B1, M3.tr, M3.mulVec, M3.col, V3.get, V3.dot, V3.sub_x, V3.sub_y, V3.sub_z,
  V3.add_x, V3.add_y, V3.add_z, V3.neg_x, V3.neg_y, V3.neg_z, V3.smul_x, V3.smul_y, V3.smul_z])


theorem UA1UB1_good (w : q.WF) (he : 0 < eps) (h : q.UA1UB1 eps = some e) : q.Good e := by
  obtain ⟨h00, h11, h01⟩ := rot_coords w
  unfold UA1UB1 at h
  split at h
  · rename_i hc
    obtain ⟨⟨c1, c2⟩, c3, c4⟩ := hc
    obtain ⟨t, u, htu⟩ : ∃ t u, segCoords q.a1 q.b1 q.A1_dot_B1 (q.T.y + q.bA1_dot_B0) (q.Tba.y - q.aA0_dot_B1) = (t, u) := ⟨_, _, rfl⟩
    rw [htu] at h
    cases h
    have pre1 : 0 < (q.aA0_dot_B0 - q.b0 - q.Tba.x) ∨ 0 < (q.aA0_dot_B0 - q.b0 - q.Tba.x) + q.a1 * q.A1_dot_B0 := by
      simp only [UA1_lx, UA1_ux, UB1_lx, UB1_ux] at c1
      split_ifs at c1 <;> simp only [ALL_x, ALU_x, AUL_x, AUU_x, ALL_y, ALU_y, AUL_y, AUU_y, BLL_x, BLU_x, BUL_x, BUU_x, BLL_y, BLU_y, BUL_y, BUU_y, aA0_dot_B0, aA0_dot_B1, aA1_dot_B0, aA1_dot_B1, bA0_dot_B0, bA1_dot_B0, bA0_dot_B1, bA1_dot_B1] at * <;> first | (left; linarith) | (right; linarith)
    have pre2 : 0 < (q.T.x + q.bA0_dot_B0 - q.a0) ∨ 0 < (q.T.x + q.bA0_dot_B0 - q.a0) + q.b1 * q.A0_dot_B1 := by
      simp only [UA1_lx, UA1_ux, UB1_lx, UB1_ux] at c2
      split_ifs at c2 <;> simp only [ALL_x, ALU_x, AUL_x, AUU_x, ALL_y, ALU_y, AUL_y, AUU_y, BLL_x, BLU_x, BUL_x, BUU_x, BLL_y, BLU_y, BUL_y, BUU_y, aA0_dot_B0, aA0_dot_B1, aA1_dot_B0, aA1_dot_B1, bA0_dot_B0, bA1_dot_B0, bA0_dot_B1, bA1_dot_B1] at * <;> first | (left; linarith) | (right; linarith)
    have k1 : (0 < (q.aA0_dot_B0 - q.b0 - q.Tba.x) ∧ 0 < (q.aA0_dot_B0 - q.b0 - q.Tba.x) + q.a1 * q.A1_dot_B0) ∨
        inVoronoi eps q.b1 q.a1 q.A1_dot_B0 (q.aA0_dot_B0 - q.b0 - q.Tba.x) q.A1_dot_B1 (q.aA0_dot_B1 - q.Tba.y) (-q.T.y - q.bA1_dot_B0) = true := by
      refine c3.imp (fun c => ?_) id
      simp only [UA1_lx, UA1_ux, UB1_lx, UB1_ux] at c
      split_ifs at c <;> simp only [ALL_x, ALU_x, AUL_x, AUU_x, ALL_y, ALU_y, AUL_y, AUU_y, BLL_x, BLU_x, BUL_x, BUU_x, BLL_y, BLU_y, BUL_y, BUU_y, aA0_dot_B0, aA0_dot_B1, aA1_dot_B0, aA1_dot_B1, bA0_dot_B0, bA1_dot_B0, bA0_dot_B1, bA1_dot_B1] at * <;> constructor <;> linarith
    have k2 : (0 < (q.T.x + q.bA0_dot_B0 - q.a0) ∧ 0 < (q.T.x + q.bA0_dot_B0 - q.a0) + q.b1 * q.A0_dot_B1) ∨
        inVoronoi eps q.a1 q.b1 q.A0_dot_B1 (q.T.x + q.bA0_dot_B0 - q.a0) q.A1_dot_B1 (q.T.y + q.bA1_dot_B0) (q.Tba.y - q.aA0_dot_B1) = true := by
      refine c4.imp (fun c => ?_) id
      simp only [UA1_lx, UA1_ux, UB1_lx, UB1_ux] at c
      split_ifs at c <;> simp only [ALL_x, ALU_x, AUL_x, AUU_x, ALL_y, ALU_y, AUL_y, AUU_y, BLL_x, BLU_x, BUL_x, BUU_x, BLL_y, BLU_y, BUL_y, BUU_y, aA0_dot_B0, aA0_dot_B1, aA1_dot_B0, aA1_dot_B1, bA0_dot_B0, bA1_dot_B0, bA0_dot_B1, bA1_dot_B1] at * <;> constructor <;> linarith
    obtain ⟨t0, t1, u0, u1, hl⟩ := edge_sound (A := (⟨0, 1, 0⟩ : V3 K)) (B := (q.R.col 1)) (N := (⟨1, 0, 0⟩ : V3 K)) (M := (q.R.col 0)) (s := (⟨q.a0, 0, 0⟩ : V3 K)) (q := (q.T + q.b0 • q.R.col 0)) he w.a1 w.b1
      (by simp [V3.dot]) (by rect_open; first | ring1 | linear_combination ((1:K)) * h11 | linear_combination (-(1:K)) * h11) (by simp [V3.dot]) (by rect_open; first | ring1 | linear_combination ((1:K)) * h01 | linear_combination (-(1:K)) * h01)
      (by rect_open; first | ring1 | linear_combination ((1:K)) * h01 | linear_combination (-(1:K)) * h01) (by rect_open; first | ring1 | linear_combination (q.b0) * h01 | linear_combination (-q.b0) * h01) (by rect_open; first | ring1 | linear_combination (q.b0) * h01 | linear_combination (-q.b0) * h01)
      (by rect_open; first | ring1 | linear_combination (q.b0) * h01 | linear_combination (-q.b0) * h01) (by rect_open; first | ring1 | linear_combination (q.b0) * h00 | linear_combination (-q.b0) * h00) (by rect_open; first | ring1 | linear_combination (q.b0) * h01 | linear_combination (-q.b0) * h01) (by rect_open; first | ring1 | linear_combination (q.b0) * h01 | linear_combination (-q.b0) * h01)
      (by rect_open; first | ring1 | linear_combination (q.b0) * h01 | linear_combination (-q.b0) * h01) (by rect_open; first | ring1 | linear_combination (q.b0) * h01 | linear_combination (-q.b0) * h01) pre1 k1 pre2 k2 htu
    refine ⟨⟨q.a0, t, ?_, ?_, ?_, ?_, rfl⟩,
      ⟨q.b0, u, ?_, ?_, ?_, ?_, ?_⟩, ?_⟩
    any_goals first | exact t0 | exact t1 | exact u0 | exact u1 | exact le_refl _ | exact w.a0 | exact w.a1 | exact w.b0 | exact w.b1
    · apply V3.ext' <;> simp [M3.col, V3.get] <;> ring
    · rintro x ⟨x0, x1, g0, g1, g2, g3, rfl⟩ y ⟨y0, y1, f0, f1, f2, f3, rfl⟩
      have := hl x1 y1 (q.a0 - x0) (q.b0 - y0) (by assumption) (by assumption) (by assumption) (by assumption) (by linarith) (by linarith)
      refine le_of_eq_of_le ?_ (le_of_le_of_eq this ?_)
      · simp [V3.dot, M3.col, V3.get]; try ring
      · simp [V3.dot, M3.col, V3.get]; try ring
  · exact absurd h (by simp)

theorem UA1LB1_good (w : q.WF) (he : 0 < eps) (h : q.UA1LB1 eps = some e) : q.Good e := by
  obtain ⟨h00, h11, h01⟩ := rot_coords w
  unfold UA1LB1 at h
  split at h
  · rename_i hc
    obtain ⟨⟨c1, c2⟩, c3, c4⟩ := hc
    obtain ⟨t, u, htu⟩ : ∃ t u, segCoords q.a1 q.b1 q.A1_dot_B1 q.T.y (q.Tba.y - q.aA0_dot_B1) = (t, u) := ⟨_, _, rfl⟩
    rw [htu] at h
    cases h
    have pre1 : 0 < (q.Tba.x - q.aA0_dot_B0) ∨ 0 < (q.Tba.x - q.aA0_dot_B0) + q.a1 * (-q.A1_dot_B0) := by
      simp only [LB1_lx, LB1_ux, UA1_lx, UA1_ux] at c1
      split_ifs at c1 <;> simp only [ALL_x, ALU_x, AUL_x, AUU_x, ALL_y, ALU_y, AUL_y, AUU_y, BLL_x, BLU_x, BUL_x, BUU_x, BLL_y, BLU_y, BUL_y, BUU_y, aA0_dot_B0, aA0_dot_B1, aA1_dot_B0, aA1_dot_B1, bA0_dot_B0, bA1_dot_B0, bA0_dot_B1, bA1_dot_B1] at * <;> first | (left; linarith) | (right; linarith)
    have pre2 : 0 < (q.T.x - q.a0) ∨ 0 < (q.T.x - q.a0) + q.b1 * q.A0_dot_B1 := by
      simp only [LB1_lx, LB1_ux, UA1_lx, UA1_ux] at c2
      split_ifs at c2 <;> simp only [ALL_x, ALU_x, AUL_x, AUU_x, ALL_y, ALU_y, AUL_y, AUU_y, BLL_x, BLU_x, BUL_x, BUU_x, BLL_y, BLU_y, BUL_y, BUU_y, aA0_dot_B0, aA0_dot_B1, aA1_dot_B0, aA1_dot_B1, bA0_dot_B0, bA1_dot_B0, bA0_dot_B1, bA1_dot_B1] at * <;> first | (left; linarith) | (right; linarith)
    have k1 : (0 < (q.Tba.x - q.aA0_dot_B0) ∧ 0 < (q.Tba.x - q.aA0_dot_B0) + q.a1 * (-q.A1_dot_B0)) ∨
        inVoronoi eps q.b1 q.a1 (-q.A1_dot_B0) (q.Tba.x - q.aA0_dot_B0) q.A1_dot_B1 (q.aA0_dot_B1 - q.Tba.y) (-q.T.y) = true := by
      refine c3.imp (fun c => ?_) id
      simp only [LB1_lx, LB1_ux, UA1_lx, UA1_ux] at c
      split_ifs at c <;> simp only [ALL_x, ALU_x, AUL_x, AUU_x, ALL_y, ALU_y, AUL_y, AUU_y, BLL_x, BLU_x, BUL_x, BUU_x, BLL_y, BLU_y, BUL_y, BUU_y, aA0_dot_B0, aA0_dot_B1, aA1_dot_B0, aA1_dot_B1, bA0_dot_B0, bA1_dot_B0, bA0_dot_B1, bA1_dot_B1] at * <;> constructor <;> linarith
    have k2 : (0 < (q.T.x - q.a0) ∧ 0 < (q.T.x - q.a0) + q.b1 * q.A0_dot_B1) ∨
        inVoronoi eps q.a1 q.b1 q.A0_dot_B1 (q.T.x - q.a0) q.A1_dot_B1 q.T.y (q.Tba.y - q.aA0_dot_B1) = true := by
      refine c4.imp (fun c => ?_) id
      simp only [LB1_lx, LB1_ux, UA1_lx, UA1_ux] at c
      split_ifs at c <;> simp only [ALL_x, ALU_x, AUL_x, AUU_x, ALL_y, ALU_y, AUL_y, AUU_y, BLL_x, BLU_x, BUL_x, BUU_x, BLL_y, BLU_y, BUL_y, BUU_y, aA0_dot_B0, aA0_dot_B1, aA1_dot_B0, aA1_dot_B1, bA0_dot_B0, bA1_dot_B0, bA0_dot_B1, bA1_dot_B1] at * <;> constructor <;> linarith
    obtain ⟨t0, t1, u0, u1, hl⟩ := edge_sound (A := (⟨0, 1, 0⟩ : V3 K)) (B := (q.R.col 1)) (N := (⟨1, 0, 0⟩ : V3 K)) (M := (-q.R.col 0)) (s := (⟨q.a0, 0, 0⟩ : V3 K)) (q := q.T) he w.a1 w.b1
      (by simp [V3.dot]) (by rect_open; first | ring1 | linear_combination ((1:K)) * h11 | linear_combination (-(1:K)) * h11) (by simp [V3.dot]) (by rect_open; first | ring1 | linear_combination ((1:K)) * h01 | linear_combination (-(1:K)) * h01)
      (by rect_open; first | ring1 | linear_combination ((1:K)) * h01 | linear_combination (-(1:K)) * h01) (by rect_open; first | ring1 | linear_combination (q.b0) * h01 | linear_combination (-q.b0) * h01) (by rect_open; first | ring1 | linear_combination (q.b0) * h01 | linear_combination (-q.b0) * h01)
      (by rect_open; first | ring1 | linear_combination (q.b0) * h01 | linear_combination (-q.b0) * h01) (by rect_open; first | ring1 | linear_combination (q.b0) * h00 | linear_combination (-q.b0) * h00) (by rect_open; first | ring1 | linear_combination (q.b0) * h01 | linear_combination (-q.b0) * h01) (by rect_open; first | ring1 | linear_combination (q.b0) * h01 | linear_combination (-q.b0) * h01)
      (by rect_open; first | ring1 | linear_combination (q.b0) * h01 | linear_combination (-q.b0) * h01) (by rect_open; first | ring1 | linear_combination (q.b0) * h01 | linear_combination (-q.b0) * h01) pre1 k1 pre2 k2 htu
    refine ⟨⟨q.a0, t, ?_, ?_, ?_, ?_, rfl⟩,
      ⟨0, u, ?_, ?_, ?_, ?_, ?_⟩, ?_⟩
    any_goals first | exact t0 | exact t1 | exact u0 | exact u1 | exact le_refl _ | exact w.a0 | exact w.a1 | exact w.b0 | exact w.b1
    · apply V3.ext' <;> simp [M3.col, V3.get] <;> ring
    · rintro x ⟨x0, x1, g0, g1, g2, g3, rfl⟩ y ⟨y0, y1, f0, f1, f2, f3, rfl⟩
      have := hl x1 y1 (q.a0 - x0) y0 (by assumption) (by assumption) (by assumption) (by assumption) (by linarith) (by linarith)
      refine le_of_eq_of_le ?_ (le_of_le_of_eq this ?_)
      · simp [V3.dot, M3.col, V3.get]; try ring
      · simp [V3.dot, M3.col, V3.get]; try ring
  · exact absurd h (by simp)

theorem UA1UB0_good (w : q.WF) (he : 0 < eps) (h : q.UA1UB0 eps = some e) : q.Good e := by
  obtain ⟨h00, h11, h01⟩ := rot_coords w
  unfold UA1UB0 at h
  split at h
  · rename_i hc
    obtain ⟨⟨c1, c2⟩, c3, c4⟩ := hc
    obtain ⟨t, u, htu⟩ : ∃ t u, segCoords q.a1 q.b0 q.A1_dot_B0 (q.T.y + q.bA1_dot_B1) (q.Tba.x - q.aA0_dot_B0) = (t, u) := ⟨_, _, rfl⟩
    rw [htu] at h
    cases h
    have pre1 : 0 < (q.aA0_dot_B1 - q.Tba.y - q.b1) ∨ 0 < (q.aA0_dot_B1 - q.Tba.y - q.b1) + q.a1 * q.A1_dot_B1 := by
      simp only [UA1_ly, UA1_uy, UB0_lx, UB0_ux] at c1
      split_ifs at c1 <;> simp only [ALL_x, ALU_x, AUL_x, AUU_x, ALL_y, ALU_y, AUL_y, AUU_y, BLL_x, BLU_x, BUL_x, BUU_x, BLL_y, BLU_y, BUL_y, BUU_y, aA0_dot_B0, aA0_dot_B1, aA1_dot_B0, aA1_dot_B1, bA0_dot_B0, bA1_dot_B0, bA0_dot_B1, bA1_dot_B1] at * <;> first | (left; linarith) | (right; linarith)
    have pre2 : 0 < (q.T.x - q.a0 + q.bA0_dot_B1) ∨ 0 < (q.T.x - q.a0 + q.bA0_dot_B1) + q.b0 * q.A0_dot_B0 := by
      simp only [UA1_ly, UA1_uy, UB0_lx, UB0_ux] at c2
      split_ifs at c2 <;> simp only [ALL_x, ALU_x, AUL_x, AUU_x, ALL_y, ALU_y, AUL_y, AUU_y, BLL_x, BLU_x, BUL_x, BUU_x, BLL_y, BLU_y, BUL_y, BUU_y, aA0_dot_B0, aA0_dot_B1, aA1_dot_B0, aA1_dot_B1, bA0_dot_B0, bA1_dot_B0, bA0_dot_B1, bA1_dot_B1] at * <;> first | (left; linarith) | (right; linarith)
    have k1 : (0 < (q.aA0_dot_B1 - q.Tba.y - q.b1) ∧ 0 < (q.aA0_dot_B1 - q.Tba.y - q.b1) + q.a1 * q.A1_dot_B1) ∨
        inVoronoi eps q.b0 q.a1 q.A1_dot_B1 (q.aA0_dot_B1 - q.Tba.y - q.b1) q.A1_dot_B0 (q.aA0_dot_B0 - q.Tba.x) (-q.T.y - q.bA1_dot_B1) = true := by
      refine c3.imp (fun c => ?_) id
      simp only [UA1_ly, UA1_uy, UB0_lx, UB0_ux] at c
      split_ifs at c <;> simp only [ALL_x, ALU_x, AUL_x, AUU_x, ALL_y, ALU_y, AUL_y, AUU_y, BLL_x, BLU_x, BUL_x, BUU_x, BLL_y, BLU_y, BUL_y, BUU_y, aA0_dot_B0, aA0_dot_B1, aA1_dot_B0, aA1_dot_B1, bA0_dot_B0, bA1_dot_B0, bA0_dot_B1, bA1_dot_B1] at * <;> constructor <;> linarith
    have k2 : (0 < (q.T.x - q.a0 + q.bA0_dot_B1) ∧ 0 < (q.T.x - q.a0 + q.bA0_dot_B1) + q.b0 * q.A0_dot_B0) ∨
        inVoronoi eps q.a1 q.b0 q.A0_dot_B0 (q.T.x - q.a0 + q.bA0_dot_B1) q.A1_dot_B0 (q.T.y + q.bA1_dot_B1) (q.Tba.x - q.aA0_dot_B0) = true := by
      refine c4.imp (fun c => ?_) id
      simp only [UA1_ly, UA1_uy, UB0_lx, UB0_ux] at c
      split_ifs at c <;> simp only [ALL_x, ALU_x, AUL_x, AUU_x, ALL_y, ALU_y, AUL_y, AUU_y, BLL_x, BLU_x, BUL_x, BUU_x, BLL_y, BLU_y, BUL_y, BUU_y, aA0_dot_B0, aA0_dot_B1, aA1_dot_B0, aA1_dot_B1, bA0_dot_B0, bA1_dot_B0, bA0_dot_B1, bA1_dot_B1] at * <;> constructor <;> linarith
    obtain ⟨t0, t1, u0, u1, hl⟩ := edge_sound (A := (⟨0, 1, 0⟩ : V3 K)) (B := (q.R.col 0)) (N := (⟨1, 0, 0⟩ : V3 K)) (M := (q.R.col 1)) (s := (⟨q.a0, 0, 0⟩ : V3 K)) (q := (q.T + q.b1 • q.R.col 1)) he w.a1 w.b0
      (by simp [V3.dot]) (by rect_open; first | ring1 | linear_combination ((1:K)) * h00 | linear_combination (-(1:K)) * h00) (by simp [V3.dot]) (by rect_open; first | ring1 | linear_combination ((1:K)) * h01 | linear_combination (-(1:K)) * h01)
      (by rect_open; first | ring1 | linear_combination ((1:K)) * h01 | linear_combination (-(1:K)) * h01) (by rect_open; first | ring1 | linear_combination (q.b1) * h01 | linear_combination (-q.b1) * h01) (by rect_open; first | ring1 | linear_combination (q.b1) * h01 | linear_combination (-q.b1) * h01)
      (by rect_open; first | ring1 | linear_combination (q.b1) * h01 | linear_combination (-q.b1) * h01) (by rect_open; first | ring1 | linear_combination (q.b1) * h11 | linear_combination (-q.b1) * h11) (by rect_open; first | ring1 | linear_combination (q.b1) * h01 | linear_combination (-q.b1) * h01) (by rect_open; first | ring1 | linear_combination (q.b1) * h01 | linear_combination (-q.b1) * h01)
      (by rect_open; first | ring1 | linear_combination (q.b1) * h01 | linear_combination (-q.b1) * h01) (by rect_open; first | ring1 | linear_combination (q.b1) * h01 | linear_combination (-q.b1) * h01) pre1 k1 pre2 k2 htu
    refine ⟨⟨q.a0, t, ?_, ?_, ?_, ?_, rfl⟩,
      ⟨u, q.b1, ?_, ?_, ?_, ?_, ?_⟩, ?_⟩
    any_goals first | exact t0 | exact t1 | exact u0 | exact u1 | exact le_refl _ | exact w.a0 | exact w.a1 | exact w.b0 | exact w.b1
    · apply V3.ext' <;> simp [M3.col, V3.get] <;> ring
    · rintro x ⟨x0, x1, g0, g1, g2, g3, rfl⟩ y ⟨y0, y1, f0, f1, f2, f3, rfl⟩
      have := hl x1 y0 (q.a0 - x0) (q.b1 - y1) (by assumption) (by assumption) (by assumption) (by assumption) (by linarith) (by linarith)
      refine le_of_eq_of_le ?_ (le_of_le_of_eq this ?_)
      · simp [V3.dot, M3.col, V3.get]; try ring
      · simp [V3.dot, M3.col, V3.get]; try ring
  · exact absurd h (by simp)

theorem UA1LB0_good (w : q.WF) (he : 0 < eps) (h : q.UA1LB0 eps = some e) : q.Good e := by
  obtain ⟨h00, h11, h01⟩ := rot_coords w
  unfold UA1LB0 at h
  split at h
  · rename_i hc
    obtain ⟨⟨c1, c2⟩, c3, c4⟩ := hc
    obtain ⟨t, u, htu⟩ : ∃ t u, segCoords q.a1 q.b0 q.A1_dot_B0 q.T.y (q.Tba.x - q.aA0_dot_B0) = (t, u) := ⟨_, _, rfl⟩
    rw [htu] at h
    cases h
    have pre1 : 0 < (q.Tba.y - q.aA0_dot_B1) ∨ 0 < (q.Tba.y - q.aA0_dot_B1) + q.a1 * (-q.A1_dot_B1) := by
      simp only [LB0_lx, LB0_ux, UA1_ly, UA1_uy] at c1
      split_ifs at c1 <;> simp only [ALL_x, ALU_x, AUL_x, AUU_x, ALL_y, ALU_y, AUL_y, AUU_y, BLL_x, BLU_x, BUL_x, BUU_x, BLL_y, BLU_y, BUL_y, BUU_y, aA0_dot_B0, aA0_dot_B1, aA1_dot_B0, aA1_dot_B1, bA0_dot_B0, bA1_dot_B0, bA0_dot_B1, bA1_dot_B1] at * <;> first | (left; linarith) | (right; linarith)
    have pre2 : 0 < (q.T.x - q.a0) ∨ 0 < (q.T.x - q.a0) + q.b0 * q.A0_dot_B0 := by
      simp only [LB0_lx, LB0_ux, UA1_ly, UA1_uy] at c2
      split_ifs at c2 <;> simp only [ALL_x, ALU_x, AUL_x, AUU_x, ALL_y, ALU_y, AUL_y, AUU_y, BLL_x, BLU_x, BUL_x, BUU_x, BLL_y, BLU_y, BUL_y, BUU_y, aA0_dot_B0, aA0_dot_B1, aA1_dot_B0, aA1_dot_B1, bA0_dot_B0, bA1_dot_B0, bA0_dot_B1, bA1_dot_B1] at * <;> first | (left; linarith) | (right; linarith)
    have k1 : (0 < (q.Tba.y - q.aA0_dot_B1) ∧ 0 < (q.Tba.y - q.aA0_dot_B1) + q.a1 * (-q.A1_dot_B1)) ∨
        inVoronoi eps q.b0 q.a1 (-q.A1_dot_B1) (q.Tba.y - q.aA0_dot_B1) q.A1_dot_B0 (q.aA0_dot_B0 - q.Tba.x) (-q.T.y) = true := by
      refine c3.imp (fun c => ?_) id
      simp only [LB0_lx, LB0_ux, UA1_ly, UA1_uy] at c
      split_ifs at c <;> simp only [ALL_x, ALU_x, AUL_x, AUU_x, ALL_y, ALU_y, AUL_y, AUU_y, BLL_x, BLU_x, BUL_x, BUU_x, BLL_y, BLU_y, BUL_y, BUU_y, aA0_dot_B0, aA0_dot_B1, aA1_dot_B0, aA1_dot_B1, bA0_dot_B0, bA1_dot_B0, bA0_dot_B1, bA1_dot_B1] at * <;> constructor <;> linarith
    have k2 : (0 < (q.T.x - q.a0) ∧ 0 < (q.T.x - q.a0) + q.b0 * q.A0_dot_B0) ∨
        inVoronoi eps q.a1 q.b0 q.A0_dot_B0 (q.T.x - q.a0) q.A1_dot_B0 q.T.y (q.Tba.x - q.aA0_dot_B0) = true := by
      refine c4.imp (fun c => ?_) id
      simp only [LB0_lx, LB0_ux, UA1_ly, UA1_uy] at c
      split_ifs at c <;> simp only [ALL_x, ALU_x, AUL_x, AUU_x, ALL_y, ALU_y, AUL_y, AUU_y, BLL_x, BLU_x, BUL_x, BUU_x, BLL_y, BLU_y, BUL_y, BUU_y, aA0_dot_B0, aA0_dot_B1, aA1_dot_B0, aA1_dot_B1, bA0_dot_B0, bA1_dot_B0, bA0_dot_B1, bA1_dot_B1] at * <;> constructor <;> linarith
    obtain ⟨t0, t1, u0, u1, hl⟩ := edge_sound (A := (⟨0, 1, 0⟩ : V3 K)) (B := (q.R.col 0)) (N := (⟨1, 0, 0⟩ : V3 K)) (M := (-q.R.col 1)) (s := (⟨q.a0, 0, 0⟩ : V3 K)) (q := q.T) he w.a1 w.b0
      (by simp [V3.dot]) (by rect_open; first | ring1 | linear_combination ((1:K)) * h00 | linear_combination (-(1:K)) * h00) (by simp [V3.dot]) (by rect_open; first | ring1 | linear_combination ((1:K)) * h01 | linear_combination (-(1:K)) * h01)
      (by rect_open; first | ring1 | linear_combination ((1:K)) * h01 | linear_combination (-(1:K)) * h01) (by rect_open; first | ring1 | linear_combination (q.b1) * h01 | linear_combination (-q.b1) * h01) (by rect_open; first | ring1 | linear_combination (q.b1) * h01 | linear_combination (-q.b1) * h01)
      (by rect_open; first | ring1 | linear_combination (q.b1) * h01 | linear_combination (-q.b1) * h01) (by rect_open; first | ring1 | linear_combination (q.b1) * h11 | linear_combination (-q.b1) * h11) (by rect_open; first | ring1 | linear_combination (q.b1) * h01 | linear_combination (-q.b1) * h01) (by rect_open; first | ring1 | linear_combination (q.b1) * h01 | linear_combination (-q.b1) * h01)
      (by rect_open; first | ring1 | linear_combination (q.b1) * h01 | linear_combination (-q.b1) * h01) (by rect_open; first | ring1 | linear_combination (q.b1) * h01 | linear_combination (-q.b1) * h01) pre1 k1 pre2 k2 htu
    refine ⟨⟨q.a0, t, ?_, ?_, ?_, ?_, rfl⟩,
      ⟨u, 0, ?_, ?_, ?_, ?_, ?_⟩, ?_⟩
    any_goals first | exact t0 | exact t1 | exact u0 | exact u1 | exact le_refl _ | exact w.a0 | exact w.a1 | exact w.b0 | exact w.b1
    · apply V3.ext' <;> simp [M3.col, V3.get] <;> ring
    · rintro x ⟨x0, x1, g0, g1, g2, g3, rfl⟩ y ⟨y0, y1, f0, f1, f2, f3, rfl⟩
      have := hl x1 y0 (q.a0 - x0) y1 (by assumption) (by assumption) (by assumption) (by assumption) (by linarith) (by linarith)
      refine le_of_eq_of_le ?_ (le_of_le_of_eq this ?_)
      · simp [V3.dot, M3.col, V3.get]; try ring
      · simp [V3.dot, M3.col, V3.get]; try ring
  · exact absurd h (by simp)

theorem LA1UB1_good (w : q.WF) (he : 0 < eps) (h : q.LA1UB1 eps = some e) : q.Good e := by
  obtain ⟨h00, h11, h01⟩ := rot_coords w
  unfold LA1UB1 at h
  split at h
  · rename_i hc
    obtain ⟨⟨c1, c2⟩, c3, c4⟩ := hc
    obtain ⟨t, u, htu⟩ : ∃ t u, segCoords q.a1 q.b1 q.A1_dot_B1 (q.T.y + q.bA1_dot_B0) q.Tba.y = (t, u) := ⟨_, _, rfl⟩
    rw [htu] at h
    cases h
    have pre1 : 0 < (-q.Tba.x - q.b0) ∨ 0 < (-q.Tba.x - q.b0) + q.a1 * q.A1_dot_B0 := by
      simp only [LA1_lx, LA1_ux, UB1_lx, UB1_ux] at c1
      split_ifs at c1 <;> simp only [ALL_x, ALU_x, AUL_x, AUU_x, ALL_y, ALU_y, AUL_y, AUU_y, BLL_x, BLU_x, BUL_x, BUU_x, BLL_y, BLU_y, BUL_y, BUU_y, aA0_dot_B0, aA0_dot_B1, aA1_dot_B0, aA1_dot_B1, bA0_dot_B0, bA1_dot_B0, bA0_dot_B1, bA1_dot_B1] at * <;> first | (left; linarith) | (right; linarith)
    have pre2 : 0 < (-q.T.x - q.bA0_dot_B0) ∨ 0 < (-q.T.x - q.bA0_dot_B0) + q.b1 * (-q.A0_dot_B1) := by
      simp only [LA1_lx, LA1_ux, UB1_lx, UB1_ux] at c2
      split_ifs at c2 <;> simp only [ALL_x, ALU_x, AUL_x, AUU_x, ALL_y, ALU_y, AUL_y, AUU_y, BLL_x, BLU_x, BUL_x, BUU_x, BLL_y, BLU_y, BUL_y, BUU_y, aA0_dot_B0, aA0_dot_B1, aA1_dot_B0, aA1_dot_B1, bA0_dot_B0, bA1_dot_B0, bA0_dot_B1, bA1_dot_B1] at * <;> first | (left; linarith) | (right; linarith)
    have k1 : (0 < (-q.Tba.x - q.b0) ∧ 0 < (-q.Tba.x - q.b0) + q.a1 * q.A1_dot_B0) ∨
        inVoronoi eps q.b1 q.a1 q.A1_dot_B0 (-q.Tba.x - q.b0) q.A1_dot_B1 (-q.Tba.y) (-q.T.y - q.bA1_dot_B0) = true := by
      refine c3.imp (fun c => ?_) id
      simp only [LA1_lx, LA1_ux, UB1_lx, UB1_ux] at c
      split_ifs at c <;> simp only [ALL_x, ALU_x, AUL_x, AUU_x, ALL_y, ALU_y, AUL_y, AUU_y, BLL_x, BLU_x, BUL_x, BUU_x, BLL_y, BLU_y, BUL_y, BUU_y, aA0_dot_B0, aA0_dot_B1, aA1_dot_B0, aA1_dot_B1, bA0_dot_B0, bA1_dot_B0, bA0_dot_B1, bA1_dot_B1] at * <;> constructor <;> linarith
    have k2 : (0 < (-q.T.x - q.bA0_dot_B0) ∧ 0 < (-q.T.x - q.bA0_dot_B0) + q.b1 * (-q.A0_dot_B1)) ∨
        inVoronoi eps q.a1 q.b1 (-q.A0_dot_B1) (-q.T.x - q.bA0_dot_B0) q.A1_dot_B1 (q.T.y + q.bA1_dot_B0) q.Tba.y = true := by
      refine c4.imp (fun c => ?_) id
      simp only [LA1_lx, LA1_ux, UB1_lx, UB1_ux] at c
      split_ifs at c <;> simp only [ALL_x, ALU_x, AUL_x, AUU_x, ALL_y, ALU_y, AUL_y, AUU_y, BLL_x, BLU_x, BUL_x, BUU_x, BLL_y, BLU_y, BUL_y, BUU_y, aA0_dot_B0, aA0_dot_B1, aA1_dot_B0, aA1_dot_B1, bA0_dot_B0, bA1_dot_B0, bA0_dot_B1, bA1_dot_B1] at * <;> constructor <;> linarith
    obtain ⟨t0, t1, u0, u1, hl⟩ := edge_sound (A := (⟨0, 1, 0⟩ : V3 K)) (B := (q.R.col 1)) (N := (⟨-1, 0, 0⟩ : V3 K)) (M := (q.R.col 0)) (s := (⟨0, 0, 0⟩ : V3 K)) (q := (q.T + q.b0 • q.R.col 0)) he w.a1 w.b1
      (by simp [V3.dot]) (by rect_open; first | ring1 | linear_combination ((1:K)) * h11 | linear_combination (-(1:K)) * h11) (by simp [V3.dot]) (by rect_open; first | ring1 | linear_combination ((1:K)) * h01 | linear_combination (-(1:K)) * h01)
      (by rect_open; first | ring1 | linear_combination ((1:K)) * h01 | linear_combination (-(1:K)) * h01) (by rect_open; first | ring1 | linear_combination (q.b0) * h01 | linear_combination (-q.b0) * h01) (by rect_open; first | ring1 | linear_combination (q.b0) * h01 | linear_combination (-q.b0) * h01)
      (by rect_open; first | ring1 | linear_combination (q.b0) * h01 | linear_combination (-q.b0) * h01) (by rect_open; first | ring1 | linear_combination (q.b0) * h00 | linear_combination (-q.b0) * h00) (by rect_open; first | ring1 | linear_combination (q.b0) * h01 | linear_combination (-q.b0) * h01) (by rect_open; first | ring1 | linear_combination (q.b0) * h01 | linear_combination (-q.b0) * h01)
      (by rect_open; first | ring1 | linear_combination (q.b0) * h01 | linear_combination (-q.b0) * h01) (by rect_open; first | ring1 | linear_combination (q.b0) * h01 | linear_combination (-q.b0) * h01) pre1 k1 pre2 k2 htu
    refine ⟨⟨0, t, ?_, ?_, ?_, ?_, rfl⟩,
      ⟨q.b0, u, ?_, ?_, ?_, ?_, ?_⟩, ?_⟩
    any_goals first | exact t0 | exact t1 | exact u0 | exact u1 | exact le_refl _ | exact w.a0 | exact w.a1 | exact w.b0 | exact w.b1
    · apply V3.ext' <;> simp [M3.col, V3.get] <;> ring
    · rintro x ⟨x0, x1, g0, g1, g2, g3, rfl⟩ y ⟨y0, y1, f0, f1, f2, f3, rfl⟩
      have := hl x1 y1 x0 (q.b0 - y0) (by assumption) (by assumption) (by assumption) (by assumption) (by linarith) (by linarith)
      refine le_of_eq_of_le ?_ (le_of_le_of_eq this ?_)
      · simp [V3.dot, M3.col, V3.get]; try ring
      · simp [V3.dot, M3.col, V3.get]; try ring
  · exact absurd h (by simp)

theorem LA1LB1_good (w : q.WF) (he : 0 < eps) (h : q.LA1LB1 eps = some e) : q.Good e := by
  obtain ⟨h00, h11, h01⟩ := rot_coords w
  unfold LA1LB1 at h
  split at h
  · rename_i hc
    obtain ⟨⟨c1, c2⟩, c3, c4⟩ := hc
    obtain ⟨t, u, htu⟩ : ∃ t u, segCoords q.a1 q.b1 q.A1_dot_B1 q.T.y q.Tba.y = (t, u) := ⟨_, _, rfl⟩
    rw [htu] at h
    cases h
    have pre1 : 0 < q.Tba.x ∨ 0 < q.Tba.x + q.a1 * (-q.A1_dot_B0) := by
      simp only [LA1_lx, LA1_ux, LB1_lx, LB1_ux] at c1
      split_ifs at c1 <;> simp only [ALL_x, ALU_x, AUL_x, AUU_x, ALL_y, ALU_y, AUL_y, AUU_y, BLL_x, BLU_x, BUL_x, BUU_x, BLL_y, BLU_y, BUL_y, BUU_y, aA0_dot_B0, aA0_dot_B1, aA1_dot_B0, aA1_dot_B1, bA0_dot_B0, bA1_dot_B0, bA0_dot_B1, bA1_dot_B1] at * <;> first | (left; linarith) | (right; linarith)
    have pre2 : 0 < (-q.T.x) ∨ 0 < (-q.T.x) + q.b1 * (-q.A0_dot_B1) := by
      simp only [LA1_lx, LA1_ux, LB1_lx, LB1_ux] at c2
      split_ifs at c2 <;> simp only [ALL_x, ALU_x, AUL_x, AUU_x, ALL_y, ALU_y, AUL_y, AUU_y, BLL_x, BLU_x, BUL_x, BUU_x, BLL_y, BLU_y, BUL_y, BUU_y, aA0_dot_B0, aA0_dot_B1, aA1_dot_B0, aA1_dot_B1, bA0_dot_B0, bA1_dot_B0, bA0_dot_B1, bA1_dot_B1] at * <;> first | (left; linarith) | (right; linarith)
    have k1 : (0 < q.Tba.x ∧ 0 < q.Tba.x + q.a1 * (-q.A1_dot_B0)) ∨
        inVoronoi eps q.b1 q.a1 (-q.A1_dot_B0) q.Tba.x q.A1_dot_B1 (-q.Tba.y) (-q.T.y) = true := by
      refine c3.imp (fun c => ?_) id
      simp only [LA1_lx, LA1_ux, LB1_lx, LB1_ux] at c
      split_ifs at c <;> simp only [ALL_x, ALU_x, AUL_x, AUU_x, ALL_y, ALU_y, AUL_y, AUU_y, BLL_x, BLU_x, BUL_x, BUU_x, BLL_y, BLU_y, BUL_y, BUU_y, aA0_dot_B0, aA0_dot_B1, aA1_dot_B0, aA1_dot_B1, bA0_dot_B0, bA1_dot_B0, bA0_dot_B1, bA1_dot_B1] at * <;> constructor <;> linarith
    have k2 : (0 < (-q.T.x) ∧ 0 < (-q.T.x) + q.b1 * (-q.A0_dot_B1)) ∨
        inVoronoi eps q.a1 q.b1 (-q.A0_dot_B1) (-q.T.x) q.A1_dot_B1 q.T.y q.Tba.y = true := by
      refine c4.imp (fun c => ?_) id
      simp only [LA1_lx, LA1_ux, LB1_lx, LB1_ux] at c
      split_ifs at c <;> simp only [ALL_x, ALU_x, AUL_x, AUU_x, ALL_y, ALU_y, AUL_y, AUU_y, BLL_x, BLU_x, BUL_x, BUU_x, BLL_y, BLU_y, BUL_y, BUU_y, aA0_dot_B0, aA0_dot_B1, aA1_dot_B0, aA1_dot_B1, bA0_dot_B0, bA1_dot_B0, bA0_dot_B1, bA1_dot_B1] at * <;> constructor <;> linarith
    obtain ⟨t0, t1, u0, u1, hl⟩ := edge_sound (A := (⟨0, 1, 0⟩ : V3 K)) (B := (q.R.col 1)) (N := (⟨-1, 0, 0⟩ : V3 K)) (M := (-q.R.col 0)) (s := (⟨0, 0, 0⟩ : V3 K)) (q := q.T) he w.a1 w.b1
      (by simp [V3.dot]) (by rect_open; first | ring1 | linear_combination ((1:K)) * h11 | linear_combination (-(1:K)) * h11) (by simp [V3.dot]) (by rect_open; first | ring1 | linear_combination ((1:K)) * h01 | linear_combination (-(1:K)) * h01)
      (by rect_open; first | ring1 | linear_combination ((1:K)) * h01 | linear_combination (-(1:K)) * h01) (by rect_open; first | ring1 | linear_combination (q.b0) * h01 | linear_combination (-q.b0) * h01) (by rect_open; first | ring1 | linear_combination (q.b0) * h01 | linear_combination (-q.b0) * h01)
      (by rect_open; first | ring1 | linear_combination (q.b0) * h01 | linear_combination (-q.b0) * h01) (by rect_open; first | ring1 | linear_combination (q.b0) * h00 | linear_combination (-q.b0) * h00) (by rect_open; first | ring1 | linear_combination (q.b0) * h01 | linear_combination (-q.b0) * h01) (by rect_open; first | ring1 | linear_combination (q.b0) * h01 | linear_combination (-q.b0) * h01)
      (by rect_open; first | ring1 | linear_combination (q.b0) * h01 | linear_combination (-q.b0) * h01) (by rect_open; first | ring1 | linear_combination (q.b0) * h01 | linear_combination (-q.b0) * h01) pre1 k1 pre2 k2 htu
    refine ⟨⟨0, t, ?_, ?_, ?_, ?_, rfl⟩,
      ⟨0, u, ?_, ?_, ?_, ?_, ?_⟩, ?_⟩
    any_goals first | exact t0 | exact t1 | exact u0 | exact u1 | exact le_refl _ | exact w.a0 | exact w.a1 | exact w.b0 | exact w.b1
    · apply V3.ext' <;> simp [M3.col, V3.get] <;> ring
    · rintro x ⟨x0, x1, g0, g1, g2, g3, rfl⟩ y ⟨y0, y1, f0, f1, f2, f3, rfl⟩
      have := hl x1 y1 x0 y0 (by assumption) (by assumption) (by assumption) (by assumption) (by linarith) (by linarith)
      refine le_of_eq_of_le ?_ (le_of_le_of_eq this ?_)
      · simp [V3.dot, M3.col, V3.get]; try ring
      · simp [V3.dot, M3.col, V3.get]; try ring
  · exact absurd h (by simp)

theorem LA1UB0_good (w : q.WF) (he : 0 < eps) (h : q.LA1UB0 eps = some e) : q.Good e := by
  obtain ⟨h00, h11, h01⟩ := rot_coords w
  unfold LA1UB0 at h
  split at h
  · rename_i hc
    obtain ⟨⟨c1, c2⟩, c3, c4⟩ := hc
    obtain ⟨t, u, htu⟩ : ∃ t u, segCoords q.a1 q.b0 q.A1_dot_B0 (q.T.y + q.bA1_dot_B1) q.Tba.x = (t, u) := ⟨_, _, rfl⟩
    rw [htu] at h
    cases h
    have pre1 : 0 < (-q.Tba.y - q.b1) ∨ 0 < (-q.Tba.y - q.b1) + q.a1 * q.A1_dot_B1 := by
      simp only [LA1_ly, LA1_uy, UB0_lx, UB0_ux] at c1
      split_ifs at c1 <;> simp only [ALL_x, ALU_x, AUL_x, AUU_x, ALL_y, ALU_y, AUL_y, AUU_y, BLL_x, BLU_x, BUL_x, BUU_x, BLL_y, BLU_y, BUL_y, BUU_y, aA0_dot_B0, aA0_dot_B1, aA1_dot_B0, aA1_dot_B1, bA0_dot_B0, bA1_dot_B0, bA0_dot_B1, bA1_dot_B1] at * <;> first | (left; linarith) | (right; linarith)
    have pre2 : 0 < (-q.T.x - q.bA0_dot_B1) ∨ 0 < (-q.T.x - q.bA0_dot_B1) + q.b0 * (-q.A0_dot_B0) := by
      simp only [LA1_ly, LA1_uy, UB0_lx, UB0_ux] at c2
      split_ifs at c2 <;> simp only [ALL_x, ALU_x, AUL_x, AUU_x, ALL_y, ALU_y, AUL_y, AUU_y, BLL_x, BLU_x, BUL_x, BUU_x, BLL_y, BLU_y, BUL_y, BUU_y, aA0_dot_B0, aA0_dot_B1, aA1_dot_B0, aA1_dot_B1, bA0_dot_B0, bA1_dot_B0, bA0_dot_B1, bA1_dot_B1] at * <;> first | (left; linarith) | (right; linarith)
    have k1 : (0 < (-q.Tba.y - q.b1) ∧ 0 < (-q.Tba.y - q.b1) + q.a1 * q.A1_dot_B1) ∨
        inVoronoi eps q.b0 q.a1 q.A1_dot_B1 (-q.Tba.y - q.b1) q.A1_dot_B0 (-q.Tba.x) (-q.T.y - q.bA1_dot_B1) = true := by
      refine c3.imp (fun c => ?_) id
      simp only [LA1_ly, LA1_uy, UB0_lx, UB0_ux] at c
      split_ifs at c <;> simp only [ALL_x, ALU_x, AUL_x, AUU_x, ALL_y, ALU_y, AUL_y, AUU_y, BLL_x, BLU_x, BUL_x, BUU_x, BLL_y, BLU_y, BUL_y, BUU_y, aA0_dot_B0, aA0_dot_B1, aA1_dot_B0, aA1_dot_B1, bA0_dot_B0, bA1_dot_B0, bA0_dot_B1, bA1_dot_B1] at * <;> constructor <;> linarith
    have k2 : (0 < (-q.T.x - q.bA0_dot_B1) ∧ 0 < (-q.T.x - q.bA0_dot_B1) + q.b0 * (-q.A0_dot_B0)) ∨
        inVoronoi eps q.a1 q.b0 (-q.A0_dot_B0) (-q.T.x - q.bA0_dot_B1) q.A1_dot_B0 (q.T.y + q.bA1_dot_B1) q.Tba.x = true := by
      refine c4.imp (fun c => ?_) id
      simp only [LA1_ly, LA1_uy, UB0_lx, UB0_ux] at c
      split_ifs at c <;> simp only [ALL_x, ALU_x, AUL_x, AUU_x, ALL_y, ALU_y, AUL_y, AUU_y, BLL_x, BLU_x, BUL_x, BUU_x, BLL_y, BLU_y, BUL_y, BUU_y, aA0_dot_B0, aA0_dot_B1, aA1_dot_B0, aA1_dot_B1, bA0_dot_B0, bA1_dot_B0, bA0_dot_B1, bA1_dot_B1] at * <;> constructor <;> linarith
    obtain ⟨t0, t1, u0, u1, hl⟩ := edge_sound (A := (⟨0, 1, 0⟩ : V3 K)) (B := (q.R.col 0)) (N := (⟨-1, 0, 0⟩ : V3 K)) (M := (q.R.col 1)) (s := (⟨0, 0, 0⟩ : V3 K)) (q := (q.T + q.b1 • q.R.col 1)) he w.a1 w.b0
      (by simp [V3.dot]) (by rect_open; first | ring1 | linear_combination ((1:K)) * h00 | linear_combination (-(1:K)) * h00) (by simp [V3.dot]) (by rect_open; first | ring1 | linear_combination ((1:K)) * h01 | linear_combination (-(1:K)) * h01)
      (by rect_open; first | ring1 | linear_combination ((1:K)) * h01 | linear_combination (-(1:K)) * h01) (by rect_open; first | ring1 | linear_combination (q.b1) * h01 | linear_combination (-q.b1) * h01) (by rect_open; first | ring1 | linear_combination (q.b1) * h01 | linear_combination (-q.b1) * h01)
      (by rect_open; first | ring1 | linear_combination (q.b1) * h01 | linear_combination (-q.b1) * h01) (by rect_open; first | ring1 | linear_combination (q.b1) * h11 | linear_combination (-q.b1) * h11) (by rect_open; first | ring1 | linear_combination (q.b1) * h01 | linear_combination (-q.b1) * h01) (by rect_open; first | ring1 | linear_combination (q.b1) * h01 | linear_combination (-q.b1) * h01)
      (by rect_open; first | ring1 | linear_combination (q.b1) * h01 | linear_combination (-q.b1) * h01) (by rect_open; first | ring1 | linear_combination (q.b1) * h01 | linear_combination (-q.b1) * h01) pre1 k1 pre2 k2 htu
    refine ⟨⟨0, t, ?_, ?_, ?_, ?_, rfl⟩,
      ⟨u, q.b1, ?_, ?_, ?_, ?_, ?_⟩, ?_⟩
    any_goals first | exact t0 | exact t1 | exact u0 | exact u1 | exact le_refl _ | exact w.a0 | exact w.a1 | exact w.b0 | exact w.b1
    · apply V3.ext' <;> simp [M3.col, V3.get] <;> ring
    · rintro x ⟨x0, x1, g0, g1, g2, g3, rfl⟩ y ⟨y0, y1, f0, f1, f2, f3, rfl⟩
      have := hl x1 y0 x0 (q.b1 - y1) (by assumption) (by assumption) (by assumption) (by assumption) (by linarith) (by linarith)
      refine le_of_eq_of_le ?_ (le_of_le_of_eq this ?_)
      · simp [V3.dot, M3.col, V3.get]; try ring
      · simp [V3.dot, M3.col, V3.get]; try ring
  · exact absurd h (by simp)

theorem LA1LB0_good (w : q.WF) (he : 0 < eps) (h : q.LA1LB0 eps = some e) : q.Good e := by
  obtain ⟨h00, h11, h01⟩ := rot_coords w
  unfold LA1LB0 at h
  split at h
  · rename_i hc
    obtain ⟨⟨c1, c2⟩, c3, c4⟩ := hc
    obtain ⟨t, u, htu⟩ : ∃ t u, segCoords q.a1 q.b0 q.A1_dot_B0 q.T.y q.Tba.x = (t, u) := ⟨_, _, rfl⟩
    rw [htu] at h
    cases h
    have pre1 : 0 < q.Tba.y ∨ 0 < q.Tba.y + q.a1 * (-q.A1_dot_B1) := by
      simp only [LA1_ly, LA1_uy, LB0_lx, LB0_ux] at c1
      split_ifs at c1 <;> simp only [ALL_x, ALU_x, AUL_x, AUU_x, ALL_y, ALU_y, AUL_y, AUU_y, BLL_x, BLU_x, BUL_x, BUU_x, BLL_y, BLU_y, BUL_y, BUU_y, aA0_dot_B0, aA0_dot_B1, aA1_dot_B0, aA1_dot_B1, bA0_dot_B0, bA1_dot_B0, bA0_dot_B1, bA1_dot_B1] at * <;> first | (left; linarith) | (right; linarith)
    have pre2 : 0 < (-q.T.x) ∨ 0 < (-q.T.x) + q.b0 * (-q.A0_dot_B0) := by
      simp only [LA1_ly, LA1_uy, LB0_lx, LB0_ux] at c2
      split_ifs at c2 <;> simp only [ALL_x, ALU_x, AUL_x, AUU_x, ALL_y, ALU_y, AUL_y, AUU_y, BLL_x, BLU_x, BUL_x, BUU_x, BLL_y, BLU_y, BUL_y, BUU_y, aA0_dot_B0, aA0_dot_B1, aA1_dot_B0, aA1_dot_B1, bA0_dot_B0, bA1_dot_B0, bA0_dot_B1, bA1_dot_B1] at * <;> first | (left; linarith) | (right; linarith)
    have k1 : (0 < q.Tba.y ∧ 0 < q.Tba.y + q.a1 * (-q.A1_dot_B1)) ∨
        inVoronoi eps q.b0 q.a1 (-q.A1_dot_B1) q.Tba.y q.A1_dot_B0 (-q.Tba.x) (-q.T.y) = true := by
      refine c3.imp (fun c => ?_) id
      simp only [LA1_ly, LA1_uy, LB0_lx, LB0_ux] at c
      split_ifs at c <;> simp only [ALL_x, ALU_x, AUL_x, AUU_x, ALL_y, ALU_y, AUL_y, AUU_y, BLL_x, BLU_x, BUL_x, BUU_x, BLL_y, BLU_y, BUL_y, BUU_y, aA0_dot_B0, aA0_dot_B1, aA1_dot_B0, aA1_dot_B1, bA0_dot_B0, bA1_dot_B0, bA0_dot_B1, bA1_dot_B1] at * <;> constructor <;> linarith
    have k2 : (0 < (-q.T.x) ∧ 0 < (-q.T.x) + q.b0 * (-q.A0_dot_B0)) ∨
        inVoronoi eps q.a1 q.b0 (-q.A0_dot_B0) (-q.T.x) q.A1_dot_B0 q.T.y q.Tba.x = true := by
      refine c4.imp (fun c => ?_) id
      simp only [LA1_ly, LA1_uy, LB0_lx, LB0_ux] at c
      split_ifs at c <;> simp only [ALL_x, ALU_x, AUL_x, AUU_x, ALL_y, ALU_y, AUL_y, AUU_y, BLL_x, BLU_x, BUL_x, BUU_x, BLL_y, BLU_y, BUL_y, BUU_y, aA0_dot_B0, aA0_dot_B1, aA1_dot_B0, aA1_dot_B1, bA0_dot_B0, bA1_dot_B0, bA0_dot_B1, bA1_dot_B1] at * <;> constructor <;> linarith
    obtain ⟨t0, t1, u0, u1, hl⟩ := edge_sound (A := (⟨0, 1, 0⟩ : V3 K)) (B := (q.R.col 0)) (N := (⟨-1, 0, 0⟩ : V3 K)) (M := (-q.R.col 1)) (s := (⟨0, 0, 0⟩ : V3 K)) (q := q.T) he w.a1 w.b0
      (by simp [V3.dot]) (by rect_open; first | ring1 | linear_combination ((1:K)) * h00 | linear_combination (-(1:K)) * h00) (by simp [V3.dot]) (by rect_open; first | ring1 | linear_combination ((1:K)) * h01 | linear_combination (-(1:K)) * h01)
      (by rect_open; first | ring1 | linear_combination ((1:K)) * h01 | linear_combination (-(1:K)) * h01) (by rect_open; first | ring1 | linear_combination (q.b1) * h01 | linear_combination (-q.b1) * h01) (by rect_open; first | ring1 | linear_combination (q.b1) * h01 | linear_combination (-q.b1) * h01)
      (by rect_open; first | ring1 | linear_combination (q.b1) * h01 | linear_combination (-q.b1) * h01) (by rect_open; first | ring1 | linear_combination (q.b1) * h11 | linear_combination (-q.b1) * h11) (by rect_open; first | ring1 | linear_combination (q.b1) * h01 | linear_combination (-q.b1) * h01) (by rect_open; first | ring1 | linear_combination (q.b1) * h01 | linear_combination (-q.b1) * h01)
      (by rect_open; first | ring1 | linear_combination (q.b1) * h01 | linear_combination (-q.b1) * h01) (by rect_open; first | ring1 | linear_combination (q.b1) * h01 | linear_combination (-q.b1) * h01) pre1 k1 pre2 k2 htu
    refine ⟨⟨0, t, ?_, ?_, ?_, ?_, rfl⟩,
      ⟨u, 0, ?_, ?_, ?_, ?_, ?_⟩, ?_⟩
    any_goals first | exact t0 | exact t1 | exact u0 | exact u1 | exact le_refl _ | exact w.a0 | exact w.a1 | exact w.b0 | exact w.b1
    · apply V3.ext' <;> simp [M3.col, V3.get] <;> ring
    · rintro x ⟨x0, x1, g0, g1, g2, g3, rfl⟩ y ⟨y0, y1, f0, f1, f2, f3, rfl⟩
      have := hl x1 y0 x0 y1 (by assumption) (by assumption) (by assumption) (by assumption) (by linarith) (by linarith)
      refine le_of_eq_of_le ?_ (le_of_le_of_eq this ?_)
      · simp [V3.dot, M3.col, V3.get]; try ring
      · simp [V3.dot, M3.col, V3.get]; try ring
  · exact absurd h (by simp)

theorem UA0UB1_good (w : q.WF) (he : 0 < eps) (h : q.UA0UB1 eps = some e) : q.Good e := by
  obtain ⟨h00, h11, h01⟩ := rot_coords w
  unfold UA0UB1 at h
  split at h
  · rename_i hc
    obtain ⟨⟨c1, c2⟩, c3, c4⟩ := hc
    obtain ⟨t, u, htu⟩ : ∃ t u, segCoords q.a0 q.b1 q.A0_dot_B1 (q.T.x + q.bA0_dot_B0) (q.Tba.y - q.aA1_dot_B1) = (t, u) := ⟨_, _, rfl⟩
    rw [htu] at h
    cases h
    have pre1 : 0 < (q.aA1_dot_B0 - q.Tba.x - q.b0) ∨ 0 < (q.aA1_dot_B0 - q.Tba.x - q.b0) + q.a0 * q.A0_dot_B0 := by
      simp only [UA0_lx, UA0_ux, UB1_ly, UB1_uy] at c1
      split_ifs at c1 <;> simp only [ALL_x, ALU_x, AUL_x, AUU_x, ALL_y, ALU_y, AUL_y, AUU_y, BLL_x, BLU_x, BUL_x, BUU_x, BLL_y, BLU_y, BUL_y, BUU_y, aA0_dot_B0, aA0_dot_B1, aA1_dot_B0, aA1_dot_B1, bA0_dot_B0, bA1_dot_B0, bA0_dot_B1, bA1_dot_B1] at * <;> first | (left; linarith) | (right; linarith)
    have pre2 : 0 < (q.T.y - q.a1 + q.bA1_dot_B0) ∨ 0 < (q.T.y - q.a1 + q.bA1_dot_B0) + q.b1 * q.A1_dot_B1 := by
      simp only [UA0_lx, UA0_ux, UB1_ly, UB1_uy] at c2
      split_ifs at c2 <;> simp only [ALL_x, ALU_x, AUL_x, AUU_x, ALL_y, ALU_y, AUL_y, AUU_y, BLL_x, BLU_x, BUL_x, BUU_x, BLL_y, BLU_y, BUL_y, BUU_y, aA0_dot_B0, aA0_dot_B1, aA1_dot_B0, aA1_dot_B1, bA0_dot_B0, bA1_dot_B0, bA0_dot_B1, bA1_dot_B1] at * <;> first | (left; linarith) | (right; linarith)
    have k1 : (0 < (q.aA1_dot_B0 - q.Tba.x - q.b0) ∧ 0 < (q.aA1_dot_B0 - q.Tba.x - q.b0) + q.a0 * q.A0_dot_B0) ∨
        inVoronoi eps q.b1 q.a0 q.A0_dot_B0 (q.aA1_dot_B0 - q.Tba.x - q.b0) q.A0_dot_B1 (q.aA1_dot_B1 - q.Tba.y) (-q.T.x - q.bA0_dot_B0) = true := by
      refine c3.imp (fun c => ?_) id
      simp only [UA0_lx, UA0_ux, UB1_ly, UB1_uy] at c
      split_ifs at c <;> simp only [ALL_x, ALU_x, AUL_x, AUU_x, ALL_y, ALU_y, AUL_y, AUU_y, BLL_x, BLU_x, BUL_x, BUU_x, BLL_y, BLU_y, BUL_y, BUU_y, aA0_dot_B0, aA0_dot_B1, aA1_dot_B0, aA1_dot_B1, bA0_dot_B0, bA1_dot_B0, bA0_dot_B1, bA1_dot_B1] at * <;> constructor <;> linarith
    have k2 : (0 < (q.T.y - q.a1 + q.bA1_dot_B0) ∧ 0 < (q.T.y - q.a1 + q.bA1_dot_B0) + q.b1 * q.A1_dot_B1) ∨
        inVoronoi eps q.a0 q.b1 q.A1_dot_B1 (q.T.y - q.a1 + q.bA1_dot_B0) q.A0_dot_B1 (q.T.x + q.bA0_dot_B0) (q.Tba.y - q.aA1_dot_B1) = true := by
      refine c4.imp (fun c => ?_) id
      simp only [UA0_lx, UA0_ux, UB1_ly, UB1_uy] at c
      split_ifs at c <;> simp only [ALL_x, ALU_x, AUL_x, AUU_x, ALL_y, ALU_y, AUL_y, AUU_y, BLL_x, BLU_x, BUL_x, BUU_x, BLL_y, BLU_y, BUL_y, BUU_y, aA0_dot_B0, aA0_dot_B1, aA1_dot_B0, aA1_dot_B1, bA0_dot_B0, bA1_dot_B0, bA0_dot_B1, bA1_dot_B1] at * <;> constructor <;> linarith
    obtain ⟨t0, t1, u0, u1, hl⟩ := edge_sound (A := (⟨1, 0, 0⟩ : V3 K)) (B := (q.R.col 1)) (N := (⟨0, 1, 0⟩ : V3 K)) (M := (q.R.col 0)) (s := (⟨0, q.a1, 0⟩ : V3 K)) (q := (q.T + q.b0 • q.R.col 0)) he w.a0 w.b1
      (by simp [V3.dot]) (by rect_open; first | ring1 | linear_combination ((1:K)) * h11 | linear_combination (-(1:K)) * h11) (by simp [V3.dot]) (by rect_open; first | ring1 | linear_combination ((1:K)) * h01 | linear_combination (-(1:K)) * h01)
      (by rect_open; first | ring1 | linear_combination ((1:K)) * h01 | linear_combination (-(1:K)) * h01) (by rect_open; first | ring1 | linear_combination (q.b0) * h01 | linear_combination (-q.b0) * h01) (by rect_open; first | ring1 | linear_combination (q.b0) * h01 | linear_combination (-q.b0) * h01)
      (by rect_open; first | ring1 | linear_combination (q.b0) * h01 | linear_combination (-q.b0) * h01) (by rect_open; first | ring1 | linear_combination (q.b0) * h00 | linear_combination (-q.b0) * h00) (by rect_open; first | ring1 | linear_combination (q.b0) * h01 | linear_combination (-q.b0) * h01) (by rect_open; first | ring1 | linear_combination (q.b0) * h01 | linear_combination (-q.b0) * h01)
      (by rect_open; first | ring1 | linear_combination (q.b0) * h01 | linear_combination (-q.b0) * h01) (by rect_open; first | ring1 | linear_combination (q.b0) * h01 | linear_combination (-q.b0) * h01) pre1 k1 pre2 k2 htu
    refine ⟨⟨t, q.a1, ?_, ?_, ?_, ?_, rfl⟩,
      ⟨q.b0, u, ?_, ?_, ?_, ?_, ?_⟩, ?_⟩
    any_goals first | exact t0 | exact t1 | exact u0 | exact u1 | exact le_refl _ | exact w.a0 | exact w.a1 | exact w.b0 | exact w.b1
    · apply V3.ext' <;> simp [M3.col, V3.get] <;> ring
    · rintro x ⟨x0, x1, g0, g1, g2, g3, rfl⟩ y ⟨y0, y1, f0, f1, f2, f3, rfl⟩
      have := hl x0 y1 (q.a1 - x1) (q.b0 - y0) (by assumption) (by assumption) (by assumption) (by assumption) (by linarith) (by linarith)
      refine le_of_eq_of_le ?_ (le_of_le_of_eq this ?_)
      · simp [V3.dot, M3.col, V3.get]; try ring
      · simp [V3.dot, M3.col, V3.get]; try ring
  · exact absurd h (by simp)

theorem UA0LB1_good (w : q.WF) (he : 0 < eps) (h : q.UA0LB1 eps = some e) : q.Good e := by
  obtain ⟨h00, h11, h01⟩ := rot_coords w
  unfold UA0LB1 at h
  split at h
  · rename_i hc
    obtain ⟨⟨c1, c2⟩, c3, c4⟩ := hc
    obtain ⟨t, u, htu⟩ : ∃ t u, segCoords q.a0 q.b1 q.A0_dot_B1 q.T.x (q.Tba.y - q.aA1_dot_B1) = (t, u) := ⟨_, _, rfl⟩
    rw [htu] at h
    cases h
    have pre1 : 0 < (q.Tba.x - q.aA1_dot_B0) ∨ 0 < (q.Tba.x - q.aA1_dot_B0) + q.a0 * (-q.A0_dot_B0) := by
      simp only [LB1_ly, LB1_uy, UA0_lx, UA0_ux] at c1
      split_ifs at c1 <;> simp only [ALL_x, ALU_x, AUL_x, AUU_x, ALL_y, ALU_y, AUL_y, AUU_y, BLL_x, BLU_x, BUL_x, BUU_x, BLL_y, BLU_y, BUL_y, BUU_y, aA0_dot_B0, aA0_dot_B1, aA1_dot_B0, aA1_dot_B1, bA0_dot_B0, bA1_dot_B0, bA0_dot_B1, bA1_dot_B1] at * <;> first | (left; linarith) | (right; linarith)
    have pre2 : 0 < (q.T.y - q.a1) ∨ 0 < (q.T.y - q.a1) + q.b1 * q.A1_dot_B1 := by
      simp only [LB1_ly, LB1_uy, UA0_lx, UA0_ux] at c2
      split_ifs at c2 <;> simp only [ALL_x, ALU_x, AUL_x, AUU_x, ALL_y, ALU_y, AUL_y, AUU_y, BLL_x, BLU_x, BUL_x, BUU_x, BLL_y, BLU_y, BUL_y, BUU_y, aA0_dot_B0, aA0_dot_B1, aA1_dot_B0, aA1_dot_B1, bA0_dot_B0, bA1_dot_B0, bA0_dot_B1, bA1_dot_B1] at * <;> first | (left; linarith) | (right; linarith)
    have k1 : (0 < (q.Tba.x - q.aA1_dot_B0) ∧ 0 < (q.Tba.x - q.aA1_dot_B0) + q.a0 * (-q.A0_dot_B0)) ∨
        inVoronoi eps q.b1 q.a0 (-q.A0_dot_B0) (q.Tba.x - q.aA1_dot_B0) q.A0_dot_B1 (q.aA1_dot_B1 - q.Tba.y) (-q.T.x) = true := by
      refine c3.imp (fun c => ?_) id
      simp only [LB1_ly, LB1_uy, UA0_lx, UA0_ux] at c
      split_ifs at c <;> simp only [ALL_x, ALU_x, AUL_x, AUU_x, ALL_y, ALU_y, AUL_y, AUU_y, BLL_x, BLU_x, BUL_x, BUU_x, BLL_y, BLU_y, BUL_y, BUU_y, aA0_dot_B0, aA0_dot_B1, aA1_dot_B0, aA1_dot_B1, bA0_dot_B0, bA1_dot_B0, bA0_dot_B1, bA1_dot_B1] at * <;> constructor <;> linarith
    have k2 : (0 < (q.T.y - q.a1) ∧ 0 < (q.T.y - q.a1) + q.b1 * q.A1_dot_B1) ∨
        inVoronoi eps q.a0 q.b1 q.A1_dot_B1 (q.T.y - q.a1) q.A0_dot_B1 q.T.x (q.Tba.y - q.aA1_dot_B1) = true := by
      refine c4.imp (fun c => ?_) id
      simp only [LB1_ly, LB1_uy, UA0_lx, UA0_ux] at c
      split_ifs at c <;> simp only [ALL_x, ALU_x, AUL_x, AUU_x, ALL_y, ALU_y, AUL_y, AUU_y, BLL_x, BLU_x, BUL_x, BUU_x, BLL_y, BLU_y, BUL_y, BUU_y, aA0_dot_B0, aA0_dot_B1, aA1_dot_B0, aA1_dot_B1, bA0_dot_B0, bA1_dot_B0, bA0_dot_B1, bA1_dot_B1] at * <;> constructor <;> linarith
    obtain ⟨t0, t1, u0, u1, hl⟩ := edge_sound (A := (⟨1, 0, 0⟩ : V3 K)) (B := (q.R.col 1)) (N := (⟨0, 1, 0⟩ : V3 K)) (M := (-q.R.col 0)) (s := (⟨0, q.a1, 0⟩ : V3 K)) (q := q.T) he w.a0 w.b1
      (by simp [V3.dot]) (by rect_open; first | ring1 | linear_combination ((1:K)) * h11 | linear_combination (-(1:K)) * h11) (by simp [V3.dot]) (by rect_open; first | ring1 | linear_combination ((1:K)) * h01 | linear_combination (-(1:K)) * h01)
      (by rect_open; first | ring1 | linear_combination ((1:K)) * h01 | linear_combination (-(1:K)) * h01) (by rect_open; first | ring1 | linear_combination (q.b0) * h01 | linear_combination (-q.b0) * h01) (by rect_open; first | ring1 | linear_combination (q.b0) * h01 | linear_combination (-q.b0) * h01)
      (by rect_open; first | ring1 | linear_combination (q.b0) * h01 | linear_combination (-q.b0) * h01) (by rect_open; first | ring1 | linear_combination (q.b0) * h00 | linear_combination (-q.b0) * h00) (by rect_open; first | ring1 | linear_combination (q.b0) * h01 | linear_combination (-q.b0) * h01) (by rect_open; first | ring1 | linear_combination (q.b0) * h01 | linear_combination (-q.b0) * h01)
      (by rect_open; first | ring1 | linear_combination (q.b0) * h01 | linear_combination (-q.b0) * h01) (by rect_open; first | ring1 | linear_combination (q.b0) * h01 | linear_combination (-q.b0) * h01) pre1 k1 pre2 k2 htu
    refine ⟨⟨t, q.a1, ?_, ?_, ?_, ?_, rfl⟩,
      ⟨0, u, ?_, ?_, ?_, ?_, ?_⟩, ?_⟩
    any_goals first | exact t0 | exact t1 | exact u0 | exact u1 | exact le_refl _ | exact w.a0 | exact w.a1 | exact w.b0 | exact w.b1
    · apply V3.ext' <;> simp [M3.col, V3.get] <;> ring
    · rintro x ⟨x0, x1, g0, g1, g2, g3, rfl⟩ y ⟨y0, y1, f0, f1, f2, f3, rfl⟩
      have := hl x0 y1 (q.a1 - x1) y0 (by assumption) (by assumption) (by assumption) (by assumption) (by linarith) (by linarith)
      refine le_of_eq_of_le ?_ (le_of_le_of_eq this ?_)
      · simp [V3.dot, M3.col, V3.get]; try ring
      · simp [V3.dot, M3.col, V3.get]; try ring
  · exact absurd h (by simp)

theorem UA0UB0_good (w : q.WF) (he : 0 < eps) (h : q.UA0UB0 eps = some e) : q.Good e := by
  obtain ⟨h00, h11, h01⟩ := rot_coords w
  unfold UA0UB0 at h
  split at h
  · rename_i hc
    obtain ⟨⟨c1, c2⟩, c3, c4⟩ := hc
    obtain ⟨t, u, htu⟩ : ∃ t u, segCoords q.a0 q.b0 q.A0_dot_B0 (q.T.x + q.bA0_dot_B1) (q.Tba.x - q.aA1_dot_B0) = (t, u) := ⟨_, _, rfl⟩
    rw [htu] at h
    cases h
    have pre1 : 0 < (q.aA1_dot_B1 - q.Tba.y - q.b1) ∨ 0 < (q.aA1_dot_B1 - q.Tba.y - q.b1) + q.a0 * q.A0_dot_B1 := by
      simp only [UA0_ly, UA0_uy, UB0_ly, UB0_uy] at c1
      split_ifs at c1 <;> simp only [ALL_x, ALU_x, AUL_x, AUU_x, ALL_y, ALU_y, AUL_y, AUU_y, BLL_x, BLU_x, BUL_x, BUU_x, BLL_y, BLU_y, BUL_y, BUU_y, aA0_dot_B0, aA0_dot_B1, aA1_dot_B0, aA1_dot_B1, bA0_dot_B0, bA1_dot_B0, bA0_dot_B1, bA1_dot_B1] at * <;> first | (left; linarith) | (right; linarith)
    have pre2 : 0 < (q.T.y - q.a1 + q.bA1_dot_B1) ∨ 0 < (q.T.y - q.a1 + q.bA1_dot_B1) + q.b0 * q.A1_dot_B0 := by
      simp only [UA0_ly, UA0_uy, UB0_ly, UB0_uy] at c2
      split_ifs at c2 <;> simp only [ALL_x, ALU_x, AUL_x, AUU_x, ALL_y, ALU_y, AUL_y, AUU_y, BLL_x, BLU_x, BUL_x, BUU_x, BLL_y, BLU_y, BUL_y, BUU_y, aA0_dot_B0, aA0_dot_B1, aA1_dot_B0, aA1_dot_B1, bA0_dot_B0, bA1_dot_B0, bA0_dot_B1, bA1_dot_B1] at * <;> first | (left; linarith) | (right; linarith)
    have k1 : (0 < (q.aA1_dot_B1 - q.Tba.y - q.b1) ∧ 0 < (q.aA1_dot_B1 - q.Tba.y - q.b1) + q.a0 * q.A0_dot_B1) ∨
        inVoronoi eps q.b0 q.a0 q.A0_dot_B1 (q.aA1_dot_B1 - q.Tba.y - q.b1) q.A0_dot_B0 (q.aA1_dot_B0 - q.Tba.x) (-q.T.x - q.bA0_dot_B1) = true := by
      refine c3.imp (fun c => ?_) id
      simp only [UA0_ly, UA0_uy, UB0_ly, UB0_uy] at c
      split_ifs at c <;> simp only [ALL_x, ALU_x, AUL_x, AUU_x, ALL_y, ALU_y, AUL_y, AUU_y, BLL_x, BLU_x, BUL_x, BUU_x, BLL_y, BLU_y, BUL_y, BUU_y, aA0_dot_B0, aA0_dot_B1, aA1_dot_B0, aA1_dot_B1, bA0_dot_B0, bA1_dot_B0, bA0_dot_B1, bA1_dot_B1] at * <;> constructor <;> linarith
    have k2 : (0 < (q.T.y - q.a1 + q.bA1_dot_B1) ∧ 0 < (q.T.y - q.a1 + q.bA1_dot_B1) + q.b0 * q.A1_dot_B0) ∨
        inVoronoi eps q.a0 q.b0 q.A1_dot_B0 (q.T.y - q.a1 + q.bA1_dot_B1) q.A0_dot_B0 (q.T.x + q.bA0_dot_B1) (q.Tba.x - q.aA1_dot_B0) = true := by
      refine c4.imp (fun c => ?_) id
      simp only [UA0_ly, UA0_uy, UB0_ly, UB0_uy] at c
      split_ifs at c <;> simp only [ALL_x, ALU_x, AUL_x, AUU_x, ALL_y, ALU_y, AUL_y, AUU_y, BLL_x, BLU_x, BUL_x, BUU_x, BLL_y, BLU_y, BUL_y, BUU_y, aA0_dot_B0, aA0_dot_B1, aA1_dot_B0, aA1_dot_B1, bA0_dot_B0, bA1_dot_B0, bA0_dot_B1, bA1_dot_B1] at * <;> constructor <;> linarith
    obtain ⟨t0, t1, u0, u1, hl⟩ := edge_sound (A := (⟨1, 0, 0⟩ : V3 K)) (B := (q.R.col 0)) (N := (⟨0, 1, 0⟩ : V3 K)) (M := (q.R.col 1)) (s := (⟨0, q.a1, 0⟩ : V3 K)) (q := (q.T + q.b1 • q.R.col 1)) he w.a0 w.b0
      (by simp [V3.dot]) (by rect_open; first | ring1 | linear_combination ((1:K)) * h00 | linear_combination (-(1:K)) * h00) (by simp [V3.dot]) (by rect_open; first | ring1 | linear_combination ((1:K)) * h01 | linear_combination (-(1:K)) * h01)
      (by rect_open; first | ring1 | linear_combination ((1:K)) * h01 | linear_combination (-(1:K)) * h01) (by rect_open; first | ring1 | linear_combination (q.b1) * h01 | linear_combination (-q.b1) * h01) (by rect_open; first | ring1 | linear_combination (q.b1) * h01 | linear_combination (-q.b1) * h01)
      (by rect_open; first | ring1 | linear_combination (q.b1) * h01 | linear_combination (-q.b1) * h01) (by rect_open; first | ring1 | linear_combination (q.b1) * h11 | linear_combination (-q.b1) * h11) (by rect_open; first | ring1 | linear_combination (q.b1) * h01 | linear_combination (-q.b1) * h01) (by rect_open; first | ring1 | linear_combination (q.b1) * h01 | linear_combination (-q.b1) * h01)
      (by rect_open; first | ring1 | linear_combination (q.b1) * h01 | linear_combination (-q.b1) * h01) (by rect_open; first | ring1 | linear_combination (q.b1) * h01 | linear_combination (-q.b1) * h01) pre1 k1 pre2 k2 htu
    refine ⟨⟨t, q.a1, ?_, ?_, ?_, ?_, rfl⟩,
      ⟨u, q.b1, ?_, ?_, ?_, ?_, ?_⟩, ?_⟩
    any_goals first | exact t0 | exact t1 | exact u0 | exact u1 | exact le_refl _ | exact w.a0 | exact w.a1 | exact w.b0 | exact w.b1
    · apply V3.ext' <;> simp [M3.col, V3.get] <;> ring
    · rintro x ⟨x0, x1, g0, g1, g2, g3, rfl⟩ y ⟨y0, y1, f0, f1, f2, f3, rfl⟩
      have := hl x0 y0 (q.a1 - x1) (q.b1 - y1) (by assumption) (by assumption) (by assumption) (by assumption) (by linarith) (by linarith)
      refine le_of_eq_of_le ?_ (le_of_le_of_eq this ?_)
      · simp [V3.dot, M3.col, V3.get]; try ring
      · simp [V3.dot, M3.col, V3.get]; try ring
  · exact absurd h (by simp)

theorem UA0LB0_good (w : q.WF) (he : 0 < eps) (h : q.UA0LB0 eps = some e) : q.Good e := by
  obtain ⟨h00, h11, h01⟩ := rot_coords w
  unfold UA0LB0 at h
  split at h
  · rename_i hc
    obtain ⟨⟨c1, c2⟩, c3, c4⟩ := hc
    obtain ⟨t, u, htu⟩ : ∃ t u, segCoords q.a0 q.b0 q.A0_dot_B0 q.T.x (q.Tba.x - q.aA1_dot_B0) = (t, u) := ⟨_, _, rfl⟩
    rw [htu] at h
    cases h
    have pre1 : 0 < (q.Tba.y - q.aA1_dot_B1) ∨ 0 < (q.Tba.y - q.aA1_dot_B1) + q.a0 * (-q.A0_dot_B1) := by
      simp only [LB0_ly, LB0_uy, UA0_ly, UA0_uy] at c1
      split_ifs at c1 <;> simp only [ALL_x, ALU_x, AUL_x, AUU_x, ALL_y, ALU_y, AUL_y, AUU_y, BLL_x, BLU_x, BUL_x, BUU_x, BLL_y, BLU_y, BUL_y, BUU_y, aA0_dot_B0, aA0_dot_B1, aA1_dot_B0, aA1_dot_B1, bA0_dot_B0, bA1_dot_B0, bA0_dot_B1, bA1_dot_B1] at * <;> first | (left; linarith) | (right; linarith)
    have pre2 : 0 < (q.T.y - q.a1) ∨ 0 < (q.T.y - q.a1) + q.b0 * q.A1_dot_B0 := by
      simp only [LB0_ly, LB0_uy, UA0_ly, UA0_uy] at c2
      split_ifs at c2 <;> simp only [ALL_x, ALU_x, AUL_x, AUU_x, ALL_y, ALU_y, AUL_y, AUU_y, BLL_x, BLU_x, BUL_x, BUU_x, BLL_y, BLU_y, BUL_y, BUU_y, aA0_dot_B0, aA0_dot_B1, aA1_dot_B0, aA1_dot_B1, bA0_dot_B0, bA1_dot_B0, bA0_dot_B1, bA1_dot_B1] at * <;> first | (left; linarith) | (right; linarith)
    have k1 : (0 < (q.Tba.y - q.aA1_dot_B1) ∧ 0 < (q.Tba.y - q.aA1_dot_B1) + q.a0 * (-q.A0_dot_B1)) ∨
        inVoronoi eps q.b0 q.a0 (-q.A0_dot_B1) (q.Tba.y - q.aA1_dot_B1) q.A0_dot_B0 (q.aA1_dot_B0 - q.Tba.x) (-q.T.x) = true := by
      refine c3.imp (fun c => ?_) id
      simp only [LB0_ly, LB0_uy, UA0_ly, UA0_uy] at c
      split_ifs at c <;> simp only [ALL_x, ALU_x, AUL_x, AUU_x, ALL_y, ALU_y, AUL_y, AUU_y, BLL_x, BLU_x, BUL_x, BUU_x, BLL_y, BLU_y, BUL_y, BUU_y, aA0_dot_B0, aA0_dot_B1, aA1_dot_B0, aA1_dot_B1, bA0_dot_B0, bA1_dot_B0, bA0_dot_B1, bA1_dot_B1] at * <;> constructor <;> linarith
    have k2 : (0 < (q.T.y - q.a1) ∧ 0 < (q.T.y - q.a1) + q.b0 * q.A1_dot_B0) ∨
        inVoronoi eps q.a0 q.b0 q.A1_dot_B0 (q.T.y - q.a1) q.A0_dot_B0 q.T.x (q.Tba.x - q.aA1_dot_B0) = true := by
      refine c4.imp (fun c => ?_) id
      simp only [LB0_ly, LB0_uy, UA0_ly, UA0_uy] at c
      split_ifs at c <;> simp only [ALL_x, ALU_x, AUL_x, AUU_x, ALL_y, ALU_y, AUL_y, AUU_y, BLL_x, BLU_x, BUL_x, BUU_x, BLL_y, BLU_y, BUL_y, BUU_y, aA0_dot_B0, aA0_dot_B1, aA1_dot_B0, aA1_dot_B1, bA0_dot_B0, bA1_dot_B0, bA0_dot_B1, bA1_dot_B1] at * <;> constructor <;> linarith
    obtain ⟨t0, t1, u0, u1, hl⟩ := edge_sound (A := (⟨1, 0, 0⟩ : V3 K)) (B := (q.R.col 0)) (N := (⟨0, 1, 0⟩ : V3 K)) (M := (-q.R.col 1)) (s := (⟨0, q.a1, 0⟩ : V3 K)) (q := q.T) he w.a0 w.b0
      (by simp [V3.dot]) (by rect_open; first | ring1 | linear_combination ((1:K)) * h00 | linear_combination (-(1:K)) * h00) (by simp [V3.dot]) (by rect_open; first | ring1 | linear_combination ((1:K)) * h01 | linear_combination (-(1:K)) * h01)
      (by rect_open; first | ring1 | linear_combination ((1:K)) * h01 | linear_combination (-(1:K)) * h01) (by rect_open; first | ring1 | linear_combination (q.b1) * h01 | linear_combination (-q.b1) * h01) (by rect_open; first | ring1 | linear_combination (q.b1) * h01 | linear_combination (-q.b1) * h01)
      (by rect_open; first | ring1 | linear_combination (q.b1) * h01 | linear_combination (-q.b1) * h01) (by rect_open; first | ring1 | linear_combination (q.b1) * h11 | linear_combination (-q.b1) * h11) (by rect_open; first | ring1 | linear_combination (q.b1) * h01 | linear_combination (-q.b1) * h01) (by rect_open; first | ring1 | linear_combination (q.b1) * h01 | linear_combination (-q.b1) * h01)
      (by rect_open; first | ring1 | linear_combination (q.b1) * h01 | linear_combination (-q.b1) * h01) (by rect_open; first | ring1 | linear_combination (q.b1) * h01 | linear_combination (-q.b1) * h01) pre1 k1 pre2 k2 htu
    refine ⟨⟨t, q.a1, ?_, ?_, ?_, ?_, rfl⟩,
      ⟨u, 0, ?_, ?_, ?_, ?_, ?_⟩, ?_⟩
    any_goals first | exact t0 | exact t1 | exact u0 | exact u1 | exact le_refl _ | exact w.a0 | exact w.a1 | exact w.b0 | exact w.b1
    · apply V3.ext' <;> simp [M3.col, V3.get] <;> ring
    · rintro x ⟨x0, x1, g0, g1, g2, g3, rfl⟩ y ⟨y0, y1, f0, f1, f2, f3, rfl⟩
      have := hl x0 y0 (q.a1 - x1) y1 (by assumption) (by assumption) (by assumption) (by assumption) (by linarith) (by linarith)
      refine le_of_eq_of_le ?_ (le_of_le_of_eq this ?_)
      · simp [V3.dot, M3.col, V3.get]; try ring
      · simp [V3.dot, M3.col, V3.get]; try ring
  · exact absurd h (by simp)

theorem LA0UB1_good (w : q.WF) (he : 0 < eps) (h : q.LA0UB1 eps = some e) : q.Good e := by
  obtain ⟨h00, h11, h01⟩ := rot_coords w
  unfold LA0UB1 at h
  split at h
  · rename_i hc
    obtain ⟨⟨c1, c2⟩, c3, c4⟩ := hc
    obtain ⟨t, u, htu⟩ : ∃ t u, segCoords q.a0 q.b1 q.A0_dot_B1 (q.T.x + q.bA0_dot_B0) q.Tba.y = (t, u) := ⟨_, _, rfl⟩
    rw [htu] at h
    cases h
    have pre1 : 0 < (-q.b0 - q.Tba.x) ∨ 0 < (-q.b0 - q.Tba.x) + q.a0 * q.A0_dot_B0 := by
      simp only [LA0_lx, LA0_ux, UB1_ly, UB1_uy] at c1
      split_ifs at c1 <;> simp only [ALL_x, ALU_x, AUL_x, AUU_x, ALL_y, ALU_y, AUL_y, AUU_y, BLL_x, BLU_x, BUL_x, BUU_x, BLL_y, BLU_y, BUL_y, BUU_y, aA0_dot_B0, aA0_dot_B1, aA1_dot_B0, aA1_dot_B1, bA0_dot_B0, bA1_dot_B0, bA0_dot_B1, bA1_dot_B1] at * <;> first | (left; linarith) | (right; linarith)
    have pre2 : 0 < (-q.T.y - q.bA1_dot_B0) ∨ 0 < (-q.T.y - q.bA1_dot_B0) + q.b1 * (-q.A1_dot_B1) := by
      simp only [LA0_lx, LA0_ux, UB1_ly, UB1_uy] at c2
      split_ifs at c2 <;> simp only [ALL_x, ALU_x, AUL_x, AUU_x, ALL_y, ALU_y, AUL_y, AUU_y, BLL_x, BLU_x, BUL_x, BUU_x, BLL_y, BLU_y, BUL_y, BUU_y, aA0_dot_B0, aA0_dot_B1, aA1_dot_B0, aA1_dot_B1, bA0_dot_B0, bA1_dot_B0, bA0_dot_B1, bA1_dot_B1] at * <;> first | (left; linarith) | (right; linarith)
    have k1 : (0 < (-q.b0 - q.Tba.x) ∧ 0 < (-q.b0 - q.Tba.x) + q.a0 * q.A0_dot_B0) ∨
        inVoronoi eps q.b1 q.a0 q.A0_dot_B0 (-q.b0 - q.Tba.x) q.A0_dot_B1 (-q.Tba.y) (-q.bA0_dot_B0 - q.T.x) = true := by
      refine c3.imp (fun c => ?_) id
      simp only [LA0_lx, LA0_ux, UB1_ly, UB1_uy] at c
      split_ifs at c <;> simp only [ALL_x, ALU_x, AUL_x, AUU_x, ALL_y, ALU_y, AUL_y, AUU_y, BLL_x, BLU_x, BUL_x, BUU_x, BLL_y, BLU_y, BUL_y, BUU_y, aA0_dot_B0, aA0_dot_B1, aA1_dot_B0, aA1_dot_B1, bA0_dot_B0, bA1_dot_B0, bA0_dot_B1, bA1_dot_B1] at * <;> constructor <;> linarith
    have k2 : (0 < (-q.T.y - q.bA1_dot_B0) ∧ 0 < (-q.T.y - q.bA1_dot_B0) + q.b1 * (-q.A1_dot_B1)) ∨
        inVoronoi eps q.a0 q.b1 (-q.A1_dot_B1) (-q.T.y - q.bA1_dot_B0) q.A0_dot_B1 (q.T.x + q.bA0_dot_B0) q.Tba.y = true := by
      refine c4.imp (fun c => ?_) id
      simp only [LA0_lx, LA0_ux, UB1_ly, UB1_uy] at c
      split_ifs at c <;> simp only [ALL_x, ALU_x, AUL_x, AUU_x, ALL_y, ALU_y, AUL_y, AUU_y, BLL_x, BLU_x, BUL_x, BUU_x, BLL_y, BLU_y, BUL_y, BUU_y, aA0_dot_B0, aA0_dot_B1, aA1_dot_B0, aA1_dot_B1, bA0_dot_B0, bA1_dot_B0, bA0_dot_B1, bA1_dot_B1] at * <;> constructor <;> linarith
    obtain ⟨t0, t1, u0, u1, hl⟩ := edge_sound (A := (⟨1, 0, 0⟩ : V3 K)) (B := (q.R.col 1)) (N := (⟨0, -1, 0⟩ : V3 K)) (M := (q.R.col 0)) (s := (⟨0, 0, 0⟩ : V3 K)) (q := (q.T + q.b0 • q.R.col 0)) he w.a0 w.b1
      (by simp [V3.dot]) (by rect_open; first | ring1 | linear_combination ((1:K)) * h11 | linear_combination (-(1:K)) * h11) (by simp [V3.dot]) (by rect_open; first | ring1 | linear_combination ((1:K)) * h01 | linear_combination (-(1:K)) * h01)
      (by rect_open; first | ring1 | linear_combination ((1:K)) * h01 | linear_combination (-(1:K)) * h01) (by rect_open; first | ring1 | linear_combination (q.b0) * h01 | linear_combination (-q.b0) * h01) (by rect_open; first | ring1 | linear_combination (q.b0) * h01 | linear_combination (-q.b0) * h01)
      (by rect_open; first | ring1 | linear_combination (q.b0) * h01 | linear_combination (-q.b0) * h01) (by rect_open; first | ring1 | linear_combination (q.b0) * h00 | linear_combination (-q.b0) * h00) (by rect_open; first | ring1 | linear_combination (q.b0) * h01 | linear_combination (-q.b0) * h01) (by rect_open; first | ring1 | linear_combination (q.b0) * h01 | linear_combination (-q.b0) * h01)
      (by rect_open; first | ring1 | linear_combination (q.b0) * h01 | linear_combination (-q.b0) * h01) (by rect_open; first | ring1 | linear_combination (q.b0) * h01 | linear_combination (-q.b0) * h01) pre1 k1 pre2 k2 htu
    refine ⟨⟨t, 0, ?_, ?_, ?_, ?_, rfl⟩,
      ⟨q.b0, u, ?_, ?_, ?_, ?_, ?_⟩, ?_⟩
    any_goals first | exact t0 | exact t1 | exact u0 | exact u1 | exact le_refl _ | exact w.a0 | exact w.a1 | exact w.b0 | exact w.b1
    · apply V3.ext' <;> simp [M3.col, V3.get] <;> ring
    · rintro x ⟨x0, x1, g0, g1, g2, g3, rfl⟩ y ⟨y0, y1, f0, f1, f2, f3, rfl⟩
      have := hl x0 y1 x1 (q.b0 - y0) (by assumption) (by assumption) (by assumption) (by assumption) (by linarith) (by linarith)
      refine le_of_eq_of_le ?_ (le_of_le_of_eq this ?_)
      · simp [V3.dot, M3.col, V3.get]; try ring
      · simp [V3.dot, M3.col, V3.get]; try ring
  · exact absurd h (by simp)

theorem LA0LB1_good (w : q.WF) (he : 0 < eps) (h : q.LA0LB1 eps = some e) : q.Good e := by
  obtain ⟨h00, h11, h01⟩ := rot_coords w
  unfold LA0LB1 at h
  split at h
  · rename_i hc
    obtain ⟨⟨c1, c2⟩, c3, c4⟩ := hc
    obtain ⟨t, u, htu⟩ : ∃ t u, segCoords q.a0 q.b1 q.A0_dot_B1 q.T.x q.Tba.y = (t, u) := ⟨_, _, rfl⟩
    rw [htu] at h
    cases h
    have pre1 : 0 < q.Tba.x ∨ 0 < q.Tba.x + q.a0 * (-q.A0_dot_B0) := by
      simp only [LA0_lx, LA0_ux, LB1_ly, LB1_uy] at c1
      split_ifs at c1 <;> simp only [ALL_x, ALU_x, AUL_x, AUU_x, ALL_y, ALU_y, AUL_y, AUU_y, BLL_x, BLU_x, BUL_x, BUU_x, BLL_y, BLU_y, BUL_y, BUU_y, aA0_dot_B0, aA0_dot_B1, aA1_dot_B0, aA1_dot_B1, bA0_dot_B0, bA1_dot_B0, bA0_dot_B1, bA1_dot_B1] at * <;> first | (left; linarith) | (right; linarith)
    have pre2 : 0 < (-q.T.y) ∨ 0 < (-q.T.y) + q.b1 * (-q.A1_dot_B1) := by
      simp only [LA0_lx, LA0_ux, LB1_ly, LB1_uy] at c2
      split_ifs at c2 <;> simp only [ALL_x, ALU_x, AUL_x, AUU_x, ALL_y, ALU_y, AUL_y, AUU_y, BLL_x, BLU_x, BUL_x, BUU_x, BLL_y, BLU_y, BUL_y, BUU_y, aA0_dot_B0, aA0_dot_B1, aA1_dot_B0, aA1_dot_B1, bA0_dot_B0, bA1_dot_B0, bA0_dot_B1, bA1_dot_B1] at * <;> first | (left; linarith) | (right; linarith)
    have k1 : (0 < q.Tba.x ∧ 0 < q.Tba.x + q.a0 * (-q.A0_dot_B0)) ∨
        inVoronoi eps q.b1 q.a0 (-q.A0_dot_B0) q.Tba.x q.A0_dot_B1 (-q.Tba.y) (-q.T.x) = true := by
      refine c3.imp (fun c => ?_) id
      simp only [LA0_lx, LA0_ux, LB1_ly, LB1_uy] at c
      split_ifs at c <;> simp only [ALL_x, ALU_x, AUL_x, AUU_x, ALL_y, ALU_y, AUL_y, AUU_y, BLL_x, BLU_x, BUL_x, BUU_x, BLL_y, BLU_y, BUL_y, BUU_y, aA0_dot_B0, aA0_dot_B1, aA1_dot_B0, aA1_dot_B1, bA0_dot_B0, bA1_dot_B0, bA0_dot_B1, bA1_dot_B1] at * <;> constructor <;> linarith
    have k2 : (0 < (-q.T.y) ∧ 0 < (-q.T.y) + q.b1 * (-q.A1_dot_B1)) ∨
        inVoronoi eps q.a0 q.b1 (-q.A1_dot_B1) (-q.T.y) q.A0_dot_B1 q.T.x q.Tba.y = true := by
      refine c4.imp (fun c => ?_) id
      simp only [LA0_lx, LA0_ux, LB1_ly, LB1_uy] at c
      split_ifs at c <;> simp only [ALL_x, ALU_x, AUL_x, AUU_x, ALL_y, ALU_y, AUL_y, AUU_y, BLL_x, BLU_x, BUL_x, BUU_x, BLL_y, BLU_y, BUL_y, BUU_y, aA0_dot_B0, aA0_dot_B1, aA1_dot_B0, aA1_dot_B1, bA0_dot_B0, bA1_dot_B0, bA0_dot_B1, bA1_dot_B1] at * <;> constructor <;> linarith
    obtain ⟨t0, t1, u0, u1, hl⟩ := edge_sound (A := (⟨1, 0, 0⟩ : V3 K)) (B := (q.R.col 1)) (N := (⟨0, -1, 0⟩ : V3 K)) (M := (-q.R.col 0)) (s := (⟨0, 0, 0⟩ : V3 K)) (q := q.T) he w.a0 w.b1
      (by simp [V3.dot]) (by rect_open; first | ring1 | linear_combination ((1:K)) * h11 | linear_combination (-(1:K)) * h11) (by simp [V3.dot]) (by rect_open; first | ring1 | linear_combination ((1:K)) * h01 | linear_combination (-(1:K)) * h01)
      (by rect_open; first | ring1 | linear_combination ((1:K)) * h01 | linear_combination (-(1:K)) * h01) (by rect_open; first | ring1 | linear_combination (q.b0) * h01 | linear_combination (-q.b0) * h01) (by rect_open; first | ring1 | linear_combination (q.b0) * h01 | linear_combination (-q.b0) * h01)
      (by rect_open; first | ring1 | linear_combination (q.b0) * h01 | linear_combination (-q.b0) * h01) (by rect_open; first | ring1 | linear_combination (q.b0) * h00 | linear_combination (-q.b0) * h00) (by rect_open; first | ring1 | linear_combination (q.b0) * h01 | linear_combination (-q.b0) * h01) (by rect_open; first | ring1 | linear_combination (q.b0) * h01 | linear_combination (-q.b0) * h01)
      (by rect_open; first | ring1 | linear_combination (q.b0) * h01 | linear_combination (-q.b0) * h01) (by rect_open; first | ring1 | linear_combination (q.b0) * h01 | linear_combination (-q.b0) * h01) pre1 k1 pre2 k2 htu
    refine ⟨⟨t, 0, ?_, ?_, ?_, ?_, rfl⟩,
      ⟨0, u, ?_, ?_, ?_, ?_, ?_⟩, ?_⟩
    any_goals first | exact t0 | exact t1 | exact u0 | exact u1 | exact le_refl _ | exact w.a0 | exact w.a1 | exact w.b0 | exact w.b1
    · apply V3.ext' <;> simp [M3.col, V3.get] <;> ring
    · rintro x ⟨x0, x1, g0, g1, g2, g3, rfl⟩ y ⟨y0, y1, f0, f1, f2, f3, rfl⟩
      have := hl x0 y1 x1 y0 (by assumption) (by assumption) (by assumption) (by assumption) (by linarith) (by linarith)
      refine le_of_eq_of_le ?_ (le_of_le_of_eq this ?_)
      · simp [V3.dot, M3.col, V3.get]; try ring
      · simp [V3.dot, M3.col, V3.get]; try ring
  · exact absurd h (by simp)

theorem LA0UB0_good (w : q.WF) (he : 0 < eps) (h : q.LA0UB0 eps = some e) : q.Good e := by
  obtain ⟨h00, h11, h01⟩ := rot_coords w
  unfold LA0UB0 at h
  split at h
  · rename_i hc
    obtain ⟨⟨c1, c2⟩, c3, c4⟩ := hc
    obtain ⟨t, u, htu⟩ : ∃ t u, segCoords q.a0 q.b0 q.A0_dot_B0 (q.T.x + q.bA0_dot_B1) q.Tba.x = (t, u) := ⟨_, _, rfl⟩
    rw [htu] at h
    cases h
    have pre1 : 0 < (-q.Tba.y - q.b1) ∨ 0 < (-q.Tba.y - q.b1) + q.a0 * q.A0_dot_B1 := by
      simp only [LA0_ly, LA0_uy, UB0_ly, UB0_uy] at c1
      split_ifs at c1 <;> simp only [ALL_x, ALU_x, AUL_x, AUU_x, ALL_y, ALU_y, AUL_y, AUU_y, BLL_x, BLU_x, BUL_x, BUU_x, BLL_y, BLU_y, BUL_y, BUU_y, aA0_dot_B0, aA0_dot_B1, aA1_dot_B0, aA1_dot_B1, bA0_dot_B0, bA1_dot_B0, bA0_dot_B1, bA1_dot_B1] at * <;> first | (left; linarith) | (right; linarith)
    have pre2 : 0 < (-q.T.y - q.bA1_dot_B1) ∨ 0 < (-q.T.y - q.bA1_dot_B1) + q.b0 * (-q.A1_dot_B0) := by
      simp only [LA0_ly, LA0_uy, UB0_ly, UB0_uy] at c2
      split_ifs at c2 <;> simp only [ALL_x, ALU_x, AUL_x, AUU_x, ALL_y, ALU_y, AUL_y, AUU_y, BLL_x, BLU_x, BUL_x, BUU_x, BLL_y, BLU_y, BUL_y, BUU_y, aA0_dot_B0, aA0_dot_B1, aA1_dot_B0, aA1_dot_B1, bA0_dot_B0, bA1_dot_B0, bA0_dot_B1, bA1_dot_B1] at * <;> first | (left; linarith) | (right; linarith)
    have k1 : (0 < (-q.Tba.y - q.b1) ∧ 0 < (-q.Tba.y - q.b1) + q.a0 * q.A0_dot_B1) ∨
        inVoronoi eps q.b0 q.a0 q.A0_dot_B1 (-q.Tba.y - q.b1) q.A0_dot_B0 (-q.Tba.x) (-q.T.x - q.bA0_dot_B1) = true := by
      refine c3.imp (fun c => ?_) id
      simp only [LA0_ly, LA0_uy, UB0_ly, UB0_uy] at c
      split_ifs at c <;> simp only [ALL_x, ALU_x, AUL_x, AUU_x, ALL_y, ALU_y, AUL_y, AUU_y, BLL_x, BLU_x, BUL_x, BUU_x, BLL_y, BLU_y, BUL_y, BUU_y, aA0_dot_B0, aA0_dot_B1, aA1_dot_B0, aA1_dot_B1, bA0_dot_B0, bA1_dot_B0, bA0_dot_B1, bA1_dot_B1] at * <;> constructor <;> linarith
    have k2 : (0 < (-q.T.y - q.bA1_dot_B1) ∧ 0 < (-q.T.y - q.bA1_dot_B1) + q.b0 * (-q.A1_dot_B0)) ∨
        inVoronoi eps q.a0 q.b0 (-q.A1_dot_B0) (-q.T.y - q.bA1_dot_B1) q.A0_dot_B0 (q.T.x + q.bA0_dot_B1) q.Tba.x = true := by
      refine c4.imp (fun c => ?_) id
      simp only [LA0_ly, LA0_uy, UB0_ly, UB0_uy] at c
      split_ifs at c <;> simp only [ALL_x, ALU_x, AUL_x, AUU_x, ALL_y, ALU_y, AUL_y, AUU_y, BLL_x, BLU_x, BUL_x, BUU_x, BLL_y, BLU_y, BUL_y, BUU_y, aA0_dot_B0, aA0_dot_B1, aA1_dot_B0, aA1_dot_B1, bA0_dot_B0, bA1_dot_B0, bA0_dot_B1, bA1_dot_B1] at * <;> constructor <;> linarith
    obtain ⟨t0, t1, u0, u1, hl⟩ := edge_sound (A := (⟨1, 0, 0⟩ : V3 K)) (B := (q.R.col 0)) (N := (⟨0, -1, 0⟩ : V3 K)) (M := (q.R.col 1)) (s := (⟨0, 0, 0⟩ : V3 K)) (q := (q.T + q.b1 • q.R.col 1)) he w.a0 w.b0
      (by simp [V3.dot]) (by rect_open; first | ring1 | linear_combination ((1:K)) * h00 | linear_combination (-(1:K)) * h00) (by simp [V3.dot]) (by rect_open; first | ring1 | linear_combination ((1:K)) * h01 | linear_combination (-(1:K)) * h01)
      (by rect_open; first | ring1 | linear_combination ((1:K)) * h01 | linear_combination (-(1:K)) * h01) (by rect_open; first | ring1 | linear_combination (q.b1) * h01 | linear_combination (-q.b1) * h01) (by rect_open; first | ring1 | linear_combination (q.b1) * h01 | linear_combination (-q.b1) * h01)
      (by rect_open; first | ring1 | linear_combination (q.b1) * h01 | linear_combination (-q.b1) * h01) (by rect_open; first | ring1 | linear_combination (q.b1) * h11 | linear_combination (-q.b1) * h11) (by rect_open; first | ring1 | linear_combination (q.b1) * h01 | linear_combination (-q.b1) * h01) (by rect_open; first | ring1 | linear_combination (q.b1) * h01 | linear_combination (-q.b1) * h01)
      (by rect_open; first | ring1 | linear_combination (q.b1) * h01 | linear_combination (-q.b1) * h01) (by rect_open; first | ring1 | linear_combination (q.b1) * h01 | linear_combination (-q.b1) * h01) pre1 k1 pre2 k2 htu
    refine ⟨⟨t, 0, ?_, ?_, ?_, ?_, rfl⟩,
      ⟨u, q.b1, ?_, ?_, ?_, ?_, ?_⟩, ?_⟩
    any_goals first | exact t0 | exact t1 | exact u0 | exact u1 | exact le_refl _ | exact w.a0 | exact w.a1 | exact w.b0 | exact w.b1
    · apply V3.ext' <;> simp [M3.col, V3.get] <;> ring
    · rintro x ⟨x0, x1, g0, g1, g2, g3, rfl⟩ y ⟨y0, y1, f0, f1, f2, f3, rfl⟩
      have := hl x0 y0 x1 (q.b1 - y1) (by assumption) (by assumption) (by assumption) (by assumption) (by linarith) (by linarith)
      refine le_of_eq_of_le ?_ (le_of_le_of_eq this ?_)
      · simp [V3.dot, M3.col, V3.get]; try ring
      · simp [V3.dot, M3.col, V3.get]; try ring
  · exact absurd h (by simp)

theorem LA0LB0_good (w : q.WF) (he : 0 < eps) (h : q.LA0LB0 eps = some e) : q.Good e := by
  obtain ⟨h00, h11, h01⟩ := rot_coords w
  unfold LA0LB0 at h
  split at h
  · rename_i hc
    obtain ⟨⟨c1, c2⟩, c3, c4⟩ := hc
    obtain ⟨t, u, htu⟩ : ∃ t u, segCoords q.a0 q.b0 q.A0_dot_B0 q.T.x q.Tba.x = (t, u) := ⟨_, _, rfl⟩
    rw [htu] at h
    cases h
    have pre1 : 0 < q.Tba.y ∨ 0 < q.Tba.y + q.a0 * (-q.A0_dot_B1) := by
      simp only [LA0_ly, LA0_uy, LB0_ly, LB0_uy] at c1
      split_ifs at c1 <;> simp only [ALL_x, ALU_x, AUL_x, AUU_x, ALL_y, ALU_y, AUL_y, AUU_y, BLL_x, BLU_x, BUL_x, BUU_x, BLL_y, BLU_y, BUL_y, BUU_y, aA0_dot_B0, aA0_dot_B1, aA1_dot_B0, aA1_dot_B1, bA0_dot_B0, bA1_dot_B0, bA0_dot_B1, bA1_dot_B1] at * <;> first | (left; linarith) | (right; linarith)
    have pre2 : 0 < (-q.T.y) ∨ 0 < (-q.T.y) + q.b0 * (-q.A1_dot_B0) := by
      simp only [LA0_ly, LA0_uy, LB0_ly, LB0_uy] at c2
      split_ifs at c2 <;> simp only [ALL_x, ALU_x, AUL_x, AUU_x, ALL_y, ALU_y, AUL_y, AUU_y, BLL_x, BLU_x, BUL_x, BUU_x, BLL_y, BLU_y, BUL_y, BUU_y, aA0_dot_B0, aA0_dot_B1, aA1_dot_B0, aA1_dot_B1, bA0_dot_B0, bA1_dot_B0, bA0_dot_B1, bA1_dot_B1] at * <;> first | (left; linarith) | (right; linarith)
    have k1 : (0 < q.Tba.y ∧ 0 < q.Tba.y + q.a0 * (-q.A0_dot_B1)) ∨
        inVoronoi eps q.b0 q.a0 (-q.A0_dot_B1) q.Tba.y q.A0_dot_B0 (-q.Tba.x) (-q.T.x) = true := by
      refine c3.imp (fun c => ?_) id
      simp only [LA0_ly, LA0_uy, LB0_ly, LB0_uy] at c
      split_ifs at c <;> simp only [ALL_x, ALU_x, AUL_x, AUU_x, ALL_y, ALU_y, AUL_y, AUU_y, BLL_x, BLU_x, BUL_x, BUU_x, BLL_y, BLU_y, BUL_y, BUU_y, aA0_dot_B0, aA0_dot_B1, aA1_dot_B0, aA1_dot_B1, bA0_dot_B0, bA1_dot_B0, bA0_dot_B1, bA1_dot_B1] at * <;> constructor <;> linarith
    have k2 : (0 < (-q.T.y) ∧ 0 < (-q.T.y) + q.b0 * (-q.A1_dot_B0)) ∨
        inVoronoi eps q.a0 q.b0 (-q.A1_dot_B0) (-q.T.y) q.A0_dot_B0 q.T.x q.Tba.x = true := by
      refine c4.imp (fun c => ?_) id
      simp only [LA0_ly, LA0_uy, LB0_ly, LB0_uy] at c
      split_ifs at c <;> simp only [ALL_x, ALU_x, AUL_x, AUU_x, ALL_y, ALU_y, AUL_y, AUU_y, BLL_x, BLU_x, BUL_x, BUU_x, BLL_y, BLU_y, BUL_y, BUU_y, aA0_dot_B0, aA0_dot_B1, aA1_dot_B0, aA1_dot_B1, bA0_dot_B0, bA1_dot_B0, bA0_dot_B1, bA1_dot_B1] at * <;> constructor <;> linarith
    obtain ⟨t0, t1, u0, u1, hl⟩ := edge_sound (A := (⟨1, 0, 0⟩ : V3 K)) (B := (q.R.col 0)) (N := (⟨0, -1, 0⟩ : V3 K)) (M := (-q.R.col 1)) (s := (⟨0, 0, 0⟩ : V3 K)) (q := q.T) he w.a0 w.b0
      (by simp [V3.dot]) (by rect_open; first | ring1 | linear_combination ((1:K)) * h00 | linear_combination (-(1:K)) * h00) (by simp [V3.dot]) (by rect_open; first | ring1 | linear_combination ((1:K)) * h01 | linear_combination (-(1:K)) * h01)
      (by rect_open; first | ring1 | linear_combination ((1:K)) * h01 | linear_combination (-(1:K)) * h01) (by rect_open; first | ring1 | linear_combination (q.b1) * h01 | linear_combination (-q.b1) * h01) (by rect_open; first | ring1 | linear_combination (q.b1) * h01 | linear_combination (-q.b1) * h01)
      (by rect_open; first | ring1 | linear_combination (q.b1) * h01 | linear_combination (-q.b1) * h01) (by rect_open; first | ring1 | linear_combination (q.b1) * h11 | linear_combination (-q.b1) * h11) (by rect_open; first | ring1 | linear_combination (q.b1) * h01 | linear_combination (-q.b1) * h01) (by rect_open; first | ring1 | linear_combination (q.b1) * h01 | linear_combination (-q.b1) * h01)
      (by rect_open; first | ring1 | linear_combination (q.b1) * h01 | linear_combination (-q.b1) * h01) (by rect_open; first | ring1 | linear_combination (q.b1) * h01 | linear_combination (-q.b1) * h01) pre1 k1 pre2 k2 htu
    refine ⟨⟨t, 0, ?_, ?_, ?_, ?_, rfl⟩,
      ⟨u, 0, ?_, ?_, ?_, ?_, ?_⟩, ?_⟩
    any_goals first | exact t0 | exact t1 | exact u0 | exact u1 | exact le_refl _ | exact w.a0 | exact w.a1 | exact w.b0 | exact w.b1
    · apply V3.ext' <;> simp [M3.col, V3.get] <;> ring
    · rintro x ⟨x0, x1, g0, g1, g2, g3, rfl⟩ y ⟨y0, y1, f0, f1, f2, f3, rfl⟩
      have := hl x0 y0 x1 y1 (by assumption) (by assumption) (by assumption) (by assumption) (by linarith) (by linarith)
      refine le_of_eq_of_le ?_ (le_of_le_of_eq this ?_)
      · simp [V3.dot, M3.col, V3.get]; try ring
      · simp [V3.dot, M3.col, V3.get]; try ring
  · exact absurd h (by simp)

theorem orElse_some {o : Option (Edge K)} {f : Unit → Option (Edge K)} (h : o.orElse f = some e) : o = some e ∨ f () = some e := by
  cases o with
  | none => exact Or.inr h
  | some a => exact Or.inl h

/-- Whatever part answers. -/
theorem edges_good (w : q.WF) (he : 0 < eps) (h : q.edges eps = some e) : q.Good e := by
  unfold edges at h
  rcases orElse_some h with h | h
  · exact UA1UB1_good w he h
  rcases orElse_some h with h | h
  · exact UA1LB1_good w he h
  rcases orElse_some h with h | h
  · exact LA1UB1_good w he h
  rcases orElse_some h with h | h
  · exact LA1LB1_good w he h
  rcases orElse_some h with h | h
  · exact UA1UB0_good w he h
  rcases orElse_some h with h | h
  · exact UA1LB0_good w he h
  rcases orElse_some h with h | h
  · exact LA1UB0_good w he h
  rcases orElse_some h with h | h
  · exact LA1LB0_good w he h
  rcases orElse_some h with h | h
  · exact UA0UB1_good w he h
  rcases orElse_some h with h | h
  · exact UA0LB1_good w he h
  rcases orElse_some h with h | h
  · exact LA0UB1_good w he h
  rcases orElse_some h with h | h
  · exact LA0LB1_good w he h
  rcases orElse_some h with h | h
  · exact UA0UB0_good w he h
  rcases orElse_some h with h | h
  · exact UA0LB0_good w he h
  rcases orElse_some h with h | h
  · exact LA0UB0_good w he h
  exact LA0LB0_good w he h

end Rects
end RSS
end Fcl
