import Verif.Geom.SepAxis
import Verif.Geom.Rotation
import Verif.Geom.Convexity
import Mathlib.Topology.Order.Compact
import Mathlib.Topology.Instances.Real.Lemmas
import Mathlib.Tactic.FunProp

/-!
# Two boxes: fifteen directions are enough to tell whether they touch

The width of two boxes in a direction is a sum of absolute values of products with their six edge directions. If some
direction shows them apart, then so does one that is perpendicular to two of the edge directions.
-/

namespace Fcl
namespace Zono
open V3

/-- The sum of the half widths in direction `n` of segments with half lengths and directions `W`. -/
noncomputable def spread (W : List (ℝ × V3 ℝ)) (n : V3 ℝ) : ℝ := (W.map fun w => w.1 * |w.2.dot n|).sum

theorem spread_smul (W : List (ℝ × V3 ℝ)) (k : ℝ) (n : V3 ℝ) : spread W (k • n) = |k| * spread W n := by
  induction W with
  | nil => simp [spread]
  | cons w W ih =>
    simp only [spread, List.map_cons, List.sum_cons] at *
    rw [ih, dot_smul, abs_mul]; ring

/-- The sign that makes `x` nonnegative. -/
noncomputable def sg (x : ℝ) : ℝ := if 0 ≤ x then 1 else -1

theorem sg_mul (x : ℝ) : sg x * x = |x| := by
  rw [sg]; split_ifs with h
  · rw [abs_of_nonneg h, one_mul]
  · rw [abs_of_neg (not_le.1 h)]; ring
theorem sg_cases (x : ℝ) : sg x = 1 ∨ sg x = -1 := by rw [sg]; split_ifs <;> simp
theorem sg_ne (x : ℝ) : sg x ≠ 0 := by rcases sg_cases x with h | h <;> rw [h] <;> norm_num
theorem sg_mul_le (s x : ℝ) : sg s * x ≤ |x| := by
  rcases sg_cases s with h | h <;> rw [h]
  · rw [one_mul]; exact le_abs_self x
  · rw [neg_one_mul]; exact neg_le_abs x
/-- If the sign of `s` makes `x` nonnegative, it gives the absolute value. -/
theorem abs_of_sg {s x : ℝ} (h : 0 ≤ sg s * x) : |x| = sg s * x := by
  rcases sg_cases s with e | e <;> rw [e] at h ⊢
  · rw [abs_of_nonneg (by linarith), one_mul]
  · rw [abs_of_nonpos (by linarith)]; ring

/-- The rate of change of `spread` at `n` in direction `e`, up to the first change of sign. -/
noncomputable def rate (W : List (ℝ × V3 ℝ)) (n e : V3 ℝ) : ℝ := (W.map fun w => w.1 * (sg (w.2.dot n) * w.2.dot e)).sum

theorem rate_neg (W : List (ℝ × V3 ℝ)) (n e : V3 ℝ) : rate W n (-e) = -rate W n e := by
  induction W with
  | nil => simp [rate]
  | cons w W ih =>
    simp only [rate, List.map_cons, List.sum_cons] at *
    rw [ih, dot_neg]; ring

theorem spread_linear {W : List (ℝ × V3 ℝ)} {n e : V3 ℝ} {t : ℝ}
    (h : ∀ w ∈ W, 0 ≤ sg (w.2.dot n) * w.2.dot (n + t • e)) : spread W (n + t • e) = spread W n + t * rate W n e := by
  induction W with
  | nil => simp [spread, rate]
  | cons w W ih =>
    have h1 := h w (by simp)
    have h2 := ih fun w hw => h w (by simp [hw])
    simp only [spread, rate, List.map_cons, List.sum_cons] at *
    rw [h2, abs_of_sg h1, ← sg_mul (w.2.dot n), dot_add, dot_smul]; ring

theorem rate_le {W : List (ℝ × V3 ℝ)} (hc : ∀ w ∈ W, 0 ≤ w.1) (n e : V3 ℝ) : rate W n e ≤ spread W e := by
  induction W with
  | nil => simp [spread, rate]
  | cons w W ih =>
    have h1 := hc w (by simp)
    have h2 := ih fun w hw => hc w (by simp [hw])
    simp only [spread, rate, List.map_cons, List.sum_cons] at *
    have := mul_le_mul_of_nonneg_left (sg_mul_le (w.2.dot n) (w.2.dot e)) h1
    linarith

theorem rate_eq {W : List (ℝ × V3 ℝ)} {n e : V3 ℝ} (h : ∀ w ∈ W, 0 ≤ sg (w.2.dot n) * w.2.dot e) : rate W n e = spread W e := by
  induction W with
  | nil => simp [spread, rate]
  | cons w W ih =>
    have h1 := h w (by simp)
    have h2 := ih fun w hw => h w (by simp [hw])
    simp only [spread, rate, List.map_cons, List.sum_cons] at *
    rw [h2, abs_of_sg h1]

/-- Moving ahead until a first product becomes zero. -/
theorem shoot {W : List (ℝ × V3 ℝ)} {n e : V3 ℝ} (hu : ∃ w ∈ W, sg (w.2.dot n) * w.2.dot e < 0) :
    ∃ t : ℝ, 0 ≤ t ∧ (∀ w ∈ W, 0 ≤ sg (w.2.dot n) * w.2.dot (n + t • e)) ∧
      ∃ w ∈ W, w.2.dot e ≠ 0 ∧ w.2.dot (n + t • e) = 0 := by
  classical
  obtain ⟨w0, h0, hn0⟩ := hu
  obtain ⟨a, ha, hmin⟩ := Finset.exists_min_image (W.toFinset.filter fun w => sg (w.2.dot n) * w.2.dot e < 0)
    (fun w => |w.2.dot n| / -(sg (w.2.dot n) * w.2.dot e)) ⟨w0, by simp [h0, hn0]⟩
  simp only [Finset.mem_filter, List.mem_toFinset] at ha hmin
  obtain ⟨haW, hau⟩ := ha
  have hp : 0 < -(sg (a.2.dot n) * a.2.dot e) := by linarith
  obtain ⟨t, ht⟩ : ∃ t, t = |a.2.dot n| / -(sg (a.2.dot n) * a.2.dot e) := ⟨_, rfl⟩
  have t0 : 0 ≤ t := by rw [ht]; exact div_nonneg (abs_nonneg _) hp.le
  have ta : t * -(sg (a.2.dot n) * a.2.dot e) = |a.2.dot n| := by rw [ht]; exact div_mul_cancel₀ _ hp.ne'
  refine ⟨t, t0, fun b hb => ?_, a, haW, fun h => ?_, ?_⟩
  · rw [dot_add, dot_smul, mul_add, sg_mul]
    by_cases hbu : sg (b.2.dot n) * b.2.dot e < 0
    · have := hmin b ⟨hb, hbu⟩
      rw [← ht] at this
      have hq : 0 < -(sg (b.2.dot n) * b.2.dot e) := by linarith
      rw [le_div_iff₀ hq] at this
      linarith
    · have := mul_nonneg t0 (not_lt.1 hbu)
      have := abs_nonneg (b.2.dot n)
      linarith
  · rw [h, mul_zero] at hau; exact lt_irrefl _ hau
  · have : sg (a.2.dot n) * a.2.dot (n + t • e) = 0 := by rw [dot_add, dot_smul, mul_add, sg_mul]; linarith
    exact (mul_eq_zero.1 this).resolve_left (sg_ne _)

variable {W : List (ℝ × V3 ℝ)} {T : V3 ℝ}

theorem break_ahead (hc : ∀ w ∈ W, 0 ≤ w.1) {n e : V3 ℝ} (hp : T.dot e ≤ spread W e) (hy : ∃ w ∈ W, w.2.dot e ≠ 0)
    (hs : 0 ≤ T.dot e - rate W n e) :
    ∃ t : ℝ, (∃ w ∈ W, w.2.dot e ≠ 0 ∧ w.2.dot (n + t • e) = 0) ∧
      T.dot n - spread W n ≤ T.dot (n + t • e) - spread W (n + t • e) := by
  by_cases hu : ∃ w ∈ W, sg (w.2.dot n) * w.2.dot e < 0
  · obtain ⟨t, t0, h1, h2⟩ := shoot hu
    refine ⟨t, h2, ?_⟩
    rw [spread_linear h1, dot_add, dot_smul]
    linarith [mul_nonneg t0 hs]
  · push Not at hu
    have hz : T.dot e - rate W n e = 0 := by rw [rate_eq hu] at hs ⊢; linarith
    obtain ⟨w, hw, hwe⟩ := hy
    have : ∃ w ∈ W, sg (w.2.dot n) * w.2.dot (-e) < 0 := by
      refine ⟨w, hw, ?_⟩
      have h1 := hu w hw
      have h2 : sg (w.2.dot n) * w.2.dot e ≠ 0 := mul_ne_zero (sg_ne _) hwe
      rw [dot_neg, mul_neg, neg_lt_zero]
      exact lt_of_le_of_ne h1 h2.symm
    obtain ⟨t, t0, h1, a, ha, h2, h3⟩ := shoot this
    have e1 : n + t • -e = n + (-t) • e := by v3
    rw [e1] at h3
    refine ⟨-t, ⟨a, ha, fun h => h2 (by rw [dot_neg, h, neg_zero]), h3⟩, ?_⟩
    rw [← e1, spread_linear h1, rate_neg, dot_add, dot_smul, dot_neg]
    have : t * (T.dot e - rate W n e) = 0 := by rw [hz, mul_zero]
    linarith

/-- If the direction `e` does not show the segments apart, then from any direction one can move along `e` to a direction
that is perpendicular to one of them, and that shows them at least as far apart. -/
theorem break_line (hc : ∀ w ∈ W, 0 ≤ w.1) {e : V3 ℝ} (hp : |T.dot e| ≤ spread W e) (hy : ∃ w ∈ W, w.2.dot e ≠ 0) (n : V3 ℝ) :
    ∃ t : ℝ, (∃ w ∈ W, w.2.dot e ≠ 0 ∧ w.2.dot (n + t • e) = 0) ∧
      T.dot n - spread W n ≤ T.dot (n + t • e) - spread W (n + t • e) := by
  rcases le_total 0 (T.dot e - rate W n e) with h | h
  · exact break_ahead hc ((le_abs_self _).trans hp) hy h
  · have en : spread W (-e) = spread W e := by
      have := spread_smul W (-1) e
      rw [show (-1 : ℝ) • e = -e by v3, abs_neg, abs_one, one_mul] at this
      exact this
    obtain ⟨w, hw, hwe⟩ := hy
    obtain ⟨t, ⟨a, ha, h1, h2⟩, h3⟩ := break_ahead hc (T := T) (n := n) (e := -e)
      (by rw [en, dot_neg]; exact (neg_le_abs _).trans hp) ⟨w, hw, by rw [dot_neg]; exact neg_ne_zero.2 hwe⟩
      (by rw [rate_neg, dot_neg]; linarith)
    have e1 : n + t • -e = n + (-t) • e := by v3
    rw [e1] at h2 h3
    exact ⟨-t, ⟨a, ha, fun h => h1 (by rw [dot_neg, h, neg_zero]), h2⟩, h3⟩

/-- The cross products of two of the directions are enough, provided one of the directions, and to each of them
one perpendicular to it, do not show the segments apart either. -/
theorem enough (hc : ∀ w ∈ W, 0 ≤ w.1) {e0 : V3 ℝ} (h0 : ∃ w ∈ W, w.2.dot e0 ≠ 0) (p0 : |T.dot e0| ≤ spread W e0)
    (hp : ∀ w ∈ W, w.2 ≠ 0 ∧ ∃ e, w.2.dot e = 0 ∧ (∃ v ∈ W, v.2.dot e ≠ 0) ∧ |T.dot e| ≤ spread W e)
    (hx : ∀ v ∈ W, ∀ w ∈ W, |T.dot (v.2.cross w.2)| ≤ spread W (v.2.cross w.2)) (n : V3 ℝ) : T.dot n ≤ spread W n := by
  by_contra hn
  push Not at hn
  obtain ⟨t, ⟨w, hw, -, hz⟩, hg⟩ := break_line hc p0 h0 n
  obtain ⟨m, em⟩ : ∃ m, m = n + t • e0 := ⟨_, rfl⟩
  rw [← em] at hz hg
  obtain ⟨w0, e, we, hv, pe⟩ := hp w hw
  obtain ⟨t2, ⟨v, hv, ve, hz2⟩, hg2⟩ := break_line hc pe hv m
  obtain ⟨m2, em2⟩ : ∃ m2, m2 = m + t2 • e := ⟨_, rfl⟩
  have wz : w.2.dot m2 = 0 := by rw [em2, dot_add, dot_smul, we, hz]; ring
  rw [← em2] at hz2 hg2
  have hcr : w.2.cross v.2 ≠ 0 := by
    intro h
    have k : (w.2.cross v.2).cross e = w.2.dot e • v.2 - v.2.dot e • w.2 := by
      apply ext' <;> simp only [smul_x, smul_y, smul_z, cross, sub_x, sub_y, sub_z, dot] <;> ring
    rw [h, we] at k
    apply w0
    have hx := congrArg V3.x k
    have hy := congrArg V3.y k
    have hz := congrArg V3.z k
    simp only [smul_x, smul_y, smul_z, cross, sub_x, sub_y, sub_z, zero_x, zero_y, zero_z, zero_mul, zero_sub, _root_.sub_self,
      eq_comm (a := (0 : ℝ)), neg_eq_zero, mul_eq_zero, ve, false_or] at hx hy hz
    exact ext' hx hy hz
  obtain ⟨k, hk⟩ := Sep.parallel_cross hcr wz hz2
  have h1 := hx w hw v hv
  have h2 := mul_le_mul_of_nonneg_left h1 (abs_nonneg k)
  rw [← abs_mul, ← spread_smul, ← dot_smul, ← hk] at h2
  linarith [le_abs_self (T.dot m2)]

/-! ### Two boxes -/

/-- The six edge directions of a box with half sides `a` along the axes and one with half sides `b` along the columns of `B`. -/
def edges (B : M3 ℝ) (a b : V3 ℝ) : List (ℝ × V3 ℝ) :=
  [(a.x, ⟨1, 0, 0⟩), (a.y, ⟨0, 1, 0⟩), (a.z, ⟨0, 0, 1⟩), (b.x, B.col 0), (b.y, B.col 1), (b.z, B.col 2)]

theorem spread_edges (B : M3 ℝ) (a b n : V3 ℝ) : spread (edges B a b) n =
    a.x * |n.x| + a.y * |n.y| + a.z * |n.z| + (b.x * |(B.col 0).dot n| + b.y * |(B.col 1).dot n| + b.z * |(B.col 2).dot n|) := by
  simp [spread, edges, dot]; ring

/-- The fifteen directions: the sides of the two boxes and the cross products of their edges. -/
noncomputable def axes (B : M3 ℝ) : List (V3 ℝ) :=
  [⟨1, 0, 0⟩, ⟨0, 1, 0⟩, ⟨0, 0, 1⟩, B.col 0, B.col 1, B.col 2,
   (⟨1, 0, 0⟩ : V3 ℝ).cross (B.col 0), (⟨1, 0, 0⟩ : V3 ℝ).cross (B.col 1), (⟨1, 0, 0⟩ : V3 ℝ).cross (B.col 2),
   (⟨0, 1, 0⟩ : V3 ℝ).cross (B.col 0), (⟨0, 1, 0⟩ : V3 ℝ).cross (B.col 1), (⟨0, 1, 0⟩ : V3 ℝ).cross (B.col 2),
   (⟨0, 0, 1⟩ : V3 ℝ).cross (B.col 0), (⟨0, 0, 1⟩ : V3 ℝ).cross (B.col 1), (⟨0, 0, 1⟩ : V3 ℝ).cross (B.col 2)]

theorem cross_cols {B : M3 ℝ} (hB : B.Orthonormal) : ∃ D : ℝ, D * D = 1 ∧ (B.col 0).cross (B.col 1) = D • B.col 2 ∧
    (B.col 1).cross (B.col 2) = D • B.col 0 ∧ (B.col 2).cross (B.col 0) = D • B.col 1 := by
  obtain ⟨⟨m00, m01, m02⟩, ⟨m10, m11, m12⟩, ⟨m20, m21, m22⟩⟩ := B
  obtain ⟨D, hD, -, ⟨c00, c10, c20⟩, ⟨c01, c11, c21⟩, c02, c12, c22⟩ := hB.cofactors
  refine ⟨D, hD, ?_, ?_, ?_⟩ <;> apply ext' <;> simp only [cross, M3.col, V3.get, smul_x, smul_y, smul_z] <;> linarith

theorem col_dot {B : M3 ℝ} (hB : B.Orthonormal) : ((B.col 0).dot (B.col 0) = 1 ∧ (B.col 1).dot (B.col 1) = 1 ∧ (B.col 2).dot (B.col 2) = 1) ∧
    (B.col 0).dot (B.col 1) = 0 ∧ (B.col 1).dot (B.col 2) = 0 ∧ (B.col 2).dot (B.col 0) = 0 := by
  obtain ⟨⟨m00, m01, m02⟩, ⟨m10, m11, m12⟩, ⟨m20, m21, m22⟩⟩ := B
  obtain ⟨⟨⟨h1, h2, h3⟩, h4, h5, h6⟩, -⟩ := hB.eqs
  refine ⟨⟨?_, ?_, ?_⟩, ?_, ?_, ?_⟩ <;> simp only [dot, M3.col, V3.get] <;> linarith

/-- If none of the fifteen directions shows the boxes apart, no direction does. -/
theorem fifteen {B : M3 ℝ} (hB : B.Orthonormal) {a b : V3 ℝ} (ha : 0 ≤ a.x ∧ 0 ≤ a.y ∧ 0 ≤ a.z) (hb : 0 ≤ b.x ∧ 0 ≤ b.y ∧ 0 ≤ b.z)
    (h : ∀ n ∈ axes B, |T.dot n| ≤ spread (edges B a b) n) (n : V3 ℝ) : T.dot n ≤ spread (edges B a b) n := by
  obtain ⟨D, -, d01, d12, d20⟩ := cross_cols hB
  obtain ⟨⟨n0, n1, n2⟩, o01, o12, o20⟩ := col_dot hB
  generalize hW : edges B a b = W at *
  have mem : ∀ w, w ∈ W ↔ w = (a.x, ⟨1, 0, 0⟩) ∨ w = (a.y, ⟨0, 1, 0⟩) ∨ w = (a.z, ⟨0, 0, 1⟩) ∨ w = (b.x, B.col 0) ∨
      w = (b.y, B.col 1) ∨ w = (b.z, B.col 2) := by intro w; rw [← hW]; simp [edges]
  obtain ⟨c0, hc0⟩ : ∃ c, c = B.col 0 := ⟨_, rfl⟩
  obtain ⟨c1, hc1⟩ : ∃ c, c = B.col 1 := ⟨_, rfl⟩
  obtain ⟨c2, hc2⟩ : ∃ c, c = B.col 2 := ⟨_, rfl⟩
  have ax : ∀ n ∈ axes B, |T.dot n| ≤ spread W n := h
  simp only [axes, List.forall_mem_cons, List.not_mem_nil, false_imp_iff, implies_true, and_true] at h
  simp only [← hc0, ← hc1, ← hc2] at *
  obtain ⟨h1, h2, h3, h4, h5, h6, k00, k01, k02, k10, k11, k12, k20, k21, k22⟩ := h
  have sm : ∀ {m : V3 ℝ} (k : ℝ), |T.dot m| ≤ spread W m → |T.dot (k • m)| ≤ spread W (k • m) := fun k hm => by
    rw [dot_smul, abs_mul, spread_smul]
    exact mul_le_mul_of_nonneg_left hm (abs_nonneg k)
  have zero : |T.dot (0 : V3 ℝ)| ≤ spread W 0 := by
    have := spread_smul W 0 (0 : V3 ℝ)
    rw [show (0 : ℝ) • (0 : V3 ℝ) = 0 by v3, abs_zero, zero_mul] at this
    rw [this]; simp [dot]
  have self : ∀ v : V3 ℝ, v.cross v = 0 := fun v => by apply ext' <;> simp only [cross, zero_x, zero_y, zero_z] <;> ring
  have anti : ∀ v w : V3 ℝ, |T.dot (v.cross w)| ≤ spread W (v.cross w) → |T.dot (w.cross v)| ≤ spread W (w.cross v) := fun v w hvw => by
    have e : w.cross v = (-1 : ℝ) • v.cross w := by apply ext' <;> simp only [cross, smul_x, smul_y, smul_z] <;> ring
    rw [e]; exact sm _ hvw
  have s01 : |T.dot ((⟨1, 0, 0⟩ : V3 ℝ).cross ⟨0, 1, 0⟩)| ≤ spread W ((⟨1, 0, 0⟩ : V3 ℝ).cross ⟨0, 1, 0⟩) := by
    rw [show (⟨1, 0, 0⟩ : V3 ℝ).cross ⟨0, 1, 0⟩ = ⟨0, 0, 1⟩ by simp [cross]]; exact h3
  have s12 : |T.dot ((⟨0, 1, 0⟩ : V3 ℝ).cross ⟨0, 0, 1⟩)| ≤ spread W ((⟨0, 1, 0⟩ : V3 ℝ).cross ⟨0, 0, 1⟩) := by
    rw [show (⟨0, 1, 0⟩ : V3 ℝ).cross ⟨0, 0, 1⟩ = ⟨1, 0, 0⟩ by simp [cross]]; exact h1
  have s20 : |T.dot ((⟨0, 0, 1⟩ : V3 ℝ).cross ⟨1, 0, 0⟩)| ≤ spread W ((⟨0, 0, 1⟩ : V3 ℝ).cross ⟨1, 0, 0⟩) := by
    rw [show (⟨0, 0, 1⟩ : V3 ℝ).cross ⟨1, 0, 0⟩ = ⟨0, 1, 0⟩ by simp [cross]]; exact h2
  have t01 : |T.dot (c0.cross c1)| ≤ spread W (c0.cross c1) := by rw [d01]; exact sm D h6
  have t12 : |T.dot (c1.cross c2)| ≤ spread W (c1.cross c2) := by rw [d12]; exact sm D h4
  have t20 : |T.dot (c2.cross c0)| ≤ spread W (c2.cross c0) := by rw [d20]; exact sm D h5
  have nz : ∀ {v : V3 ℝ}, v.dot v = 1 → v ≠ 0 := fun hv h => by rw [h] at hv; simp [dot] at hv
  refine enough (e0 := ⟨1, 0, 0⟩) ?_ ⟨(a.x, ⟨1, 0, 0⟩), by rw [mem]; simp, by simp [dot]⟩ h1 ?_ ?_ n
  · intro w hw
    rcases (mem w).1 hw with rfl | rfl | rfl | rfl | rfl | rfl
    · exact ha.1
    · exact ha.2.1
    · exact ha.2.2
    · exact hb.1
    · exact hb.2.1
    · exact hb.2.2
  · intro w hw
    rcases (mem w).1 hw with rfl | rfl | rfl | rfl | rfl | rfl
    · exact ⟨nz (by simp [dot]), ⟨0, 1, 0⟩, by simp [dot], ⟨(a.y, ⟨0, 1, 0⟩), by rw [mem]; simp, by simp [dot]⟩, h2⟩
    · exact ⟨nz (by simp [dot]), ⟨0, 0, 1⟩, by simp [dot], ⟨(a.z, ⟨0, 0, 1⟩), by rw [mem]; simp, by simp [dot]⟩, h3⟩
    · exact ⟨nz (by simp [dot]), ⟨1, 0, 0⟩, by simp [dot], ⟨(a.x, ⟨1, 0, 0⟩), by rw [mem]; simp, by simp [dot]⟩, h1⟩
    · exact ⟨nz n0, c1, o01, ⟨(b.y, c1), by rw [mem]; simp, by rw [n1]; exact one_ne_zero⟩, h5⟩
    · exact ⟨nz n1, c2, o12, ⟨(b.z, c2), by rw [mem]; simp, by rw [n2]; exact one_ne_zero⟩, h6⟩
    · exact ⟨nz n2, c0, o20, ⟨(b.x, c0), by rw [mem]; simp, by rw [n0]; exact one_ne_zero⟩, h4⟩
  · intro v hv w hw
    rcases (mem v).1 hv with rfl | rfl | rfl | rfl | rfl | rfl <;> rcases (mem w).1 hw with rfl | rfl | rfl | rfl | rfl | rfl <;>
      first
        | assumption
        | (apply anti; assumption)
        | (rw [self]; exact zero)

/-- Two boxes have nearest points. -/
theorem exists_near (B : M3 ℝ) (T : V3 ℝ) {a b : V3 ℝ} (ha : 0 ≤ a.x ∧ 0 ≤ a.y ∧ 0 ≤ a.z) (hb : 0 ≤ b.x ∧ 0 ≤ b.y ∧ 0 ≤ b.z) :
    ∃ d p q, IsDist {x : V3 ℝ | |x.x| ≤ a.x ∧ |x.y| ≤ a.y ∧ |x.z| ≤ a.z}
      {z : V3 ℝ | ∃ y : V3 ℝ, (|y.x| ≤ b.x ∧ |y.y| ≤ b.y ∧ |y.z| ≤ b.z) ∧ z = B.mulVec y + T} d p q := by
  let v : (Fin 3 → ℝ) → V3 ℝ := fun u => ⟨u 0, u 1, u 2⟩
  let F : (Fin 3 → ℝ) × (Fin 3 → ℝ) → ℝ := fun w =>
    (w.1 0 - (B.r0.x * w.2 0 + B.r0.y * w.2 1 + B.r0.z * w.2 2 + T.x)) ^ 2 +
    (w.1 1 - (B.r1.x * w.2 0 + B.r1.y * w.2 1 + B.r1.z * w.2 2 + T.y)) ^ 2 +
    (w.1 2 - (B.r2.x * w.2 0 + B.r2.y * w.2 1 + B.r2.z * w.2 2 + T.z)) ^ 2
  have hF : ∀ w, F w = (v w.1 - (B.mulVec (v w.2) + T)).dot (v w.1 - (B.mulVec (v w.2) + T)) := by
    intro w; simp [F, v, dot, M3.mulVec]; ring
  have hcont : Continuous F := by fun_prop
  let box : V3 ℝ → Set (Fin 3 → ℝ) := fun s => Set.Icc ![-s.x, -s.y, -s.z] ![s.x, s.y, s.z]
  have mem : ∀ s u, u ∈ box s ↔ |(v u).x| ≤ s.x ∧ |(v u).y| ≤ s.y ∧ |(v u).z| ≤ s.z := by
    intro s u
    simp only [box, Set.mem_Icc, Pi.le_def, Fin.forall_fin_succ, v, abs_le]
    simp
    tauto
  have hne : ∀ s : V3 ℝ, 0 ≤ s.x ∧ 0 ≤ s.y ∧ 0 ≤ s.z → (box s).Nonempty := fun s hs =>
    ⟨fun _ => 0, (mem s _).2 ⟨by simpa [v] using hs.1, by simpa [v] using hs.2.1, by simpa [v] using hs.2.2⟩⟩
  obtain ⟨w, hw, hmin⟩ := ((isCompact_Icc (a := ![-a.x, -a.y, -a.z]) (b := ![a.x, a.y, a.z])).prod
    (isCompact_Icc (a := ![-b.x, -b.y, -b.z]) (b := ![b.x, b.y, b.z]))).exists_isMinOn ((hne a ha).prod (hne b hb)) hcont.continuousOn
  have eta : ∀ x : V3 ℝ, v ![x.x, x.y, x.z] = x := fun x => by simp [v]
  refine ⟨_, v w.1, B.mulVec (v w.2) + T, (mem a _).1 hw.1, ⟨v w.2, (mem b _).1 hw.2, rfl⟩, rfl, ?_⟩
  rintro x hx z ⟨y, hy, rfl⟩
  have := hmin (Set.mk_mem_prod ((mem a ![x.x, x.y, x.z]).2 (by rw [eta]; exact hx)) ((mem b ![y.x, y.y, y.z]).2 (by rw [eta]; exact hy)))
  rw [Set.mem_ofPred_eq, hF, hF] at this
  simp only [eta] at this
  rw [dist_eq, dist_eq]
  exact (nrm_le_iff (nrm_nonneg _)).2 (by rw [nrm_mul_self]; exact this)

theorem abs_seg {a p q t : ℝ} (hp : |p| ≤ a) (hq : |q| ≤ a) (h0 : 0 ≤ t) (h1 : t ≤ 1) : |(1 - t) * p + t * q| ≤ a := by
  rw [abs_le] at *
  constructor <;> nlinarith

/-- If no direction shows the boxes apart, they have a common point. -/
theorem meet_of_spread {B : M3 ℝ} {T a b : V3 ℝ} (ha : 0 ≤ a.x ∧ 0 ≤ a.y ∧ 0 ≤ a.z) (hb : 0 ≤ b.x ∧ 0 ≤ b.y ∧ 0 ≤ b.z)
    (h : ∀ n, T.dot n ≤ spread (edges B a b) n) : ∃ x y : V3 ℝ, (|x.x| ≤ a.x ∧ |x.y| ≤ a.y ∧ |x.z| ≤ a.z) ∧
      (|y.x| ≤ b.x ∧ |y.y| ≤ b.y ∧ |y.z| ≤ b.z) ∧ x = B.mulVec y + T := by
  obtain ⟨d, p, q, hd⟩ := exists_near B T ha hb
  rcases (isDist_nonneg hd).lt_or_eq with h0 | h0
  · exfalso
    obtain ⟨-, hs⟩ := isDist_direction (fun x hx y hy t t0 t1 => by
        exact ⟨by simpa using abs_seg hx.1 hy.1 t0 t1, by simpa using abs_seg hx.2.1 hy.2.1 t0 t1, by simpa using abs_seg hx.2.2 hy.2.2 t0 t1⟩)
      (by
        rintro _ ⟨x, hx, rfl⟩ _ ⟨y, hy, rfl⟩ t t0 t1
        refine ⟨(1 - t) • x + t • y, ⟨by simpa using abs_seg hx.1 hy.1 t0 t1, by simpa using abs_seg hx.2.1 hy.2.1 t0 t1, by simpa using abs_seg hx.2.2 hy.2.2 t0 t1⟩, ?_⟩
        rw [M3.mulVec_add, M3.mulVec_smul, M3.mulVec_smul]; v3) hd h0
    generalize (1 / d) • (q - p) = n at hs
    have sa : ∀ c e : ℝ, 0 ≤ c → |sg e * c| ≤ c := fun c e hc => by
      rcases sg_cases e with h | h <;> rw [h]
      · rw [one_mul, abs_of_nonneg hc]
      · rw [neg_one_mul, abs_neg, abs_of_nonneg hc]
    have sn : ∀ c e : ℝ, 0 ≤ c → |-(sg e * c)| ≤ c := fun c e hc => by rw [abs_neg]; exact sa c e hc
    have k := hs ⟨sg n.x * a.x, sg n.y * a.y, sg n.z * a.z⟩ ⟨sa _ _ ha.1, sa _ _ ha.2.1, sa _ _ ha.2.2⟩ _
      ⟨⟨-(sg ((B.col 0).dot n) * b.x), -(sg ((B.col 1).dot n) * b.y), -(sg ((B.col 2).dot n) * b.z)⟩,
        ⟨sn _ _ hb.1, sn _ _ hb.2.1, sn _ _ hb.2.2⟩, rfl⟩
    have hn := h n
    rw [spread_edges, ← sg_mul n.x, ← sg_mul n.y, ← sg_mul n.z, ← sg_mul ((B.col 0).dot n), ← sg_mul ((B.col 1).dot n),
      ← sg_mul ((B.col 2).dot n)] at hn
    have e : n.dot (B.mulVec ⟨-(sg ((B.col 0).dot n) * b.x), -(sg ((B.col 1).dot n) * b.y), -(sg ((B.col 2).dot n) * b.z)⟩ + T -
        ⟨sg n.x * a.x, sg n.y * a.y, sg n.z * a.z⟩) = T.dot n - (sg n.x * a.x * n.x + sg n.y * a.y * n.y + sg n.z * a.z * n.z) -
        (sg ((B.col 0).dot n) * b.x * (B.col 0).dot n + sg ((B.col 1).dot n) * b.y * (B.col 1).dot n +
          sg ((B.col 2).dot n) * b.z * (B.col 2).dot n) := by
      generalize sg ((B.col 0).dot n) = s0
      generalize sg ((B.col 1).dot n) = s1
      generalize sg ((B.col 2).dot n) = s2
      simp only [dot, M3.mulVec, M3.col, V3.get, add_x, add_y, add_z, sub_x, sub_y, sub_z]; ring
    rw [e] at k
    linarith
  · have e := dist_eq_zero (hd.attained.trans h0.symm)
    obtain ⟨y, hy, hq⟩ := hd.right
    exact ⟨p, y, hd.left, hy, e.trans hq⟩

/-- Fifteen directions are enough: if none of them shows the boxes apart, they have a common point. -/
theorem meet_of_axes {B : M3 ℝ} (hB : B.Orthonormal) {T a b : V3 ℝ} (ha : 0 ≤ a.x ∧ 0 ≤ a.y ∧ 0 ≤ a.z) (hb : 0 ≤ b.x ∧ 0 ≤ b.y ∧ 0 ≤ b.z)
    (h : ∀ n ∈ axes B, |T.dot n| ≤ spread (edges B a b) n) : ∃ x y : V3 ℝ, (|x.x| ≤ a.x ∧ |x.y| ≤ a.y ∧ |x.z| ≤ a.z) ∧
      (|y.x| ≤ b.x ∧ |y.y| ≤ b.y ∧ |y.z| ≤ b.z) ∧ x = B.mulVec y + T :=
  meet_of_spread ha hb (fifteen hB ha hb h)

/-- If the boxes have a common point, no direction shows them apart. -/
theorem spread_of_meet {B : M3 ℝ} {T a b x y : V3 ℝ} (hx : |x.x| ≤ a.x ∧ |x.y| ≤ a.y ∧ |x.z| ≤ a.z)
    (hy : |y.x| ≤ b.x ∧ |y.y| ≤ b.y ∧ |y.z| ≤ b.z) (e : x = B.mulVec y + T) (n : V3 ℝ) : |T.dot n| ≤ spread (edges B a b) n := by
  have t : ∀ {c z w : ℝ}, |z| ≤ w → |z * c| ≤ w * |c| := fun hz => by
    rw [abs_mul]; exact mul_le_mul_of_nonneg_right hz (abs_nonneg _)
  have eT : T.dot n = (x.x * n.x + x.y * n.y + x.z * n.z) - (y.x * (B.col 0).dot n + y.y * (B.col 1).dot n + y.z * (B.col 2).dot n) := by
    have : T = x - B.mulVec y := by rw [e]; v3
    rw [this]
    simp only [dot, M3.mulVec, M3.col, V3.get, sub_x, sub_y, sub_z]; ring
  have a1 := abs_le.1 (t (c := n.x) hx.1)
  have a2 := abs_le.1 (t (c := n.y) hx.2.1)
  have a3 := abs_le.1 (t (c := n.z) hx.2.2)
  have b1 := abs_le.1 (t (c := (B.col 0).dot n) hy.1)
  have b2 := abs_le.1 (t (c := (B.col 1).dot n) hy.2.1)
  have b3 := abs_le.1 (t (c := (B.col 2).dot n) hy.2.2)
  rw [spread_edges, eT, abs_le]
  constructor <;> linarith

end Zono
end Fcl
