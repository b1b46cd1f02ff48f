import Verif.RSS.RectEdges
import Verif.Geom.QuerySpec
import Verif.Geom.Rotation

/-!
# From the rectangles to the volumes
-/

namespace Fcl
open V3
namespace RSS
namespace Rects

variable {q : Rects ℝ} {eps : ℝ}

theorem sep1_le {x y : V3 ℝ} (hx : x ∈ q.left) (hy : y ∈ q.right) : q.sep1 ≤ |(y - x).z| := by
  obtain ⟨x0, x1, -, -, -, -, rfl⟩ := hx
  obtain ⟨y0, y1, f0, f1, f2, f3, rfl⟩ := hy
  have e : (q.T + y0 • q.R.col 0 + y1 • q.R.col 1 - ⟨x0, x1, 0⟩).z = q.T.z + y0 * q.R.r2.x + y1 * q.R.r2.y := by
    simp [M3.col, V3.get]
  rw [e, sep1]
  split
  · refine le_trans ?_ (le_abs_self _)
    split_ifs <;> nlinarith
  · refine le_trans ?_ (neg_le_abs _)
    split_ifs <;> nlinarith

theorem sep2_le (w : q.WF) {x y : V3 ℝ} (hx : x ∈ q.left) (hy : y ∈ q.right) : q.sep2 ≤ |(q.R.col 2).dot (y - x)| := by
  obtain ⟨x0, x1, g0, g1, g2, g3, rfl⟩ := hx
  obtain ⟨y0, y1, f0, f1, f2, f3, rfl⟩ := hy
  have h02 : q.R.r0.z * q.R.r0.x + q.R.r1.z * q.R.r1.x + q.R.r2.z * q.R.r2.x = 0 :=
    congrArg (fun m : M3 ℝ => m.r2.x) w.rot.cols
  have h12 : q.R.r0.z * q.R.r0.y + q.R.r1.z * q.R.r1.y + q.R.r2.z * q.R.r2.y = 0 :=
    congrArg (fun m : M3 ℝ => m.r2.y) w.rot.cols
  have e : (q.R.col 2).dot (q.T + y0 • q.R.col 0 + y1 • q.R.col 1 - ⟨x0, x1, 0⟩) = q.Tba.z - x0 * q.R.r0.z - x1 * q.R.r1.z := by
    simp [M3.col, V3.get, V3.dot, Tba, M3.tr, M3.mulVec]
    linear_combination y0 * h02 + y1 * h12
  rw [e, sep2]
  split
  · refine le_trans ?_ (neg_le_abs _)
    split_ifs <;> nlinarith
  · refine le_trans ?_ (le_abs_self _)
    split_ifs <;> nlinarith

/-- A unit vector does not stretch. -/
theorem abs_dot_le {n d : V3 ℝ} (hn : n.dot n = 1) : |n.dot d| ≤ d.nrm := by
  have h := dot_sq_le n d
  rw [hn, one_mul, ← nrm_mul_self] at h
  exact abs_le_of_sq_le_sq (by nlinarith) (nrm_nonneg d)

theorem sep_le (w : q.WF) {x y : V3 ℝ} (hx : x ∈ q.left) (hy : y ∈ q.right) : q.sep ≤ (y - x).nrm := by
  have h1 := sep1_le hx hy
  have h2 := sep2_le w hx hy
  have e1 : (y - x).z = (⟨0, 0, 1⟩ : V3 ℝ).dot (y - x) := by simp [V3.dot]
  have k1 : |(y - x).z| ≤ (y - x).nrm := by rw [e1]; exact abs_dot_le (by simp [V3.dot])
  have h22 : (q.R.col 2).dot (q.R.col 2) = 1 := congrArg (fun m : M3 ℝ => m.r2.z) w.rot.cols
  have k2 := abs_dot_le (d := y - x) h22
  unfold sep
  have := nrm_nonneg (y - x)
  dsimp only
  split_ifs <;> linarith

end Rects

/-- The distance of the rectangles is never less than `rectDistance`. -/
theorem rectDistance_le {q : Rects ℝ} {eps : ℝ} (w : q.WF) (he : 0 < eps) {x y : V3 ℝ} (hx : x ∈ q.left) (hy : y ∈ q.right) :
    rectDistance eps q ≤ x.dist y := by
  rw [V3.dist_comm, dist_eq]
  unfold rectDistance
  cases h : q.edges eps with
  | none => exact q.sep_le w hx hy
  | some e =>
    have g := Rects.edges_good w he h
    exact (nrm_le_iff (nrm_nonneg _)).2 (by rw [nrm_mul_self]; exact g.least x hx y hy)

theorem rectDistance_nonneg {q : Rects ℝ} {eps : ℝ} : 0 ≤ rectDistance eps q := by
  unfold rectDistance
  cases q.edges eps with
  | none => unfold Rects.sep; dsimp only; split_ifs <;> linarith
  | some e => exact nrm_nonneg _

/-! ### The frame of the first volume -/

theorem rects_eq (b1 b2 : RSS ℝ) : rects b1 b2 = rectsAt M3.one 0 b1 b2 := by
  have e : (M3.one : M3 ℝ).mul b2.axis = b2.axis := by
    simp [M3.mul, M3.one, M3.col, V3.dot, V3.get]
  have e2 : (M3.one : M3 ℝ).mulVec b2.To + 0 = b2.To := by rw [M3.one_mulVec]; v3
  unfold rects rectsAt
  rw [e, e2]

variable {b b1 b2 : RSS ℝ} {eps : ℝ} {X : Pose ℝ}

theorem mem_pts {p : V3 ℝ} (h : 0 ≤ b.r) : p ∈ b.pts ↔ ∃ c ∈ b.rect, p.dist c ≤ b.r := by
  constructor
  · rintro ⟨c, hc, hp⟩
    exact ⟨c, hc, by rw [dist_eq]; exact (nrm_le_iff h).2 hp⟩
  · rintro ⟨c, hc, hp⟩
    rw [dist_eq] at hp
    exact ⟨c, hc, (nrm_le_iff h).1 hp⟩

theorem rectsAt_wf (w1 : b1.WF) (w2 : b2.WF) (hX : X.Rigid) : (rectsAt X.R X.t b1 b2).WF :=
  ⟨w1.axis.tr.mul (M3.Orthonormal.mul hX w2.axis), w1.l0, w1.l1, w2.l0, w2.l1⟩

/-- The frame of the first volume. -/
noncomputable def frame (b : RSS ℝ) (p : V3 ℝ) : V3 ℝ := b.axis.tr.mulVec (p - b.To)

theorem frame_dist (w : b.WF) (p q : V3 ℝ) : (b.frame p).dist (b.frame q) = p.dist q := by
  rw [dist_eq, dist_eq, frame, frame, ← M3.mulVec_sub, w.axis.tr.nrm]
  congr 1; v3

theorem frame_inj (w : b.WF) {p q : V3 ℝ} (h : b.frame p = b.frame q) : p = q :=
  dist_eq_zero (by rw [← frame_dist w, h, V3.dist_self])

theorem mulVec_cols (m : M3 ℝ) (v : V3 ℝ) : m.mulVec v = v.x • m.col 0 + v.y • m.col 1 + v.z • m.col 2 := by
  apply V3.ext' <;> simp [M3.mulVec, M3.col, V3.dot, V3.get] <;> ring

theorem frame_rect (w : b1.WF) (x y : ℝ) : b1.frame (b1.To + x • b1.axis.col 0 + y • b1.axis.col 1) = ⟨x, y, 0⟩ := by
  have e : b1.To + x • b1.axis.col 0 + y • b1.axis.col 1 - b1.To = b1.axis.mulVec ⟨x, y, 0⟩ := by
    rw [mulVec_cols]; v3
  rw [frame, e, w.axis.tr_mul]

theorem frame_rect2 (b1 b2 : RSS ℝ) (X : Pose ℝ) (x y : ℝ) :
    b1.frame (X.apply (b2.To + x • b2.axis.col 0 + y • b2.axis.col 1)) =
      (rectsAt X.R X.t b1 b2).T + x • (rectsAt X.R X.t b1 b2).R.col 0 + y • (rectsAt X.R X.t b1 b2).R.col 1 := by
  have e : b2.To + x • b2.axis.col 0 + y • b2.axis.col 1 = b2.To + b2.axis.mulVec ⟨x, y, 0⟩ := by rw [mulVec_cols]; v3
  have e2 : X.apply (b2.To + x • b2.axis.col 0 + y • b2.axis.col 1) - b1.To =
      (X.R.mulVec b2.To + X.t - b1.To) + (X.R.mul b2.axis).mulVec ⟨x, y, 0⟩ := by
    rw [e, Pose.apply, M3.mulVec_add, M3.mul_mulVec]; v3
  rw [frame, e2, M3.mulVec_add, ← M3.mul_mulVec, mulVec_cols (b1.axis.tr.mul _)]
  simp only [rectsAt]; v3

theorem frame_left (w : b1.WF) {p : V3 ℝ} (h : p ∈ b1.rect) : b1.frame p ∈ (rectsAt X.R X.t b1 b2).left := by
  obtain ⟨x, y, h0, h1, h2, h3, rfl⟩ := h
  exact ⟨x, y, h0, h1, h2, h3, frame_rect w x y⟩

theorem frame_right {p : V3 ℝ} (h : p ∈ b2.rect) : b1.frame (X.apply p) ∈ (rectsAt X.R X.t b1 b2).right := by
  obtain ⟨x, y, h0, h1, h2, h3, rfl⟩ := h
  exact ⟨x, y, h0, h1, h2, h3, frame_rect2 b1 b2 X x y⟩

theorem left_frame (w : b1.WF) {p : V3 ℝ} (h : p ∈ (rectsAt X.R X.t b1 b2).left) : ∃ c ∈ b1.rect, b1.frame c = p := by
  obtain ⟨x, y, h0, h1, h2, h3, rfl⟩ := h
  exact ⟨_, ⟨x, y, h0, h1, h2, h3, rfl⟩, frame_rect w x y⟩

theorem right_frame {p : V3 ℝ} (h : p ∈ (rectsAt X.R X.t b1 b2).right) : ∃ c ∈ b2.rect, b1.frame (X.apply c) = p := by
  obtain ⟨x, y, h0, h1, h2, h3, rfl⟩ := h
  exact ⟨_, ⟨x, y, h0, h1, h2, h3, rfl⟩, frame_rect2 b1 b2 X x y⟩

/-- Any two points of the volumes. -/
theorem rectDistance_le_pts (w1 : b1.WF) (w2 : b2.WF) (hX : X.Rigid) (he : 0 < eps) {p q : V3 ℝ} (hp : p ∈ b1.pts) (hq : q ∈ b2.pts) :
    rectDistance eps (rectsAt X.R X.t b1 b2) ≤ p.dist (X.apply q) + (b1.r + b2.r) := by
  obtain ⟨c, hc, h1⟩ := (mem_pts w1.r).1 hp
  obtain ⟨d, hd, h2⟩ := (mem_pts w2.r).1 hq
  have h := rectDistance_le (rectsAt_wf w1 w2 hX) he (frame_left w1 (b2 := b2) (X := X) hc) (frame_right (b1 := b1) (X := X) hd)
  rw [frame_dist w1] at h
  have t1 := V3.dist_triangle c p (X.apply d)
  have t2 := V3.dist_triangle p (X.apply q) (X.apply d)
  rw [Pose.dist_apply hX] at t2
  rw [V3.dist_comm c p] at t1
  linarith

/-- A point at distance `s` on the way from `c` to `d`. -/
theorem on_the_way {c d : V3 ℝ} {s : ℝ} (h0 : 0 ≤ s) (h1 : s ≤ c.dist d) : ∃ p, c.dist p = s ∧ p.dist d = c.dist d - s := by
  by_cases h : c.dist d = 0
  · have : s = 0 := by linarith
    exact ⟨c, by rw [V3.dist_self, this], by rw [this, sub_zero]⟩
  · have hp : 0 < c.dist d := lt_of_le_of_ne (V3.dist_nonneg _ _) (Ne.symm h)
    have e : (d - c).nrm = c.dist d := by rw [V3.dist_comm, dist_eq]
    refine ⟨c + (s / c.dist d) • (d - c), ?_, ?_⟩
    · rw [V3.dist_comm, dist_eq]
      have : c + (s / c.dist d) • (d - c) - c = (s / c.dist d) • (d - c) := by v3
      rw [this, nrm_smul, abs_of_nonneg (by positivity), e, div_mul_cancel₀ _ h]
    · rw [V3.dist_comm, dist_eq]
      have : d - (c + (s / c.dist d) • (d - c)) = (1 - s / c.dist d) • (d - c) := by v3
      rw [this, nrm_smul, abs_of_nonneg (by rw [sub_nonneg, div_le_one hp]; exact h1), e, sub_mul, one_mul, div_mul_cancel₀ _ h]

/-- Two points of the rectangles give two points of the volumes. -/
theorem pts_of_rect (w1 : b1.WF) (w2 : b2.WF) (hX : X.Rigid) {c d : V3 ℝ} (hc : c ∈ b1.rect) (hd : d ∈ b2.rect) :
    ∃ p ∈ b1.pts, ∃ q ∈ b2.pts, p.dist (X.apply q) = max (c.dist (X.apply d) - (b1.r + b2.r)) 0 := by
  have r1 := w1.r
  have r2 := w2.r
  by_cases h : c.dist (X.apply d) ≤ b1.r
  · refine ⟨X.apply d, (mem_pts r1).2 ⟨c, hc, by rw [V3.dist_comm]; exact h⟩, d, (mem_pts r2).2 ⟨d, hd, by rw [V3.dist_self]; exact r2⟩, ?_⟩
    rw [V3.dist_self, max_eq_right]; linarith
  · obtain ⟨p, h1, h2⟩ := on_the_way r1 (not_le.1 h).le
    have hp : p ∈ b1.pts := (mem_pts r1).2 ⟨c, hc, by rw [V3.dist_comm, h1]⟩
    by_cases h' : p.dist (X.apply d) ≤ b2.r
    · refine ⟨p, hp, X.inv.apply p, (mem_pts r2).2 ⟨d, hd, ?_⟩, ?_⟩
      · rw [← Pose.dist_apply hX, Pose.apply_inv hX]; exact h'
      · rw [Pose.apply_inv hX, V3.dist_self, max_eq_right]; linarith
    · rw [V3.dist_comm] at h'
      obtain ⟨q, h3, h4⟩ := on_the_way r2 (not_le.1 h').le
      refine ⟨p, hp, X.inv.apply q, (mem_pts r2).2 ⟨d, hd, ?_⟩, ?_⟩
      · rw [← Pose.dist_apply hX, Pose.apply_inv hX, V3.dist_comm, h3]
      · rw [Pose.apply_inv hX, V3.dist_comm, h4, V3.dist_comm, h2]
        rw [V3.dist_comm, h2] at h'
        rw [max_eq_left] <;> linarith

end RSS
end Fcl
