import Verif.RSS.DistLemmas
import Mathlib.Tactic.NormNum

/-! # C85: the distance and the overlap test of rectangle swept spheres -/

namespace Fcl
open V3
namespace RSS

variable {b b1 b2 : RSS ℝ} {eps : ℝ} {X : Pose ℝ}

/-- **C85.** The distance of two volumes, the second one at a pose, is not more than the distance of any two of their
points. -/
theorem C85_lower (w1 : b1.WF) (w2 : b2.WF) (hX : X.Rigid) (he : 0 < eps) {p q : V3 ℝ} (hp : p ∈ b1.pts) (hq : q ∈ b2.pts) :
    0 ≤ distanceAt eps X.R X.t b1 b2 ∧ distanceAt eps X.R X.t b1 b2 ≤ p.dist (X.apply q) := by
  have h := rectDistance_le_pts w1 w2 hX he hp hq
  have := V3.dist_nonneg p (X.apply q)
  unfold distanceAt
  dsimp only
  split_ifs with hd
  · exact ⟨le_rfl, this⟩
  · exact ⟨not_lt.1 hd, by linarith⟩

/-- The overlap test says no only of volumes without a common point. -/
theorem C85_overlap (w1 : b1.WF) (w2 : b2.WF) (hX : X.Rigid) (he : 0 < eps) (h : overlapAt eps X.R X.t b1 b2 = false) :
    ∀ p ∈ b1.pts, ∀ q ∈ b2.pts, p ≠ X.apply q := by
  rintro p hp q hq rfl
  have := rectDistance_le_pts w1 w2 hX he hp hq
  rw [overlapAt, decide_eq_false_iff_not] at h
  rw [V3.dist_self] at this
  linarith

/-- The member functions are the same with the second volume where it is. -/
theorem C85_members (eps : ℝ) (b1 b2 : RSS ℝ) :
    overlap eps b1 b2 = overlapAt eps (Pose.id : Pose ℝ).R (Pose.id : Pose ℝ).t b1 b2 ∧
      distance eps b1 b2 = distanceAt eps (Pose.id : Pose ℝ).R (Pose.id : Pose ℝ).t b1 b2 := by
  have e : rects b1 b2 = rectsAt (Pose.id : Pose ℝ).R (Pose.id : Pose ℝ).t b1 b2 := rects_eq b1 b2
  unfold overlap overlapAt distance distanceAt
  rw [e]
  exact ⟨rfl, rfl⟩

theorem C85_member_lower (w1 : b1.WF) (w2 : b2.WF) (he : 0 < eps) {p q : V3 ℝ} (hp : p ∈ b1.pts) (hq : q ∈ b2.pts) :
    distance eps b1 b2 ≤ p.dist q := by
  have := (C85_lower w1 w2 Pose.id_rigid he hp hq).2
  rwa [Pose.id_apply, ← (C85_members eps b1 b2).2] at this

theorem C85_member_overlap (w1 : b1.WF) (w2 : b2.WF) (he : 0 < eps) (h : overlap eps b1 b2 = false) : ¬ Touch b1.pts b2.pts := by
  rintro ⟨p, hp, hq⟩
  rw [(C85_members eps b1 b2).1] at h
  exact C85_overlap w1 w2 Pose.id_rigid he h p hp p hq (by rw [Pose.id_apply])

/-- **C85, exactness.** When `rectDistance` finds a pair of sides, the distance is that of the volumes, two points of
which are at this distance, the overlap test is exact, and the points given are the nearest points of the
rectangles, in the frame of the first volume. What is missing is the case where no pair of sides is found and
the answer is the greater of the separations along the two normals: it is the distance only if the nearest point of
one rectangle is inside it, and the tolerance `1e-7` of `inVoronoi` sends some other cases there. -/
theorem C85_exact_partial (w1 : b1.WF) (w2 : b2.WF) (hX : X.Rigid) (he : 0 < eps) {e : Edge ℝ}
    (h : (rectsAt X.R X.t b1 b2).edges eps = some e) :
    (∃ p ∈ b1.pts, ∃ q ∈ b2.pts, p.dist (X.apply q) = distanceAt eps X.R X.t b1 b2) ∧
    (overlapAt eps X.R X.t b1 b2 = true ↔ ∃ p ∈ b1.pts, ∃ q ∈ b2.pts, p = X.apply q) ∧
    ∃ c ∈ b1.rect, ∃ d ∈ b2.rect,
      rectPoints eps (rectsAt X.R X.t b1 b2) = some (b1.axis.tr.mulVec (c - b1.To), b1.axis.tr.mulVec (X.apply d - b1.To)) ∧
      rectDistance eps (rectsAt X.R X.t b1 b2) = c.dist (X.apply d) ∧ ∀ c' ∈ b1.rect, ∀ d' ∈ b2.rect, c.dist (X.apply d) ≤ c'.dist (X.apply d') := by
  have g := Rects.edges_good (rectsAt_wf w1 w2 hX) he h
  obtain ⟨c, hc, ec⟩ := left_frame w1 g.left
  obtain ⟨d, hd, ed⟩ := right_frame g.right
  have hdist : rectDistance eps (rectsAt X.R X.t b1 b2) = c.dist (X.apply d) := by
    rw [← frame_dist w1, ec, ed, V3.dist_comm, dist_eq, rectDistance, h]
    change e.D.nrm = _
    congr 1; v3
  obtain ⟨p, hp, q, hq, hpq⟩ := pts_of_rect w1 w2 hX hc hd
  have hD : p.dist (X.apply q) = distanceAt eps X.R X.t b1 b2 := by
    rw [hpq, distanceAt, hdist]
    split_ifs with hn
    · exact max_eq_right hn.le
    · exact max_eq_left (not_lt.1 hn)
  refine ⟨⟨p, hp, q, hq, hD⟩, ⟨fun ho => ⟨p, hp, q, hq, dist_eq_zero ?_⟩, fun ⟨p', hp', q', hq', e'⟩ => ?_⟩, c, hc, d, hd, ?_, hdist, fun c' hc' d' hd' => ?_⟩
  · rw [overlapAt, decide_eq_true_eq, hdist] at ho
    rw [hpq]
    exact max_eq_right (by linarith)
  · by_contra hn
    exact C85_overlap w1 w2 hX he (Bool.eq_false_iff.2 hn) p' hp' q' hq' e'
  · rw [rectPoints, h]
    change _ = some (b1.frame c, b1.frame (X.apply d))
    rw [ec, ed]
    change some (e.P, e.D + e.P) = _
    have : e.D + e.P = e.P + e.D := by v3
    rw [this]
  · rw [← hdist, ← frame_dist w1 c']
    exact rectDistance_le (rectsAt_wf w1 w2 hX) he (frame_left w1 hc') (frame_right hd')

/-! ### Points in a volume -/

theorem frame_coords (w : b.WF) (p : V3 ℝ) :
    p = b.To + (b.frame p).x • b.axis.col 0 + (b.frame p).y • b.axis.col 1 + (b.frame p).z • b.axis.col 2 := by
  have e : b.axis.mulVec (b.frame p) = p - b.To := by rw [frame, w.axis.mul_tr]
  rw [mulVec_cols] at e
  have := congrArg (b.To + ·) e
  simp only [V3.add_sub_cancel] at this
  refine this.symm.trans ?_
  v3

/-- Membership in the frame of the volume, with a distance less than the radius. -/
theorem near_rect (w : b.WF) {p : V3 ℝ} :
    (∃ c ∈ b.rect, (p - c).dot (p - c) < b.r * b.r) ↔
      ∃ x y : ℝ, 0 ≤ x ∧ x ≤ b.l0 ∧ 0 ≤ y ∧ y ≤ b.l1 ∧
        ((b.frame p).x - x) * ((b.frame p).x - x) + ((b.frame p).y - y) * ((b.frame p).y - y) + (b.frame p).z * (b.frame p).z < b.r * b.r := by
  have key : ∀ x y : ℝ, (p - (b.To + x • b.axis.col 0 + y • b.axis.col 1)).dot (p - (b.To + x • b.axis.col 0 + y • b.axis.col 1)) =
      ((b.frame p).x - x) * ((b.frame p).x - x) + ((b.frame p).y - y) * ((b.frame p).y - y) + (b.frame p).z * (b.frame p).z := by
    intro x y
    rw [← nrm_mul_self, ← dist_eq, ← frame_dist w, frame_rect w, dist_eq, nrm_mul_self]
    simp [V3.dot]
  constructor
  · rintro ⟨c, ⟨x, y, h0, h1, h2, h3, rfl⟩, h⟩
    rw [key] at h
    exact ⟨x, y, h0, h1, h2, h3, h⟩
  · rintro ⟨x, y, h0, h1, h2, h3, h⟩
    exact ⟨_, ⟨x, y, h0, h1, h2, h3, rfl⟩, by rw [key]; exact h⟩

/-- `contain` in the coordinates of the frame. -/
theorem contain_eq (b : RSS ℝ) (p : V3 ℝ) {f : V3 ℝ} (hf : b.frame p = f) : b.contain p =
    if (f.x < b.l0 ∧ f.x > 0) ∧ f.y < b.l1 ∧ f.y > 0 then decide (|f.z| < b.r)
    else if (f.x < b.l0 ∧ f.x > 0) ∧ (f.y < 0 ∨ f.y > b.l1) then
      decide ((f.x - f.x) * (f.x - f.x) + (f.y - if f.y > 0 then b.l1 else 0) * (f.y - if f.y > 0 then b.l1 else 0) + f.z * f.z < b.r * b.r)
    else if (f.y < b.l1 ∧ f.y > 0) ∧ (f.x < 0 ∨ f.x > b.l0) then
      decide ((f.x - if f.x > 0 then b.l0 else 0) * (f.x - if f.x > 0 then b.l0 else 0) + (f.y - f.y) * (f.y - f.y) + f.z * f.z < b.r * b.r)
    else
      decide ((f.x - if f.x > 0 then b.l0 else 0) * (f.x - if f.x > 0 then b.l0 else 0) +
        (f.y - if f.y > 0 then b.l1 else 0) * (f.y - if f.y > 0 then b.l1 else 0) + f.z * f.z < b.r * b.r) := by
  subst hf
  unfold contain frame
  simp only [V3.dot, V3.sub_x, V3.sub_y, V3.sub_z, sub_zero]

/-- `contain` says yes only of points inside the volume. -/
theorem C85_contain (w : b.WF) {p : V3 ℝ} (h : b.contain p = true) : ∃ c ∈ b.rect, (p - c).dot (p - c) < b.r * b.r := by
  rw [near_rect w]
  have l0 := w.l0
  have l1 := w.l1
  rw [contain_eq b p rfl] at h
  generalize b.frame p = f at *
  have hx : 0 ≤ (if f.x > 0 then b.l0 else 0) ∧ (if f.x > 0 then b.l0 else 0) ≤ b.l0 := by split_ifs <;> constructor <;> linarith
  have hy : 0 ≤ (if f.y > 0 then b.l1 else 0) ∧ (if f.y > 0 then b.l1 else 0) ≤ b.l1 := by split_ifs <;> constructor <;> linarith
  generalize (if f.x > 0 then b.l0 else 0) = x at *
  generalize (if f.y > 0 then b.l1 else 0) = y at *
  split_ifs at h with c1 c2 c3
  · rw [decide_eq_true_eq] at h
    refine ⟨f.x, f.y, c1.1.2.le, c1.1.1.le, c1.2.2.le, c1.2.1.le, ?_⟩
    have := abs_lt.1 h
    nlinarith
  · exact ⟨f.x, y, c2.1.2.le, c2.1.1.le, hy.1, hy.2, of_decide_eq_true h⟩
  · exact ⟨x, f.y, hx.1, hx.2, c3.1.2.le, c3.1.1.le, of_decide_eq_true h⟩
  · exact ⟨x, y, hx.1, hx.2, hy.1, hy.2, of_decide_eq_true h⟩

/-- The square of the distance to an end is the least one. -/
theorem end_nearest {l v x : ℝ} (h0 : 0 ≤ x) (h1 : x ≤ l) (hv : v < 0 ∨ l < v) :
    (v - if v > 0 then l else 0) * (v - if v > 0 then l else 0) ≤ (v - x) * (v - x) := by
  rcases hv with hv | hv
  · rw [if_neg (by linarith)]; nlinarith
  · rw [if_pos (by linarith)]; nlinarith

/-- Of points that are not exactly beside an end of a side, it says yes of all inside the volume. -/
theorem C85_contain_iff (w : b.WF) {p : V3 ℝ} (hx0 : (p - b.To).dot (b.axis.col 0) ≠ 0) (hx1 : (p - b.To).dot (b.axis.col 0) ≠ b.l0)
    (hy0 : (p - b.To).dot (b.axis.col 1) ≠ 0) (hy1 : (p - b.To).dot (b.axis.col 1) ≠ b.l1) :
    b.contain p = true ↔ ∃ c ∈ b.rect, (p - c).dot (p - c) < b.r * b.r := by
  refine ⟨C85_contain w, fun h => ?_⟩
  have ex : (p - b.To).dot (b.axis.col 0) = (b.frame p).x := by simp only [frame, M3.mulVec, M3.tr]; rw [V3.dot_comm]
  have ey : (p - b.To).dot (b.axis.col 1) = (b.frame p).y := by simp only [frame, M3.mulVec, M3.tr]; rw [V3.dot_comm]
  rw [ex] at hx0 hx1
  rw [ey] at hy0 hy1
  rw [near_rect w] at h
  obtain ⟨x, y, h0, h1, h2, h3, h⟩ := h
  rw [contain_eq b p rfl]
  generalize b.frame p = f at *
  have hr := w.r
  have sx := mul_self_nonneg (f.x - x)
  have sy := mul_self_nonneg (f.y - y)
  have oy : ¬(f.y < b.l1 ∧ f.y > 0) → f.y < 0 ∨ b.l1 < f.y := by
    intro hn
    rcases lt_or_gt_of_ne hy0 with h | h
    · exact .inl h
    · rcases lt_or_gt_of_ne hy1 with h' | h'
      · exact absurd ⟨h', h⟩ hn
      · exact .inr h'
  have ox : ¬(f.x < b.l0 ∧ f.x > 0) → f.x < 0 ∨ b.l0 < f.x := by
    intro hn
    rcases lt_or_gt_of_ne hx0 with h | h
    · exact .inl h
    · rcases lt_or_gt_of_ne hx1 with h' | h'
      · exact absurd ⟨h', h⟩ hn
      · exact .inr h'
  have nx := fun hv => end_nearest (v := f.x) h0 h1 hv
  have ny := fun hv => end_nearest (v := f.y) h2 h3 hv
  generalize (if f.x > 0 then b.l0 else 0) = X at *
  generalize (if f.y > 0 then b.l1 else 0) = Y at *
  have zx : (f.x - f.x) * (f.x - f.x) = 0 := by ring
  have zy : (f.y - f.y) * (f.y - f.y) = 0 := by ring
  split_ifs with c1 c2 c3
  · rw [decide_eq_true_eq]
    exact abs_lt_of_sq_lt_sq (by nlinarith) hr
  · rw [decide_eq_true_eq]
    have := ny c2.2
    linarith
  · rw [decide_eq_true_eq]
    have := nx c3.2
    linarith
  · rw [decide_eq_true_eq]
    have hx : f.x < 0 ∨ b.l0 < f.x := ox fun hx => by
      by_cases hy : f.y < b.l1 ∧ f.y > 0
      · exact c1 ⟨hx, hy⟩
      · exact c2 ⟨hx, oy hy⟩
    have hy : f.y < 0 ∨ b.l1 < f.y := oy fun hy => c3 ⟨hy, hx⟩
    have := nx hx
    have := ny hy
    linarith

/-- A square of side 10 at the origin, radius 1. -/
noncomputable def exBig : RSS ℝ := ⟨M3.one, 0, 10, 10, 1⟩

theorem exBig_wf : exBig.WF := ⟨M3.orthonormal_one, by norm_num [exBig], by norm_num [exBig], by norm_num [exBig]⟩

/-- **C85, negative.** The middle of a side of the rectangle is a point of the rectangle itself, but `contain` looks at
the corner only and says no. -/
theorem C85_violated_contain : (⟨0, 5, 0⟩ : V3 ℝ) ∈ exBig.rect ∧ exBig.contain ⟨0, 5, 0⟩ = false := by
  constructor
  · refine ⟨0, 5, le_rfl, by norm_num [exBig], by norm_num, by norm_num [exBig], ?_⟩
    apply V3.ext' <;> norm_num [exBig, M3.one, M3.col, V3.get]
  · norm_num [contain, exBig, M3.tr, M3.col, M3.one, M3.mulVec, V3.dot, V3.get]

/-- **C85, negative.** Adding a point above the rectangle leaves the point outside. -/
theorem C85_violated_add_point : (⟨5, 5, 5⟩ : V3 ℝ) ∉ (exBig.addPoint ⟨5, 5, 5⟩).pts := by
  have e : exBig.addPoint ⟨5, 5, 5⟩ = ⟨M3.one, ⟨0, 0, 1⟩, 10, 10, 3⟩ := by
    norm_num [addPoint, shiftZ, exBig, M3.col, M3.one, V3.dot, V3.get, abs_of_pos]
  rw [e]
  rintro ⟨c, ⟨x, y, -, -, -, -, rfl⟩, h⟩
  norm_num [V3.dot, M3.col, M3.one, V3.get] at h
  nlinarith [mul_self_nonneg (5 - x), mul_self_nonneg (5 - y)]

namespace Rects

/-- Evaluates a call of `rectDistance`. -/
local macro "rect_eval" : tactic => `(tactic| norm_num [edges, segCoords, inVoronoi, clip, sep, sep1, sep2, sepPoints, M3.tr, M3.col, M3.one, M3.mulVec,
  V3.dot, V3.get, Tba, A0_dot_B0, A0_dot_B1, A1_dot_B0, A1_dot_B1, aA0_dot_B0, aA0_dot_B1, aA1_dot_B0, aA1_dot_B1, bA0_dot_B0,
  bA1_dot_B0, bA0_dot_B1, bA1_dot_B1, ALL_x, ALU_x, AUL_x, AUU_x, ALL_y, ALU_y, AUL_y, AUU_y, BLL_x, BLU_x, BUL_x,
  BUU_x, BLL_y, BLU_y, BUL_y, BUU_y, UA0_lx, UA0_ux, UA0_ly, UA0_uy, UA1_lx, UA1_ux, UA1_ly, UA1_uy, LA0_lx, LA0_ux,
  LA0_ly, LA0_uy, LA1_lx, LA1_ux, LA1_ly, LA1_uy, UB0_lx, UB0_ux, UB0_ly, UB0_uy, UB1_lx, UB1_ux, UB1_ly, UB1_uy,
  LB0_lx, LB0_ux, LB0_ly, LB0_uy, LB1_lx, LB1_ux, LB1_ly, LB1_uy, UA1UB1, UA1LB1, LA1UB1, LA1LB1, UA1UB0, UA1LB0,
  LA1UB0, LA1LB0, UA0UB1, UA0LB1, LA0UB1, LA0LB1, UA0UB0, UA0LB0, LA0UB0, LA0LB0])

/-- Two squares of side 10 in parallel planes, the second shifted by (-2, -2) and at height 3. -/
noncomputable def exOver : Rects ℝ := ⟨M3.one, ⟨-2, -2, 3⟩, 10, 10, 10, 10⟩

theorem exOver_wf : exOver.WF :=
  ⟨M3.orthonormal_one, by norm_num [exOver], by norm_num [exOver], by norm_num [exOver], by norm_num [exOver]⟩

theorem exOver_edges : exOver.edges (1 / 10 ^ 7) = none := by
  unfold exOver
  rect_eval

/-- **C85, negative.** For rectangles that face each other the distance is right, but the points given are not points
of the rectangles: the first rectangle has no point with a negative coordinate. -/
theorem C85_violated_points :
    rectDistance (1 / 10 ^ 7) exOver = 3 ∧ (∃ p ∈ exOver.left, ∃ q ∈ exOver.right, p.dist q = 3) ∧
      rectPoints (1 / 10 ^ 7) exOver = some (⟨-2, -2, 0⟩, ⟨-2, -2, 3⟩) ∧ (⟨-2, -2, 0⟩ : V3 ℝ) ∉ exOver.left := by
  refine ⟨?_, ⟨⟨0, 0, 0⟩, ⟨0, 0, le_rfl, by norm_num [exOver], le_rfl, by norm_num [exOver], rfl⟩, ⟨0, 0, 3⟩,
    ⟨2, 2, by norm_num, by norm_num [exOver], by norm_num, by norm_num [exOver], ?_⟩, ?_⟩, ?_, ?_⟩
  · rw [rectDistance, exOver_edges]
    change exOver.sep = 3
    unfold exOver
    rect_eval
  · apply V3.ext' <;> norm_num [exOver, M3.one, M3.col, V3.get]
  · rw [V3.dist_comm, dist_eq]
    exact nrm_unique (by norm_num) (by norm_num [V3.dot])
  · rw [rectPoints, exOver_edges]
    change exOver.sepPoints = _
    unfold exOver
    rect_eval
    apply V3.ext' <;> norm_num
  · rintro ⟨x, y, h0, -, -, -, h⟩
    have := congrArg V3.x h
    simp only at this
    linarith

/-- Two squares of side 10 in parallel planes, the second shifted by 13 and at height 4. -/
noncomputable def exBeside : Rects ℝ := ⟨M3.one, ⟨13, 0, 4⟩, 10, 10, 10, 10⟩

/-- A pair of sides is found. -/
theorem exBeside_edges : exBeside.edges (1 / 10 ^ 7) = some ⟨⟨10, 0, 0⟩, ⟨3, 0, 4⟩⟩ := by
  unfold exBeside
  rect_eval

end Rects

/-- The hypotheses of `C85_exact_partial` hold for two volumes of radius 1: their distance is 3. -/
theorem C85_example :
    distance (1 / 10 ^ 7) ⟨M3.one, 0, 10, 10, 1⟩ ⟨M3.one, ⟨13, 0, 4⟩, 10, 10, 1⟩ = 3 ∧
      ∃ p ∈ RSS.pts (K := ℝ) ⟨M3.one, 0, 10, 10, 1⟩, ∃ q ∈ RSS.pts (K := ℝ) ⟨M3.one, ⟨13, 0, 4⟩, 10, 10, 1⟩, p.dist q = 3 := by
  have e : rectsAt (Pose.id : Pose ℝ).R (Pose.id : Pose ℝ).t (⟨M3.one, 0, 10, 10, 1⟩ : RSS ℝ) ⟨M3.one, ⟨13, 0, 4⟩, 10, 10, 1⟩ = Rects.exBeside := by
    norm_num [rectsAt, Rects.exBeside, Pose.id, M3.mul, M3.mulVec, M3.one, M3.tr, M3.col, V3.dot, V3.get]
  have h := Rects.exBeside_edges
  rw [← e] at h
  have w1 : RSS.WF (K := ℝ) ⟨M3.one, 0, 10, 10, 1⟩ := ⟨M3.orthonormal_one, by norm_num, by norm_num, by norm_num⟩
  have w2 : RSS.WF (K := ℝ) ⟨M3.one, ⟨13, 0, 4⟩, 10, 10, 1⟩ := ⟨M3.orthonormal_one, by norm_num, by norm_num, by norm_num⟩
  obtain ⟨⟨p, hp, q, hq, hpq⟩, -, -⟩ := C85_exact_partial w1 w2 Pose.id_rigid (by norm_num) h
  rw [Pose.id_apply, ← (C85_members _ _ _).2] at hpq
  have hd : distance (1 / 10 ^ 7) (⟨M3.one, 0, 10, 10, 1⟩ : RSS ℝ) ⟨M3.one, ⟨13, 0, 4⟩, 10, 10, 1⟩ = 3 := by
    rw [(C85_members _ _ _).2, distanceAt, rectDistance, h]
    have : (⟨3, 0, 4⟩ : V3 ℝ).nrm = 5 := nrm_unique (by norm_num) (by norm_num [V3.dot])
    norm_num [this]
  exact ⟨hd, p, hp, q, hq, hpq.trans hd⟩

end RSS
end Fcl
