import Verif.Props.RSS
import Verif.RSS.FitLemmas
import Verif.Props.OBB

/-!
# C86: fitting and merging of rectangle swept spheres

`fit` of `n` points, `RSS::operator +` of two volumes, `translate`, `center`.
-/

namespace Fcl
namespace RSS
open V3
variable {b b1 b2 : RSS ℝ}

/-! ### One volume -/

/-- The points of a volume are a convex set. -/
theorem pts_convex (h : 0 ≤ b.r) : ∀ p q, p ∈ b.pts → q ∈ b.pts → ∀ t : ℝ, 0 ≤ t → t ≤ 1 → (1 - t) • p + t • q ∈ b.pts := by
  intro p q hp hq t t0 t1
  obtain ⟨_, ⟨x, y, x0, x1, y0, y1, rfl⟩, hp⟩ := (mem_pts h).1 hp
  obtain ⟨_, ⟨x', y', x0', x1', y0', y1', rfl⟩, hq⟩ := (mem_pts h).1 hq
  have t1' : 0 ≤ 1 - t := by linarith
  refine (mem_pts h).2 ⟨_, ⟨(1 - t) * x + t * x', (1 - t) * y + t * y', ?_, ?_, ?_, ?_, rfl⟩, ?_⟩
  · have := mul_nonneg t1' x0; have := mul_nonneg t0 x0'; linarith
  · have := mul_nonneg t1' (sub_nonneg.2 x1); have := mul_nonneg t0 (sub_nonneg.2 x1'); nlinarith
  · have := mul_nonneg t1' y0; have := mul_nonneg t0 y0'; linarith
  · have := mul_nonneg t1' (sub_nonneg.2 y1); have := mul_nonneg t0 (sub_nonneg.2 y1'); nlinarith
  · rw [dist_eq] at hp hq ⊢
    have e : (1 - t) • p + t • q - (b.To + ((1 - t) * x + t * x') • b.axis.col 0 + ((1 - t) * y + t * y') • b.axis.col 1) =
        (1 - t) • (p - (b.To + x • b.axis.col 0 + y • b.axis.col 1)) + t • (q - (b.To + x' • b.axis.col 0 + y' • b.axis.col 1)) := by
      v3
    rw [e]
    refine (V3.nrm_add_le _ _).trans ?_
    rw [V3.nrm_smul, V3.nrm_smul, abs_of_nonneg t1', abs_of_nonneg t0]
    have := mul_le_mul_of_nonneg_left hp t1'
    have := mul_le_mul_of_nonneg_left hq t0
    nlinarith

/-- A point between two values is a weighted mean of them. -/
theorem between {a c x : ℝ} (h1 : a ≤ x) (h2 : x ≤ c) : ∃ t : ℝ, 0 ≤ t ∧ t ≤ 1 ∧ x = (1 - t) * a + t * c := by
  by_cases h : a = c
  · exact ⟨0, le_rfl, zero_le_one, by linarith⟩
  · have hp : 0 < c - a := sub_pos.2 (lt_of_le_of_ne (h1.trans h2) h)
    refine ⟨(x - a) / (c - a), div_nonneg (by linarith) hp.le, (div_le_one hp).2 (by linarith), ?_⟩
    have := div_mul_cancel₀ (x - a) hp.ne'
    linear_combination -this

/-- A convex set with the corners of a volume has all its points. -/
theorem pts_of_corners (w : b.WF) {S : Set (V3 ℝ)} (hc : ∀ p q, p ∈ S → q ∈ S → ∀ t : ℝ, 0 ≤ t → t ≤ 1 → (1 - t) • p + t • q ∈ S)
    (h : ∀ p ∈ b.corners, p ∈ S) : b.pts ⊆ S := by
  rintro p ⟨_, ⟨x, y, x0, x1, y0, y1, rfl⟩, hp⟩
  have hr := w.r
  obtain ⟨u, hu⟩ : ∃ u, u = b.frame p := ⟨_, rfl⟩
  have e := frame_coords w p
  rw [← hu] at e
  have hp' : (u.x - x) * (u.x - x) + (u.y - y) * (u.y - y) + u.z * u.z ≤ b.r * b.r := by
    have hd := frame_dist w p (b.To + x • b.axis.col 0 + y • b.axis.col 1)
    rw [frame_rect w, ← hu, dist_eq, dist_eq] at hd
    have h1 := nrm_mul_self (u - ⟨x, y, 0⟩)
    have h2 := nrm_mul_self (p - (b.To + x • b.axis.col 0 + y • b.axis.col 1))
    rw [hd, h2] at h1
    rw [h1] at hp
    simp only [dot, V3.sub_x, V3.sub_y, V3.sub_z] at hp
    linarith
  have hx := abs_le_of_sq_le_sq' (a := u.x - x) (b := b.r) (by nlinarith [mul_self_nonneg (u.y - y), mul_self_nonneg u.z]) hr
  have hy := abs_le_of_sq_le_sq' (a := u.y - y) (b := b.r) (by nlinarith [mul_self_nonneg (u.x - x), mul_self_nonneg u.z]) hr
  have hz := abs_le_of_sq_le_sq' (a := u.z) (b := b.r) (by nlinarith [mul_self_nonneg (u.x - x), mul_self_nonneg (u.y - y)]) hr
  obtain ⟨s, s0, s1, es⟩ := between (a := -b.r) (c := b.l0 + b.r) (x := u.x) (by linarith) (by linarith)
  obtain ⟨t, t0, t1, et⟩ := between (a := -b.r) (c := b.l1 + b.r) (x := u.y) (by linarith) (by linarith)
  obtain ⟨k, k0, k1, ek⟩ := between (a := -b.r) (c := b.r) (x := u.z) hz.1 hz.2
  rw [corners] at h
  simp only [List.mem_cons, List.not_mem_nil, or_false, forall_eq_or_imp, forall_eq] at h
  obtain ⟨c1, c2, c3, c4, c5, c6, c7, c8⟩ := h
  have := hc _ _ (hc _ _ (hc _ _ c8 c7 k k0 k1) (hc _ _ c6 c5 k k0 k1) t t0 t1)
    (hc _ _ (hc _ _ c4 c3 k k0 k1) (hc _ _ c2 c1 k k0 k1) t t0 t1) s s0 s1
  convert this using 1
  rw [e, es, et, ek]
  v3

/-! ### C86: fitting -/

/-- **C86** for one point. -/
theorem C86_fit1 (p : V3 ℝ) : (fit1 p).WF ∧ p ∈ (fit1 p).pts := by
  refine ⟨⟨M3.orthonormal_one, le_rfl, le_rfl, le_rfl⟩, p, ⟨0, 0, le_rfl, le_rfl, le_rfl, le_rfl, ?_⟩, ?_⟩
  · simp only [fit1]; v3
  · simp [fit1, dot]

/-- **C86** for two different points. -/
theorem C86_fit2 {prec : ℝ} {p1 p2 : V3 ℝ} (h : p1 ≠ p2) (hb : fit2 prec p1 p2 = some b) : b.WF ∧ p1 ∈ b.pts ∧ p2 ∈ b.pts := by
  have hv : p1 - p2 ≠ 0 := fun h0 => h (by
    have := congrArg V3.x h0; have := congrArg V3.y h0; have := congrArg V3.z h0
    simp at *; apply V3.ext' <;> linarith)
  rw [fit2] at hb
  cases e : OBB.coordinateSystem prec (p1 - p2) with
  | none => simp only [e] at hb; cases hb
  | some axis =>
    simp only [e] at hb
    obtain ⟨ho, h0⟩ := OBB.coordinateSystem_orthonormal hv e
    rw [← Option.some.inj hb]
    have hs := OBB.normalized_smul hv
    have hn := V3.nrm_nonneg (p1 - p2)
    refine ⟨⟨ho, hn, le_rfl, le_rfl⟩, ⟨p1, ⟨(p1 - p2).nrm, 0, hn, le_rfl, le_rfl, le_rfl, ?_⟩, by simp [dot]⟩,
      ⟨p2, ⟨0, 0, le_rfl, hn, le_rfl, le_rfl, by v3⟩, by simp [dot]⟩⟩
    simp only [h0]
    have hx := congrArg V3.x hs; have hy := congrArg V3.y hs; have hz := congrArg V3.z hs
    simp at hx hy hz
    apply V3.ext' <;> simp <;> linarith

/-- **C86** for three points not on a line. -/
theorem C86_fit3 {p1 p2 p3 : V3 ℝ} (h : (p1 - p2).cross (p2 - p3) ≠ 0) :
    (fit3 p1 p2 p3).WF ∧ ∀ p ∈ [p1, p2, p3], p ∈ (fit3 p1 p2 p3).pts :=
  fitAxis_spec (OBB.axes3_orthonormal h) p1 [p2, p3]

/-- **C86** for any number of points by `fitn`, and for the nodes of an RSS hierarchy. -/
theorem C86_fitn (absorb : ℝ → ℝ → Bool) {p0 : V3 ℝ} {ps : List (V3 ℝ)} (h : fitn (Jacobi.eigenOld absorb) p0 ps = some b) :
    b.WF ∧ ∀ p ∈ p0 :: ps, p ∈ b.pts := by
  rw [fitn] at h
  cases e : Jacobi.eigenOld absorb (OBB.covariance (p0 :: ps)) with
  | none => simp only [e] at h; cases h
  | some r =>
    obtain ⟨s, E⟩ := r
    simp only [e] at h
    rw [← Option.some.inj h]
    exact fitAxis_spec (OBB.axisFromEigen_orthonormal (Jacobi.eigenOld_orthonormal e) s) p0 ps

/-- **C86** for `fit(ps, n, bv)`, every `n`; degenerate pairs and triples excepted, for which the claim is false
(`C86_violated_fit`) or the code divides by zero. -/
theorem C86_fit_partial (prec : ℝ) (absorb : ℝ → ℝ → Bool) {ps : List (V3 ℝ)}
    (h2 : ∀ p1 p2, ps = [p1, p2] → p1 ≠ p2) (h3 : ∀ p1 p2 p3, ps = [p1, p2, p3] → (p1 - p2).cross (p2 - p3) ≠ 0)
    (h : fit prec (Jacobi.eigenOld absorb) ps = some b) : b.WF ∧ ∀ p ∈ ps, p ∈ b.pts := by
  rw [fit.eq_def] at h
  split at h
  · cases h
  · next p =>
    rw [← Option.some.inj h]
    exact ⟨(C86_fit1 p).1, fun q hq => by rw [List.mem_singleton.1 hq]; exact (C86_fit1 p).2⟩
  · next p1 p2 =>
    obtain ⟨k1, k2, k3⟩ := C86_fit2 (h2 p1 p2 rfl) h
    refine ⟨k1, fun q hq => ?_⟩
    simp only [List.mem_cons, List.not_mem_nil, or_false] at hq
    rcases hq with rfl | rfl
    · exact k2
    · exact k3
  · next p1 p2 p3 =>
    rw [← Option.some.inj h]
    exact C86_fit3 (h3 p1 p2 p3 rfl)
  · exact C86_fitn absorb h

/-- Four points whose covariance is diagonal are fitted. -/
example (prec : ℝ) (absorb : ℝ → ℝ → Bool) : ∃ b, fit prec (Jacobi.eigenOld absorb)
    [⟨2, 0, 0⟩, ⟨-2, 0, 0⟩, ⟨0, 1, 0⟩, ⟨0, -1, 0⟩] = some b := by
  have hc : OBB.covariance ([⟨2, 0, 0⟩, ⟨-2, 0, 0⟩, ⟨0, 1, 0⟩, ⟨0, -1, 0⟩] : List (V3 ℝ)) = ⟨⟨8, 0, 0⟩, ⟨0, 2, 0⟩, ⟨0, 0, 0⟩⟩ := by
    rw [OBB.covariance]
    simp only [List.map_cons, List.map_nil, List.foldl_cons, List.foldl_nil, List.length_cons, List.length_nil, M3.mk.injEq, V3.mk.injEq]
    norm_num
  simp only [fit, fitn, hc]
  rw [Jacobi.eigenOld_diag absorb ⟨8, 2, 0⟩]
  exact ⟨_, rfl⟩

/-- The volume fitted to three points of the line `y = 5` is a segment of the line `y = 0`. -/
theorem fit3_collinear : fit3 ⟨0, 5, 0⟩ ⟨1, 5, 0⟩ ⟨2, 5, 0⟩ =
    ⟨⟨⟨1, 0, 0⟩, ⟨0, 0, 0⟩, ⟨0, 0, 0⟩⟩, ⟨0, 0, 0⟩, 2, 0, 0⟩ := by
  have hx : OBB.axes3 ⟨0, 5, 0⟩ ⟨1, 5, 0⟩ ⟨2, 5, 0⟩ = ⟨⟨1, 0, 0⟩, ⟨0, 0, 0⟩, ⟨0, 0, 0⟩⟩ :=
    congrArg OBB.axis (OBB.fit3_collinear (le_refl 10))
  rw [fit3, hx]
  norm_num [fitAxis, M3.mulVec, M3.tr, M3.col, V3.get, V3.dot, rangeZ, range, extremes, reach, cornerStep]
  apply V3.ext' <;> norm_num

/-- **C86 is violated** for three different points on a line: two of the directions are zero vectors, and none of the
points is in the volume. -/
theorem C86_violated_fit (prec : ℝ) (eig : OBB.EigenFn ℝ) : ∃ p1 p2 p3 : V3 ℝ, p1 ≠ p2 ∧ p2 ≠ p3 ∧ p1 ≠ p3 ∧
    ∃ b, fit prec eig [p1, p2, p3] = some b ∧ p1 ∉ b.pts ∧ p2 ∉ b.pts ∧ p3 ∉ b.pts := by
  refine ⟨⟨0, 5, 0⟩, ⟨1, 5, 0⟩, ⟨2, 5, 0⟩, by simp, by simp, by simp, _, by rw [fit, fit3_collinear], ?_, ?_, ?_⟩ <;>
  · rintro ⟨_, ⟨x, y, -, -, -, -, rfl⟩, h⟩
    simp [M3.col, V3.get, dot] at h
    nlinarith [mul_self_nonneg x, mul_self_nonneg (1 - x), mul_self_nonneg (2 - x)]

/-! ### C86: merging -/

/-- **C86** for the sum of two volumes, if the directions of the sum are perpendicular. Missing: the third direction is
computed from the first two of the left operand (RSS-inl.h 371), so they need not be, and then the claim is false
(`C86_violated_add`). -/
theorem C86_add_partial {eig : OBB.EigenFn ℝ} (w1 : b1.WF) (w2 : b2.WF) (h : add eig b1 b2 = some b) (ho : b.axis.Orthonormal) :
    b.WF ∧ b1.pts ⊆ b.pts ∧ b2.pts ⊆ b.pts := by
  have key : b.WF ∧ ∀ p ∈ b2.corners ++ b1.corners, p ∈ b.pts := by
    rw [add] at h
    rcases hc : b2.corners ++ b1.corners with _ | ⟨p0, ps⟩
    · rw [hc] at h; cases h
    · rw [hc] at h
      dsimp only at h
      rcases he : eig (OBB.covariance (p0 :: ps)) with _ | ⟨s, E⟩
      · rw [he] at h; cases h
      · rw [he] at h
        dsimp only at h
        have hb := Option.some.inj h
        rw [← hb] at ho ⊢
        exact fitAxis_spec ho p0 ps
  exact ⟨key.1, pts_of_corners w1 (pts_convex key.1.r) fun p hp => key.2 p (List.mem_append_right _ hp),
    pts_of_corners w2 (pts_convex key.1.r) fun p hp => key.2 p (List.mem_append_left _ hp)⟩

/-- The sum of two points of the z axis: the first direction is the z axis, and so is the third. -/
theorem exAdd (absorb : ℝ → ℝ → Bool) : add (Jacobi.eigenOld absorb) ⟨M3.one, ⟨0, 0, 100⟩, 0, 0, 0⟩ ⟨M3.one, ⟨0, 0, 110⟩, 0, 0, 0⟩ =
    some ⟨⟨⟨0, 0, 0⟩, ⟨0, 1, 0⟩, ⟨1, 0, 1⟩⟩, ⟨0, 0, 205⟩, 10, 0, 5⟩ := by
  have hc1 : corners (⟨M3.one, ⟨0, 0, 100⟩, 0, 0, 0⟩ : RSS ℝ) = List.replicate 8 ⟨0, 0, 100⟩ := by
    simp only [corners, List.replicate, M3.col, M3.one, V3.get]
    norm_num
    apply V3.ext' <;> norm_num
  have hc2 : corners (⟨M3.one, ⟨0, 0, 110⟩, 0, 0, 0⟩ : RSS ℝ) = List.replicate 8 ⟨0, 0, 110⟩ := by
    simp only [corners, List.replicate, M3.col, M3.one, V3.get]
    norm_num
    apply V3.ext' <;> norm_num
  have hcov : OBB.covariance (List.replicate 8 ⟨0, 0, 110⟩ ++ List.replicate 8 (⟨0, 0, 100⟩ : V3 ℝ)) =
      ⟨⟨0, 0, 0⟩, ⟨0, 0, 0⟩, ⟨0, 0, 400⟩⟩ := by
    simp only [List.replicate, List.cons_append, List.nil_append]
    rw [OBB.covariance]
    simp only [List.map_cons, List.map_nil, List.foldl_cons, List.foldl_nil, List.length_cons, List.length_nil, M3.mk.injEq, V3.mk.injEq]
    norm_num
  have he := Jacobi.eigenOld_diag absorb ⟨0, 0, 400⟩
  simp only [List.replicate, List.cons_append, List.nil_append] at hcov
  rw [add, hc1, hc2]
  simp only [List.replicate, List.cons_append, List.nil_append]
  rw [hcov, he]
  have hm : OBB.midMax (⟨0, 0, 400⟩ : V3 ℝ) = (1, 2) := by norm_num [OBB.midMax, V3.get]
  simp only [hm]
  norm_num [fitAxis, M3.mulVec, M3.tr, M3.col, M3.one, V3.get, V3.dot, V3.cross, OBB.ofCols, rangeZ, range, extremes, reach, cornerStep]
  apply V3.ext' <;> norm_num

/-- **C86 is violated** by `operator +`: of two points, neither is in the sum, although the directions of the left
operand are perpendicular. -/
theorem C86_violated_add (absorb : ℝ → ℝ → Bool) : ∃ b1 b2 b : RSS ℝ, b1.WF ∧ b2.WF ∧ add (Jacobi.eigenOld absorb) b1 b2 = some b ∧
    ¬ b1.pts ⊆ b.pts ∧ ¬ b2.pts ⊆ b.pts := by
  have far : ∀ z : ℝ, z ≤ 110 → (⟨0, 0, z⟩ : V3 ℝ) ∉ (⟨⟨⟨0, 0, 0⟩, ⟨0, 1, 0⟩, ⟨1, 0, 1⟩⟩, ⟨0, 0, 205⟩, 10, 0, 5⟩ : RSS ℝ).pts := by
    rintro z hz ⟨_, ⟨x, y, h0, -, -, -, rfl⟩, h⟩
    simp [M3.col, V3.get, dot] at h
    nlinarith [mul_self_nonneg y]
  refine ⟨fit1 ⟨0, 0, 100⟩, fit1 ⟨0, 0, 110⟩, _, (C86_fit1 _).1, (C86_fit1 _).1, exAdd absorb, fun h => ?_, fun h => ?_⟩
  · exact far 100 (by norm_num) (h (C86_fit1 _).2)
  · exact far 110 (by norm_num) (h (C86_fit1 _).2)

/-- The hypotheses of `C86_add_partial` are met: the sum of two parallel segments. -/
example (absorb : ℝ → ℝ → Bool) : ∃ b, add (Jacobi.eigenOld absorb) ⟨M3.one, ⟨0, 0, 0⟩, 0, 1, 0⟩ ⟨M3.one, ⟨10, 0, 0⟩, 0, 1, 0⟩ = some b ∧
    b.axis.Orthonormal := by
  have hc : corners (⟨M3.one, ⟨10, 0, 0⟩, 0, 1, 0⟩ : RSS ℝ) ++ corners (⟨M3.one, ⟨0, 0, 0⟩, 0, 1, 0⟩ : RSS ℝ) =
      [⟨10, 1, 0⟩, ⟨10, 1, 0⟩, ⟨10, 0, 0⟩, ⟨10, 0, 0⟩, ⟨10, 1, 0⟩, ⟨10, 1, 0⟩, ⟨10, 0, 0⟩, ⟨10, 0, 0⟩,
        ⟨0, 1, 0⟩, ⟨0, 1, 0⟩, ⟨0, 0, 0⟩, ⟨0, 0, 0⟩, ⟨0, 1, 0⟩, ⟨0, 1, 0⟩, ⟨0, 0, 0⟩, ⟨0, 0, 0⟩] := by
    simp only [corners, M3.col, M3.one, V3.get, List.cons_append, List.nil_append]
    norm_num
    refine ⟨?_, ?_, ?_, ?_, ?_, ?_, ?_, ?_⟩ <;> apply V3.ext' <;> norm_num
  have hcov : OBB.covariance ([⟨10, 1, 0⟩, ⟨10, 1, 0⟩, ⟨10, 0, 0⟩, ⟨10, 0, 0⟩, ⟨10, 1, 0⟩, ⟨10, 1, 0⟩, ⟨10, 0, 0⟩, ⟨10, 0, 0⟩,
        ⟨0, 1, 0⟩, ⟨0, 1, 0⟩, ⟨0, 0, 0⟩, ⟨0, 0, 0⟩, ⟨0, 1, 0⟩, ⟨0, 1, 0⟩, ⟨0, 0, 0⟩, ⟨0, 0, 0⟩] : List (V3 ℝ)) =
      ⟨⟨400, 0, 0⟩, ⟨0, 4, 0⟩, ⟨0, 0, 0⟩⟩ := by
    rw [OBB.covariance]
    simp only [List.map_cons, List.map_nil, List.foldl_cons, List.foldl_nil, List.length_cons, List.length_nil, M3.mk.injEq, V3.mk.injEq]
    norm_num
  have he := Jacobi.eigenOld_diag absorb ⟨400, 4, 0⟩
  rw [add, hc]
  simp only [hcov, he]
  have hm : OBB.midMax (⟨400, 4, 0⟩ : V3 ℝ) = (1, 0) := by norm_num [OBB.midMax, V3.get]
  simp only [hm]
  refine ⟨_, rfl, ?_⟩
  rw [fitAxis]
  constructor <;> norm_num [OBB.ofCols, M3.mul, M3.tr, M3.col, M3.one, V3.dot, V3.get, V3.cross]

/-! ### C86: moving and recentring -/

/-- **C86**: `translate` moves every point of the volume. -/
theorem C86_translate (t p : V3 ℝ) : p + t ∈ (b.translate t).pts ↔ p ∈ b.pts := by
  constructor
  · rintro ⟨_, ⟨x, y, x0, x1, y0, y1, rfl⟩, h⟩
    refine ⟨_, ⟨x, y, x0, x1, y0, y1, rfl⟩, ?_⟩
    convert h using 2 <;> simp only [translate] <;> v3
  · rintro ⟨_, ⟨x, y, x0, x1, y0, y1, rfl⟩, h⟩
    refine ⟨_, ⟨x, y, x0, x1, y0, y1, rfl⟩, ?_⟩
    convert h using 2 <;> simp only [translate] <;> v3

/-- **C86**: `center` is the middle: the reflection at it maps the volume to itself. -/
theorem C86_center {p : V3 ℝ} (h : p ∈ b.pts) : (2 : ℝ) • b.center - p ∈ b.pts := by
  obtain ⟨_, ⟨x, y, x0, x1, y0, y1, rfl⟩, h⟩ := h
  refine ⟨_, ⟨b.l0 - x, b.l1 - y, by linarith, by linarith, by linarith, by linarith, rfl⟩, ?_⟩
  have e : (2 : ℝ) • b.center - p - (b.To + (b.l0 - x) • b.axis.col 0 + (b.l1 - y) • b.axis.col 1) =
      -(p - (b.To + x • b.axis.col 0 + y • b.axis.col 1)) := by
    rw [center, mulVec_cols]; v3
  have hn : ∀ u : V3 ℝ, (-u).dot (-u) = u.dot u := fun u => by simp [dot]
  rw [e, hn]
  exact h

/-- **C86**: `setToFromCenter` puts the centre where it is told and keeps the shape. -/
theorem C86_set_center (c : V3 ℝ) : (b.setToFromCenter c).center = c ∧ b.setToFromCenter c = b.translate (c - b.center) := by
  constructor
  · rw [center, setToFromCenter]; v3
  · rw [setToFromCenter, translate, center, RSS.mk.injEq]
    exact ⟨rfl, by v3, rfl, rfl, rfl⟩

end RSS
end Fcl
