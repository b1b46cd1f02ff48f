import Verif.Props.Epa

/-!
# C111: a regular tetrahedron and its mirror image

The contact which fcl's own solver reports for them has a negative depth.
-/

namespace Fcl
open V3 Epa
open Gjk (SV vertex Settings run shapeIntersect project keep weighted)

namespace Epa.Tetra

/-- The vertices of the tetrahedron. -/
def vs : List (V3 ℝ) := [⟨1, 1, 1⟩, ⟨1, -1, -1⟩, ⟨-1, 1, -1⟩, ⟨-1, -1, 1⟩]
/-- The vertices of its mirror image at the origin. -/
def ws : List (V3 ℝ) := [⟨-1, -1, -1⟩, ⟨-1, 1, 1⟩, ⟨1, -1, 1⟩, ⟨1, 1, -1⟩]

/-- The two shapes. -/
noncomputable def m : MinkowskiDiff := MinkowskiDiff.ofShapes (.convex vs) Pose.id (.convex ws) Pose.id
/-- Their support function. -/
noncomputable def sup (big : ℝ) (d : V3 ℝ) : V3 ℝ := (m.support big d).getD 0

/-- The length of the direction does not matter. -/
theorem scan_scale {k : ℝ} (hk : 0 < k) (d : V3 ℝ) (l : List (V3 ℝ)) (x : ℝ) (b : V3 ℝ) :
    Support.scanMax (k • d) l (k * x) b = Support.scanMax d l x b := by
  induction l generalizing x b with
  | nil => rfl
  | cons v l ih =>
    have e : (k • d).dot v = k * d.dot v := smul_dot _ _ _
    unfold Support.scanMax
    rw [e]
    by_cases h : d.dot v > x
    · rw [if_pos h, if_pos (mul_lt_mul_of_pos_left h hk), ih]
    · rw [if_neg h, if_neg (not_lt.2 (mul_le_mul_of_nonneg_left (not_lt.1 h) hk.le)), ih]

/-- The first vertex is taken in any case. -/
theorem scan_first {big : ℝ} (hbig : 100 ≤ big) {v : V3 ℝ} (h0 : v ≠ 0) (s : ℝ) (hs : s = 1 ∨ s = -1) (p : V3 ℝ) (hp : p.nrm ≤ 10)
    (l : List (V3 ℝ)) :
    Support.scanMax (s • v.normalized) (p :: l) (-big) 0 = Support.scanMax (s • v) l ((s • v).dot p) p := by
  have hn := nrm_pos h0
  have hk : 0 < 1 / v.nrm := by positivity
  have e0 : s • v.normalized = (1 / v.nrm) • (s • v) := by
    rw [normalized, if_neg hn.ne']
    apply V3.ext' <;> simp <;> ring
  have hlow : -big < (s • v.normalized).dot p := by
    have := dot_le (-(s • v.normalized)) p
    rw [neg_dot, nrm_neg, nrm_smul, nrm_normalized h0, mul_one] at this
    have hs' : |s| = 1 := by rcases hs with rfl | rfl <;> simp
    rw [hs', one_mul] at this
    linarith
  rw [Support.scanMax, if_pos hlow, e0, smul_dot]
  exact scan_scale hk _ _ _ _

/-- A support point of the difference. -/
theorem vertex_eq {big : ℝ} (hbig : 100 ≤ big) {v p q : V3 ℝ} (h0 : v ≠ 0)
    (hp : Support.scanMax v [⟨1, -1, -1⟩, ⟨-1, 1, -1⟩, ⟨-1, -1, 1⟩] (v.dot ⟨1, 1, 1⟩) ⟨1, 1, 1⟩ = p)
    (hq : Support.scanMax (-v) [⟨-1, 1, 1⟩, ⟨1, -1, 1⟩, ⟨1, 1, -1⟩] ((-v).dot ⟨-1, -1, -1⟩) ⟨-1, -1, -1⟩ = q) :
    (vertex (sup big) v).w = p - q := by
  have l1 : (⟨1, 1, 1⟩ : V3 ℝ).nrm ≤ 10 := by rw [nrm_le_iff (by norm_num)]; norm_num [dot]
  have l2 : (⟨-1, -1, -1⟩ : V3 ℝ).nrm ≤ 10 := by rw [nrm_le_iff (by norm_num)]; norm_num [dot]
  have o1 : ∀ x : V3 ℝ, (1 : ℝ) • x = x := fun x => by v3
  have o2 : ∀ x : V3 ℝ, (-1 : ℝ) • x = -x := fun x => by v3
  have e1 := scan_first hbig h0 1 (Or.inl rfl) _ l1 [⟨1, -1, -1⟩, ⟨-1, 1, -1⟩, ⟨-1, -1, 1⟩]
  have e2 := scan_first hbig h0 (-1) (Or.inr rfl) _ l2 [⟨-1, 1, 1⟩, ⟨1, -1, 1⟩, ⟨1, 1, -1⟩]
  rw [o1, o1, hp] at e1
  rw [o2, o2, hq] at e2
  have e3 : (((M3.one : M3 ℝ).tr.mul M3.one).mulVec (-v.normalized)) = -v.normalized := by
    rw [show ((M3.one : M3 ℝ).tr.mul M3.one) = M3.one from M3.orthonormal_one.cols, M3.one_mulVec]
  have e6 : (Pose.id.inv.mul Pose.id : Pose ℝ).apply q = q := by
    rw [Pose.mul_apply, Pose.id_apply]
    have := Pose.inv_apply (Pose.id_rigid (K := ℝ)) q
    rwa [Pose.id_apply] at this
  show ((m.support big v.normalized).getD 0) = p - q
  have e7 : m.support0 big v.normalized = some p := by
    show some (Support.scanMax v.normalized vs (-big) 0) = _
    rw [show Support.scanMax v.normalized vs (-big) 0 = p from e1]
  have e8 : m.support1 big (-v.normalized) = some q := by
    show (Support.getSupport big (.convex ws) (((M3.one : M3 ℝ).tr.mul M3.one).mulVec (-v.normalized))).map _ = _
    rw [e3]
    show some ((Pose.id.inv.mul Pose.id : Pose ℝ).apply (Support.scanMax (-v.normalized) ws (-big) 0)) = _
    rw [show Support.scanMax (-v.normalized) ws (-big) 0 = q from e2, e6]
  simp only [MinkowskiDiff.support, e7, e8, Option.bind_some, Option.map_some, Option.getD_some]

theorem line_ab : Proj.lineO ⟨2, 2, 2⟩ ⟨2, -2, -2⟩ = ⟨fun k => if k = 0 then 1 / 2 else if k = 1 then 1 / 2 else 0,
    4, fun k => k == 0 || k == 1⟩ := by
  norm_num [Proj.lineO, Proj.line, dot]

theorem sqrt_eq {x y : ℝ} (hx : 0 ≤ x) (h : y = x * x) : Real.sqrt y = x := by rw [h, Real.sqrt_mul_self hx]

theorem above_abc : Proj.triangleO ⟨2, 2, 2⟩ ⟨2, -2, -2⟩ ⟨-2, 2, -2⟩ = Proj.above ⟨2, 2, 2⟩ ⟨2, -2, -2⟩ ⟨-2, 2, -2⟩ 0 ⟨16, 16, -16⟩ := by
  norm_num [Proj.triangleO, Proj.triangle, Proj.edge, Proj.line, Proj.vert, Proj.nxt, Proj.none, dot, cross]

theorem tri_abc : (Proj.triangleO ⟨2, 2, 2⟩ ⟨2, -2, -2⟩ ⟨-2, 2, -2⟩).dist = 4 / 3 ∧
    (Proj.triangleO ⟨2, 2, 2⟩ ⟨2, -2, -2⟩ ⟨-2, 2, -2⟩).bit = (fun k => decide (k < 3)) ∧
    (Proj.triangleO ⟨2, 2, 2⟩ ⟨2, -2, -2⟩ ⟨-2, 2, -2⟩).par 0 = 1 / 3 ∧
    (Proj.triangleO ⟨2, 2, 2⟩ ⟨2, -2, -2⟩ ⟨-2, 2, -2⟩).par 1 = 1 / 3 ∧
    (Proj.triangleO ⟨2, 2, 2⟩ ⟨2, -2, -2⟩ ⟨-2, 2, -2⟩).par 2 = 1 / 3 := by
  have hs : 0 < Real.sqrt 768 := Real.sqrt_pos.2 (by norm_num)
  have hss : Real.sqrt 768 * Real.sqrt 768 = 768 := Real.mul_self_sqrt (by norm_num)
  have p0 : (Proj.above ⟨2, 2, 2⟩ ⟨2, -2, -2⟩ ⟨-2, 2, -2⟩ 0 ⟨16, 16, -16⟩).par 0 = 1 / 3 := by
    have e : (((⟨2, -2, -2⟩ : V3 ℝ) - ⟨-2, 2, -2⟩).cross (⟨2, -2, -2⟩ - 0 - ((((⟨2, 2, 2⟩ : V3 ℝ) - 0).dot ⟨16, 16, -16⟩ /
        (⟨16, 16, -16⟩ : V3 ℝ).dot ⟨16, 16, -16⟩) • ⟨16, 16, -16⟩))).nrm = Real.sqrt 768 / 3 := by
      apply nrm_unique (by positivity)
      rw [div_mul_div_comm, hss]
      norm_num [dot, cross]
    simp only [Proj.above, e, if_true]
    rw [show ((⟨16, 16, -16⟩ : V3 ℝ).dot ⟨16, 16, -16⟩) = 768 by norm_num [dot]]
    field_simp
  have p1 : (Proj.above ⟨2, 2, 2⟩ ⟨2, -2, -2⟩ ⟨-2, 2, -2⟩ 0 ⟨16, 16, -16⟩).par 1 = 1 / 3 := by
    have e : (((⟨-2, 2, -2⟩ : V3 ℝ) - ⟨2, 2, 2⟩).cross (⟨-2, 2, -2⟩ - 0 - ((((⟨2, 2, 2⟩ : V3 ℝ) - 0).dot ⟨16, 16, -16⟩ /
        (⟨16, 16, -16⟩ : V3 ℝ).dot ⟨16, 16, -16⟩) • ⟨16, 16, -16⟩))).nrm = Real.sqrt 768 / 3 := by
      apply nrm_unique (by positivity)
      rw [div_mul_div_comm, hss]
      norm_num [dot, cross]
    simp only [Proj.above, e, if_true, one_ne_zero, if_false]
    rw [show ((⟨16, 16, -16⟩ : V3 ℝ).dot ⟨16, 16, -16⟩) = 768 by norm_num [dot]]
    field_simp
  rw [above_abc]
  refine ⟨by norm_num [Proj.above, dot], rfl, p0, p1, ?_⟩
  have : (Proj.above ⟨2, 2, 2⟩ ⟨2, -2, -2⟩ ⟨-2, 2, -2⟩ 0 ⟨16, 16, -16⟩).par 2 =
    1 - (Proj.above ⟨2, 2, 2⟩ ⟨2, -2, -2⟩ ⟨-2, 2, -2⟩ 0 ⟨16, 16, -16⟩).par 0 -
      (Proj.above ⟨2, 2, 2⟩ ⟨2, -2, -2⟩ ⟨-2, 2, -2⟩ 0 ⟨16, 16, -16⟩).par 1 := rfl
  rw [this, p0, p1]; norm_num

theorem tetra_abcd : Proj.tetrahedronO ⟨2, 2, 2⟩ ⟨2, -2, -2⟩ ⟨-2, 2, -2⟩ ⟨-2, -2, 2⟩ =
    Proj.inside ⟨2, 2, 2⟩ ⟨2, -2, -2⟩ ⟨-2, 2, -2⟩ ⟨-2, -2, 2⟩ 0 128 := by
  norm_num [Proj.tetrahedronO, Proj.tetrahedron, Proj.face, Proj.vert, Proj.nxt, Proj.none, Proj.triple, dot, cross]

/-- The run of GJK: four support points around the origin. -/
theorem trace {big tol : ℝ} (hbig : 100 ≤ big) (h0 : 0 < tol) (ht : tol ≤ 1 / 100) (n : ℕ) :
    ∃ c0 c1 c2 c3 : SV, c0.w = ⟨2, 2, 2⟩ ∧ c1.w = ⟨2, -2, -2⟩ ∧ c2.w = ⟨-2, 2, -2⟩ ∧ c3.w = ⟨-2, -2, 2⟩ ∧
      (run ⟨big, tol, n + 4, ⟨1, 0, 0⟩⟩ m).status = .inside ∧
      (run ⟨big, tol, n + 4, ⟨1, 0, 0⟩⟩ m).simplex.map (·.1) = [c0, c1, c2, c3] := by
  have ht1 : tol < 1 := by linarith
  have hne : ∀ v : V3 ℝ, v.x ≠ 0 → v ≠ 0 := by rintro v h rfl; exact h rfl
  obtain ⟨c0, hc0⟩ : ∃ c, c = vertex (sup big) ⟨1, 0, 0⟩ := ⟨_, rfl⟩
  have w0 : c0.w = ⟨2, 2, 2⟩ := by
    rw [hc0, vertex_eq hbig (p := ⟨1, 1, 1⟩) (q := ⟨-1, -1, -1⟩) (hne _ (by norm_num)) (by norm_num [Support.scanMax, dot])
      (by norm_num [Support.scanMax, dot])]
    apply V3.ext' <;> norm_num
  have hs : Gjk.start (sup big) (-⟨1, 0, 0⟩) = ⟨[(c0, 1)], ⟨2, 2, 2⟩, fun _ => ⟨2, 2, 2⟩, 0, 0⟩ := by
    have e : (-(-⟨1, 0, 0⟩) : V3 ℝ) = ⟨1, 0, 0⟩ := by v3
    have g : (-⟨1, 0, 0⟩ : V3 ℝ).dot (-⟨1, 0, 0⟩) > 0 := by norm_num [dot]
    simp only [Gjk.start, if_pos g, e, ← hc0, w0]
  obtain ⟨c1, hc1⟩ : ∃ c, vertex (sup big) (-⟨2, 2, 2⟩) = c := ⟨_, rfl⟩
  have w1 : c1.w = ⟨2, -2, -2⟩ := by
    rw [← hc1, vertex_eq hbig (p := ⟨1, -1, -1⟩) (q := ⟨-1, 1, 1⟩) (hne _ (by norm_num)) (by norm_num [Support.scanMax, dot])
      (by norm_num [Support.scanMax, dot])]
    apply V3.ext' <;> norm_num
  obtain ⟨c2, hc2⟩ : ∃ c, vertex (sup big) (-⟨2, 0, 0⟩) = c := ⟨_, rfl⟩
  have w2 : c2.w = ⟨-2, 2, -2⟩ := by
    rw [← hc2, vertex_eq hbig (p := ⟨-1, 1, -1⟩) (q := ⟨1, -1, 1⟩) (hne _ (by norm_num)) (by norm_num [Support.scanMax, dot])
      (by norm_num [Support.scanMax, dot])]
    apply V3.ext' <;> norm_num
  obtain ⟨c3, hc3⟩ : ∃ c, vertex (sup big) (-⟨2 / 3, 2 / 3, -2 / 3⟩) = c := ⟨_, rfl⟩
  have w3 : c3.w = ⟨-2, -2, 2⟩ := by
    rw [← hc3, vertex_eq hbig (p := ⟨-1, -1, 1⟩) (q := ⟨1, 1, -1⟩) (hne _ (by norm_num)) (by norm_num [Support.scanMax, dot])
      (by norm_num [Support.scanMax, dot])]
    apply V3.ext' <;> norm_num
  have r0 := Gjk.Missed.round_go (sup := sup big) (s := ⟨[(c0, 1)], ⟨2, 2, 2⟩, fun _ => ⟨2, 2, 2⟩, 0, 0⟩) h0 ht1
    (Gjk.Missed.long ht (by norm_num [dot])) hc1 (by
      intro i _
      simp only [w1]
      exact Gjk.Missed.far ht (by norm_num [dot])) rfl (by simp only [w1]; norm_num [dot]) rfl
    (by simp only [List.cons_append, List.nil_append, List.map_cons, List.map_nil, w0, w1, project]; exact line_ab)
    (by norm_num) (by rfl)
  have k0 : keep ([(c0, 1)] ++ [(c1, 0)]) ⟨fun k => if k = 0 then 1 / 2 else if k = 1 then 1 / 2 else 0,
      4, fun k => k == 0 || k == 1⟩ = [(c0, 1 / 2), (c1, 1 / 2)] := by
    simp [keep, List.zipIdx]
  have y0 : weighted [(c0, 1 / 2), (c1, 1 / 2)] = ⟨2, 0, 0⟩ := by
    simp only [weighted, w0, w1]; apply V3.ext' <;> norm_num
  simp only [k0, y0, w1] at r0
  obtain ⟨d1, b1, p1, p1', p1''⟩ := tri_abc
  have r1 := Gjk.Missed.round_go (sup := sup big) (s := ⟨[(c0, 1 / 2), (c1, 1 / 2)], ⟨2, 0, 0⟩,
      fun i => if i = (0 + 1) % 4 then ⟨2, -2, -2⟩ else ⟨2, 2, 2⟩, (0 + 1) % 4, 0⟩) (l := [(c0, 1 / 2), (c1, 1 / 2), (c2, 0)])
    (r := Proj.triangleO ⟨2, 2, 2⟩ ⟨2, -2, -2⟩ ⟨-2, 2, -2⟩) h0 ht1
    (Gjk.Missed.long ht (by norm_num [dot])) hc2 (by
      intro i _
      simp only [w2]
      split_ifs <;> exact Gjk.Missed.far ht (by norm_num [dot])) rfl (by simp only [w2]; norm_num [dot]) rfl
    (by simp only [List.map_cons, List.map_nil, w0, w1, w2, project])
    (by rw [d1]; norm_num) (by rw [b1]; rfl)
  have k1 : keep [(c0, 1 / 2), (c1, 1 / 2), (c2, 0)] (Proj.triangleO ⟨2, 2, 2⟩ ⟨2, -2, -2⟩ ⟨-2, 2, -2⟩) =
      [(c0, 1 / 3), (c1, 1 / 3), (c2, 1 / 3)] := by
    simp [keep, List.zipIdx, b1, p1, p1', p1'']
  have y1 : weighted [(c0, 1 / 3), (c1, 1 / 3), (c2, 1 / 3)] = ⟨2 / 3, 2 / 3, -2 / 3⟩ := by
    simp only [weighted, w0, w1, w2]; apply V3.ext' <;> norm_num
  simp only [k1, y1, w2] at r1
  have hr : (run ⟨big, tol, n + 4, ⟨1, 0, 0⟩⟩ m) = Gjk.loop (sup big) tol (n + 3) (Gjk.start (sup big) (-⟨1, 0, 0⟩)) := rfl
  rw [hs, Gjk.Missed.loop_go r0, Gjk.Missed.loop_go r1] at hr
  generalize hst : (⟨[(c0, 1 / 3), (c1, 1 / 3), (c2, 1 / 3)], ⟨2 / 3, 2 / 3, -2 / 3⟩,
      fun i => if i = ((0 + 1) % 4 + 1) % 4 then ⟨-2, 2, -2⟩ else if i = (0 + 1) % 4 then ⟨2, -2, -2⟩ else ⟨2, 2, 2⟩,
      ((0 + 1) % 4 + 1) % 4, 0⟩ : Gjk.St) = st at hr
  have q1 : st.simplex = [(c0, 1 / 3), (c1, 1 / 3), (c2, 1 / 3)] := by rw [← hst]
  have q2 : st.ray = ⟨2 / 3, 2 / 3, -2 / 3⟩ := by rw [← hst]
  have q3 : st.alpha = 0 := by rw [← hst]
  have hlong : tol ≤ st.ray.nrm := by rw [q2]; exact Gjk.Missed.long ht (by norm_num [dot])
  have hpos : 0 < st.ray.nrm := lt_of_lt_of_le h0 hlong
  have t2 : ¬ ∃ i < 4, (c3.w - st.lastw i).dot (c3.w - st.lastw i) < tol := by
    rintro ⟨i, _, h⟩
    refine absurd h (not_lt.2 ?_)
    rw [← hst, w3]
    dsimp only
    split_ifs <;> exact Gjk.Missed.far ht (by norm_num [dot])
  have t3 : max st.alpha (st.ray.dot c3.w / st.ray.nrm) = 0 := by
    rw [q3]
    refine max_eq_left (div_nonpos_of_nonpos_of_nonneg ?_ hpos.le)
    rw [q2, w3]; norm_num [dot]
  have t4 : ¬ st.ray.nrm - 0 - tol * st.ray.nrm ≤ 0 := by nlinarith
  have hv : vertex (sup big) (-st.ray) = c3 := by rw [q2, hc3]
  have t5 : project ((st.simplex ++ [(c3, (0 : ℝ))]).map fun x => x.1.w) = Proj.inside ⟨2, 2, 2⟩ ⟨2, -2, -2⟩ ⟨-2, 2, -2⟩ ⟨-2, -2, 2⟩ 0 128 := by
    rw [q1]
    simp only [List.cons_append, List.nil_append, List.map_cons, List.map_nil, w0, w1, w2, w3, project]
    exact tetra_abcd
  obtain ⟨s', e', hs'⟩ : ∃ s', Gjk.round (sup big) tol st = .inr (s', true) ∧ s'.simplex.map (·.1) = [c0, c1, c2, c3] := by
    simp only [Gjk.round, if_neg (not_lt.2 hlong), hv, if_neg t2, t3, if_neg t4, t5]
    rw [if_pos (show (Proj.inside ⟨2, 2, 2⟩ ⟨2, -2, -2⟩ ⟨-2, 2, -2⟩ ⟨-2, -2, 2⟩ 0 128).dist ≥ 0 from le_refl (0 : ℝ))]
    refine ⟨_, rfl, ?_⟩
    simp [keep, q1, List.zipIdx, Proj.inside]
  refine ⟨c0, c1, c2, c3, w0, w1, w2, w3, ?_⟩
  have e2 : Gjk.loop (sup big) tol (n + 1) st = ⟨.inside, .enclosed, 0, s'.simplex, s'.ray⟩ := by
    rw [Gjk.loop, e']; rfl
  rw [hr, e2]
  exact ⟨rfl, hs'⟩

/-! ### The run of the expanding polytope algorithm -/

theorem nrm_768 {v : V3 ℝ} (h : v.dot v = 768) : v.nrm = Real.sqrt 768 :=
  nrm_unique (Real.sqrt_nonneg _) (by rw [Real.mul_self_sqrt (by norm_num), h])

theorem newFace_ok {L : Limits} {s : Epa.St} {a b c : SV} {k : ℕ} {rest : List ℕ} (hs : s.stock = k :: rest)
    (hl : L.tol < ((b.w - a.w).cross (c.w - a.w)).nrm) :
    ∃ s', newFace L s a b c true = (some k, s') ∧ s'.stock = rest ∧ s'.hull = k :: s.hull ∧ s'.nextsv = s.nextsv ∧
      (s'.faces k).d = faceDist a.w b.w c.w ∧
      (s'.faces k).n = (1 / ((b.w - a.w).cross (c.w - a.w)).nrm) • (b.w - a.w).cross (c.w - a.w) ∧
      ∀ j, j ≠ k → s'.faces j = s.faces j := by
  refine ⟨{ s.put k ⟨(1 / ((b.w - a.w).cross (c.w - a.w)).nrm) • (b.w - a.w).cross (c.w - a.w),
      faceDist a.w b.w c.w, tri a b c, (s.faces k).adj, 0⟩ with hull := k :: s.hull, stock := rest }, ?_, rfl, rfl, rfl, ?_, ?_, ?_⟩
  · simp [newFace, hs, hl]
  · simp [St.put]
  · simp [St.put]
  · intro j hj; simp [St.put, hj]

theorem normalized_smul {k : ℝ} (hk : 0 < k) (v : V3 ℝ) : (k • v).normalized = v.normalized := by
  by_cases h : v = 0
  · rw [h]; congr 1; v3
  · have hn := nrm_pos h
    rw [normalized, normalized, nrm_smul, abs_of_pos hk, if_neg (mul_pos hk hn).ne', if_neg hn.ne']
    apply V3.ext' <;> simp <;> field_simp

theorem epa {big : ℝ} (hbig : 100 ≤ big) {L : Limits} (h0 : 0 ≤ L.tol) (ht : L.tol ≤ 1) (hf : 4 ≤ L.maxFace) (hv : 0 < L.maxVertex)
    (hi : 0 < L.maxIter) (faces : ℕ → Face) {c0 c1 c2 c3 : SV} (w0 : c0.w = ⟨2, 2, 2⟩) (w1 : c1.w = ⟨2, -2, -2⟩)
    (w2 : c2.w = ⟨-2, 2, -2⟩) (w3 : c3.w = ⟨-2, -2, 2⟩) (guess : V3 ℝ) :
    ∃ o, Epa.evaluate (sup big) L (init faces L) [c0, c1, c2, c3] guess = some o ∧ o.st.status = .accuracyReached := by
  obtain ⟨mf, nv, ni, tol⟩ := L
  simp only at h0 ht hf hv hi
  obtain ⟨f, rfl⟩ : ∃ f, mf = f + 4 := ⟨mf - 4, by omega⟩
  obtain ⟨i, rfl⟩ : ∃ i, ni = i + 1 := ⟨ni - 1, by omega⟩
  have h768 : 1 < Real.sqrt 768 := by rw [Real.lt_sqrt] <;> norm_num
  have n0 : (c1.w - c0.w).cross (c2.w - c0.w) = ⟨16, 16, -16⟩ := by rw [w0, w1, w2]; apply V3.ext' <;> norm_num [cross]
  have n1 : (c0.w - c1.w).cross (c3.w - c1.w) = ⟨16, -16, 16⟩ := by rw [w0, w1, w3]; apply V3.ext' <;> norm_num [cross]
  have n2 : (c1.w - c2.w).cross (c3.w - c2.w) = ⟨-16, -16, -16⟩ := by rw [w1, w2, w3]; apply V3.ext' <;> norm_num [cross]
  have n3 : (c2.w - c0.w).cross (c3.w - c0.w) = ⟨-16, 16, 16⟩ := by rw [w0, w2, w3]; apply V3.ext' <;> norm_num [cross]
  have l0 := nrm_768 (v := ⟨16, 16, -16⟩) (by norm_num [dot])
  have l1 := nrm_768 (v := ⟨16, -16, 16⟩) (by norm_num [dot])
  have l2 := nrm_768 (v := ⟨-16, -16, -16⟩) (by norm_num [dot])
  have l3 := nrm_768 (v := ⟨-16, 16, 16⟩) (by norm_num [dot])
  have d0 : faceDist c0.w c1.w c2.w = 32 / Real.sqrt 768 := by
    simp only [faceDist, n0, l0]; rw [w0, w1, w2]; norm_num [edgeDist, dot, cross]
  have d1 : faceDist c1.w c0.w c3.w = 32 / Real.sqrt 768 := by
    simp only [faceDist, n1, l1]; rw [w0, w1, w3]; norm_num [edgeDist, dot, cross]
  have d2 : faceDist c2.w c1.w c3.w = 32 / Real.sqrt 768 := by
    simp only [faceDist, n2, l2]; rw [w1, w2, w3]; norm_num [edgeDist, dot, cross]
  have d3 : faceDist c0.w c2.w c3.w = 32 / Real.sqrt 768 := by
    simp only [faceDist, n3, l3]; rw [w0, w2, w3]; norm_num [edgeDist, dot, cross]
  have hstock : (clear (init faces ⟨f + 4, nv, i + 1, tol⟩)).stock = 0 :: 1 :: 2 :: 3 :: (List.range f).map (· + 4) := by
    show List.range (f + 4) = _
    rw [show f + 4 = 4 + f by omega, List.range_add]
    simp [List.range_succ, Nat.add_comm]
  have lt : tol < Real.sqrt 768 := by linarith
  have g : (c0.w - c3.w).dot ((c1.w - c3.w).cross (c2.w - c3.w)) = 128 := by
    rw [w0, w1, w2, w3]; norm_num [dot, cross]
  have en : enclose (sup big) [c0, c1, c2, c3] = some [c0, c1, c2, c3] := by
    simp only [enclose, enclose4, g]; norm_num
  have wv : (vertex (sup big) ((1 / Real.sqrt 768) • (⟨-16, 16, 16⟩ : V3 ℝ))).w = ⟨2, 2, 2⟩ := by
    have e : vertex (sup big) ((1 / Real.sqrt 768) • (⟨-16, 16, 16⟩ : V3 ℝ)) = vertex (sup big) ⟨-16, 16, 16⟩ := by
      unfold vertex; rw [normalized_smul (by positivity)]
    rw [e, vertex_eq hbig (p := ⟨1, 1, 1⟩) (q := ⟨-1, -1, -1⟩) (by intro c; have := congrArg V3.x c; norm_num at this)
      (by norm_num [Support.scanMax, dot]) (by norm_num [Support.scanMax, dot])]
    apply V3.ext' <;> norm_num
  simp only [Epa.evaluate, en, g]
  rw [if_neg (by norm_num)]
  have hh : (clear (init faces ⟨f + 4, nv, i + 1, tol⟩)).hull = [] := rfl
  have hz : (clear (init faces ⟨f + 4, nv, i + 1, tol⟩)).nextsv = 0 := rfl
  generalize clear (init faces ⟨f + 4, nv, i + 1, tol⟩) = s at hstock hh hz
  generalize hL : (⟨f + 4, nv, i + 1, tol⟩ : Limits) = L
  have tl : L.tol = tol := by rw [← hL]
  have vl : L.maxVertex = nv := by rw [← hL]
  have il : L.maxIter = i + 1 := by rw [← hL]
  obtain ⟨s0, e0, a0, b0, z0, x0, -, -⟩ := newFace_ok (L := L) (a := c0) (b := c1) (c := c2) hstock (by rw [n0, l0, tl]; exact lt)
  obtain ⟨s1, e1, a1, b1, z1, x1, -, o1⟩ := newFace_ok (L := L) (a := c1) (b := c0) (c := c3) a0 (by rw [n1, l1, tl]; exact lt)
  obtain ⟨s2, e2, a2, b2, z2, x2, -, o2⟩ := newFace_ok (L := L) (a := c2) (b := c1) (c := c3) a1 (by rw [n2, l2, tl]; exact lt)
  obtain ⟨s3, e3, a3, b3, z3, x3, y3, o3⟩ := newFace_ok (L := L) (a := c0) (b := c2) (c := c3) a2 (by rw [n3, l3, tl]; exact lt)
  rw [b2, b1, b0, hh] at b3
  have k0 : (s3.faces 0).d = 32 / Real.sqrt 768 := by
    rw [o3 0 (by norm_num), o2 0 (by norm_num), o1 0 (by norm_num), x0, d0]
  have k1 : (s3.faces 1).d = 32 / Real.sqrt 768 := by
    rw [o3 1 (by norm_num), o2 1 (by norm_num), x1, d1]
  have k2 : (s3.faces 2).d = 32 / Real.sqrt 768 := by
    rw [o3 2 (by norm_num), x2, d2]
  have k3 : (s3.faces 3).d = 32 / Real.sqrt 768 := by rw [x3, d3]
  have hb : findBest s3 = some 3 := by
    simp [findBest, b3, k0, k1, k2, k3]
  have hlen : s3.hull.length = 4 := by rw [b3]; rfl
  have y : (s3.faces 3).n = (1 / Real.sqrt 768) • (⟨-16, 16, 16⟩ : V3 ℝ) := by rw [y3, n3, l3]
  simp only [build, e0, e1, e2, e3, if_pos hlen, hb]
  generalize ht3 : ({ bindTetra s3 0 1 2 3 with status := .valid } : Epa.St) = t
  have t1 : (t.faces 3).d = 32 / Real.sqrt 768 := by
    rw [← ht3, ← k3]; simp only [bindTetra, bind_d]
  have t2 : (t.faces 3).n = (1 / Real.sqrt 768) • (⟨-16, 16, 16⟩ : V3 ℝ) := by
    rw [← ht3, ← y]; simp only [bindTetra, bind_n]
  have t3 : t.nextsv = 0 := by
    rw [← ht3, ← hz, ← z0, ← z1, ← z2, ← z3]; rfl
  have u1 : ((t.put 3 { t.faces 3 with pass := 0 + 1 }).faces 3).d =
      32 / Real.sqrt 768 := by simp [St.put, t1]
  have u2 : ((t.put 3 { t.faces 3 with pass := 0 + 1 }).faces 3).n =
      (1 / Real.sqrt 768) • (⟨-16, 16, 16⟩ : V3 ℝ) := by simp [St.put, t2]
  rw [il, Epa.loop]
  rw [if_pos (by rw [t3, vl]; exact hv)]
  simp only [u1, u2, wv]
  rw [if_neg]
  · exact ⟨_, rfl, rfl⟩
  · rw [tl]
    have : ((1 / Real.sqrt 768) • (⟨-16, 16, 16⟩ : V3 ℝ)).dot ⟨2, 2, 2⟩ - 32 / Real.sqrt 768 = 0 := by
      rw [smul_dot]; norm_num [dot]; ring
    rw [this]; exact not_lt.2 h0

/-- Half of a short vector is in the tetrahedron, and minus this half in its mirror image. -/
theorem half_mem {v : V3 ℝ} (h : v.nrm ≤ 1) : ((1 / 2 : ℝ) • v) ∈ (Geo.convex vs).pts ∧ (-((1 / 2 : ℝ) • v)) ∈ (Geo.convex ws).pts := by
  have hv : v.x * v.x + v.y * v.y + v.z * v.z ≤ 1 := by
    have := nrm_mul_self v
    have h0 := nrm_nonneg v
    simp only [dot] at this
    nlinarith
  have b : ∀ s t u : ℝ, s * s = 1 → t * t = 1 → u * u = 1 → -2 ≤ s * v.x + t * v.y + u * v.z := by
    intro s t u hs ht hu
    by_contra c
    push Not at c
    nlinarith [sq_nonneg (v.x + 2 / 3 * s), sq_nonneg (v.y + 2 / 3 * t), sq_nonneg (v.z + 2 / 3 * u)]
  have p0 := b 1 1 1 (by norm_num) (by norm_num) (by norm_num)
  have p1 := b 1 (-1) (-1) (by norm_num) (by norm_num) (by norm_num)
  have p2 := b (-1) 1 (-1) (by norm_num) (by norm_num) (by norm_num)
  have p3 := b (-1) (-1) 1 (by norm_num) (by norm_num) (by norm_num)
  have key : ∀ (g : Geo ℝ) (a b c d : V3 ℝ), a ∈ g.pts → b ∈ g.pts → c ∈ g.pts → d ∈ g.pts →
      (1 / 4 + (v.x + v.y + v.z) / 8) • a + ((1 / 4 + (v.x - v.y - v.z) / 8) • b + ((1 / 4 + (-v.x + v.y - v.z) / 8) • c +
        ((1 / 4 + (-v.x - v.y + v.z) / 8) • d + 0))) ∈ g.pts := by
    intro g a b c d ha hb hc hd
    refine Gjk.blend_mem (l := [(⟨a, 0⟩, 1 / 4 + (v.x + v.y + v.z) / 8), (⟨b, 0⟩, 1 / 4 + (v.x - v.y - v.z) / 8),
      (⟨c, 0⟩, 1 / 4 + (-v.x + v.y - v.z) / 8), (⟨d, 0⟩, 1 / 4 + (-v.x - v.y + v.z) / 8)]) (f := id) g.pts_convex ?_ ?_ ?_
    · intro x hx
      simp only [List.mem_cons, List.not_mem_nil, or_false] at hx
      rcases hx with rfl | rfl | rfl | rfl <;> assumption
    · intro x hx
      simp only [List.mem_cons, List.not_mem_nil, or_false] at hx
      rcases hx with rfl | rfl | rfl | rfl <;> dsimp only <;> linarith
    · simp only [List.map_cons, List.map_nil, List.sum_cons, List.sum_nil]; ring
  constructor
  · have := key (.convex vs) ⟨1, 1, 1⟩ ⟨1, -1, -1⟩ ⟨-1, 1, -1⟩ ⟨-1, -1, 1⟩ (.pt (by simp [vs])) (.pt (by simp [vs])) (.pt (by simp [vs]))
      (.pt (by simp [vs]))
    convert this using 1
    apply V3.ext' <;> simp <;> ring
  · have := key (.convex ws) ⟨-1, -1, -1⟩ ⟨-1, 1, 1⟩ ⟨1, -1, 1⟩ ⟨1, 1, -1⟩ (.pt (by simp [ws])) (.pt (by simp [ws])) (.pt (by simp [ws]))
      (.pt (by simp [ws]))
    convert this using 1
    apply V3.ext' <;> simp <;> ring

end Epa.Tetra

/-- **C111 is false of the depth.** A regular tetrahedron and its mirror image at its centre, both at the origin. Moved against each
other by any vector of length at most 1 they still have a common point. For the usual guess, all small tolerances and all
limits that leave room for a tetrahedron, fcl's own solver finds the collision and adds one contact; its depth is less than
-9/10, where a depth of at least 1 is right. -/
theorem C111_violated_depth {big tol : ℝ} (hbig : 100 ≤ big) (h0 : 0 < tol) (ht : tol ≤ 1 / 100) (n : ℕ) {L : Limits} (hL0 : 0 ≤ L.tol)
    (hL : L.tol < 1 / 10) (hf : 4 ≤ L.maxFace) (hv : 0 < L.maxVertex) (hi : 0 < L.maxIter) (faces : ℕ → Face) :
    let o : Settings := ⟨big, tol, n + 4, ⟨1, 0, 0⟩⟩
    let A : Geo ℝ := .convex [⟨1, 1, 1⟩, ⟨1, -1, -1⟩, ⟨-1, 1, -1⟩, ⟨-1, -1, 1⟩]
    let B : Geo ℝ := .convex [⟨-1, -1, -1⟩, ⟨-1, 1, 1⟩, ⟨1, -1, 1⟩, ⟨1, 1, -1⟩]
    (∀ v : V3 ℝ, v.nrm ≤ 1 → ∃ p ∈ A.pts, ∃ q ∈ B.pts, p = q + v) ∧
    ∃ c : CPoint, (shapeIntersect o (solverEpa o L faces) A Pose.id B Pose.id (some [])).1 = (true, some [c]) ∧
      c.normal.nrm = 1 ∧ c.depth < -(9 / 10) := by
  intro o A B
  have hu : ∀ l : List (V3 ℝ), l ≠ [] → (∀ v ∈ l, v.dot v ≤ 10) → (Geo.convex l).Usable big := by
    intro l hl hb
    refine ⟨trivial, trivial, fun d hd => ⟨hl, ?_⟩⟩
    intro v hv
    have hnp : v.nrm ≤ 10 := by
      rw [nrm_le_iff (by norm_num)]
      exact (hb v hv).trans (by norm_num)
    have := dot_le (-d) v
    rw [neg_dot, nrm_neg, hd, one_mul] at this
    linarith
  have uA : A.Usable big := hu _ (by simp) (by norm_num [dot])
  have uB : B.Usable big := hu _ (by simp) (by norm_num [dot])
  obtain ⟨c0, c1, c2, c3, w0, w1, w2, w3, hs, hl⟩ := Epa.Tetra.trace hbig h0 ht n
  obtain ⟨t, et, ha⟩ := Epa.Tetra.epa hbig hL0 (by linarith) hf hv hi faces w0 w1 w2 w3 (-o.guess)
  have eo : outOf o L faces A Pose.id B Pose.id = some t := by
    rw [← et, ← hl]; rfl
  have hr := (C111_answer (o := o) (faces := faces) (L := L) (g1 := A) (g2 := B) Pose.id_rigid Pose.id_rigid uA uB h0 hL0 (some [])).2 hs
  obtain ⟨c, ec, hn, -⟩ := C111_contact (o := o) (faces := faces) (L := L) (g1 := A) (g2 := B) Pose.id_rigid Pose.id_rigid uA uB h0 hL0 hr
  have hr' : (shapeIntersect o (solverEpa o L faces) A Pose.id B Pose.id (some [])).1 = (true, some ([] ++ [c])) :=
    Prod.ext hr ec
  have key : ∀ v : V3 ℝ, v.nrm ≤ 1 → ∃ p ∈ A.pts, ∃ q ∈ B.pts, p = q + v := by
    intro v hv
    obtain ⟨h1, h2⟩ := Epa.Tetra.half_mem hv
    refine ⟨_, h1, _, h2, ?_⟩
    apply V3.ext' <;> simp <;> ring
  refine ⟨key, c, hr', hn, ?_⟩
  have := C111_violated_sign (o := o) (faces := faces) (L := L) (g1 := A) (g2 := B) Pose.id_rigid Pose.id_rigid uA uB h0 hL0 hr' eo ha
    (δ := 1) (by
      intro u hu
      obtain ⟨p, hp, q, hq, e⟩ := key u hu.le
      refine ⟨p, ⟨p, hp, (Pose.id_apply _).symm⟩, q, ⟨q, hq, (Pose.id_apply _).symm⟩, ?_⟩
      rw [show p - q = u by rw [e]; apply V3.ext' <;> simp, ← nrm_mul_self, hu]; norm_num)
  linarith

end Fcl
