import Verif.Gjk.GjkLemmas
import Verif.Gjk.Solver

/-!
# C74, C75: distances and collisions found by GJK
-/

namespace Fcl
open V3 Gjk

namespace Gjk

/-- What the result of `evaluate` tells about a set and its support function. -/
structure Ended (sup : V3 ℝ → V3 ℝ) (M : Set (V3 ℝ)) (tol : ℝ) (r : Res) : Prop where
  made : ∀ v ∈ r.simplex, v.1.w = sup v.1.d ∧ v.1.d.nrm = 1
  wts : ∀ v ∈ r.simplex, 0 ≤ v.2
  total : (r.simplex.map (·.2)).sum = 1
  ray : r.ray = weighted r.simplex
  out : (r.status = .inside ∧ r.distance = 0 ∧ r.ray.nrm < tol) ∨
    (r.status = .valid ∧ r.distance = r.ray.nrm ∧ tol ≤ r.ray.nrm ∧ (∀ v ∈ r.simplex, r.ray.dot v.1.w = r.ray.dot r.ray) ∧
      (r.stop = .same ∨ (r.stop = .progress ∧ ∀ x ∈ M, (1 - tol) * r.ray.nrm ≤ x.nrm))) ∨
    (r.status = .failed ∧ r.stop = .iterations)

theorem loop_ended {sup : V3 ℝ → V3 ℝ} {M : Set (V3 ℝ)} (hsup : ∀ d, d.nrm = 1 → IsSupport M d (sup d)) {tol : ℝ} (ht : 0 < tol)
    (n : ℕ) (s : St) (h : Inv sup M s) : Ended sup M tol (loop sup tol n s) := by
  induction n generalizing s with
  | zero =>
    unfold loop
    cases hr : round sup tol s with
    | inl r =>
      obtain ⟨e1, e2, e3⟩ := (round_spec hsup ht h).1 r hr
      refine ⟨by simpa [e1] using h.made, by simpa [e1] using h.wts, by simpa [e1] using h.total, ?_, ?_⟩
      · simpa [e1, e2] using h.ray
      · rcases e3 with ⟨a, -, b, c⟩ | ⟨a, b, c, d⟩
        · exact Or.inl ⟨a, b, by simpa [e2] using c⟩
        · refine Or.inr (Or.inl ⟨a, by simpa [e2] using b, by simpa [e2] using c, ?_, ?_⟩)
          · simpa [e1, e2] using h.flat
          · simpa [e2] using d
    | inr x =>
      obtain ⟨s', enc⟩ := x
      obtain ⟨a, b, c, d, -⟩ := (round_spec hsup ht h).2 s' enc hr
      exact ⟨a, b, c, d, Or.inr (Or.inr ⟨rfl, rfl⟩)⟩
  | succ n ih =>
    unfold loop
    cases hr : round sup tol s with
    | inl r =>
      obtain ⟨e1, e2, e3⟩ := (round_spec hsup ht h).1 r hr
      refine ⟨by simpa [e1] using h.made, by simpa [e1] using h.wts, by simpa [e1] using h.total, ?_, ?_⟩
      · simpa [e1, e2] using h.ray
      · rcases e3 with ⟨a, -, b, c⟩ | ⟨a, b, c, d⟩
        · exact Or.inl ⟨a, b, by simpa [e2] using c⟩
        · refine Or.inr (Or.inl ⟨a, by simpa [e2] using b, by simpa [e2] using c, ?_, ?_⟩)
          · simpa [e1, e2] using h.flat
          · simpa [e2] using d
    | inr x =>
      obtain ⟨s', enc⟩ := x
      obtain ⟨a, b, c, d, -, f, g⟩ := (round_spec hsup ht h).2 s' enc hr
      cases enc with
      | true =>
        simp only [if_true]
        refine ⟨a, b, c, d, Or.inl ⟨rfl, rfl, ?_⟩⟩
        show s'.ray.nrm < tol
        rw [f rfl, nrm_zero]; exact ht
      | false => simpa using ih s' (g rfl)

theorem evaluate_ended {sup : V3 ℝ → V3 ℝ} {M : Set (V3 ℝ)} (hsup : ∀ d, d.nrm = 1 → IsSupport M d (sup d)) {tol : ℝ} (ht : 0 < tol)
    (n : ℕ) (guess : V3 ℝ) : Ended sup M tol (evaluate sup tol n guess) :=
  loop_ended hsup ht _ _ (start_inv guess)

/-- The differences of the points of two shapes, in the frame of the first one. -/
def Diff (g1 : Geo ℝ) (tf1 : Pose ℝ) (g2 : Geo ℝ) (tf2 : Pose ℝ) : Set (V3 ℝ) :=
  {x | ∃ a ∈ Placed tf1.R tf1.t g1.pts, ∃ b ∈ Placed tf2.R tf2.t g2.pts, tf1.R.mulVec x = a - b}

theorem diff_isConvex (g1 : Geo ℝ) (tf1 : Pose ℝ) (g2 : Geo ℝ) (tf2 : Pose ℝ) : ConvexSet (Diff g1 tf1 g2 tf2) :=
  diff_convex (placed_convex g1.pts_convex _ _) (placed_convex g2.pts_convex _ _) _

end Gjk

/-- What GJK needs of a shape: it is bounded, its sizes are sensible, and its support points are defined in all directions. -/
structure Geo.Usable (big : ℝ) (g : Geo ℝ) : Prop where
  bounded : g.Bounded
  wf : g.WF
  supp : ∀ d : V3 ℝ, d.nrm = 1 → g.Supported big d

namespace Gjk

variable {o : Settings} {g1 g2 : Geo ℝ} {tf1 tf2 : Pose ℝ}

theorem usable_turn (h1 : tf1.Rigid) (h2 : tf2.Rigid) {d : V3 ℝ} (hd : d.nrm = 1) :
    (tf2.R.tr.mulVec (tf1.R.mulVec (-d))).nrm = 1 := by
  rw [M3.Orthonormal.nrm h2.tr, M3.Orthonormal.nrm h1, nrm_neg, hd]

theorem diff_support (h1 : tf1.Rigid) (h2 : tf2.Rigid) (u1 : g1.Usable o.big) (u2 : g2.Usable o.big) (d : V3 ℝ) (hd : d.nrm = 1) :
    IsSupport (Diff g1 tf1 g2 tf2) d (((MinkowskiDiff.ofShapes g1 tf1 g2 tf2).support o.big d).getD 0) := by
  obtain ⟨p, e, hm, hx⟩ := C50_minkowski h1 h2 u1.bounded u1.wf (u1.supp d hd) u2.bounded u2.wf
    (u2.supp _ (usable_turn h1 h2 hd)) hd
  rw [e, Option.getD_some]
  refine ⟨hm, ?_⟩
  rintro q ⟨a, ha, b, hb, hq⟩
  have := hx a ha b hb
  rw [← hq, M3.Orthonormal.dot h1, M3.Orthonormal.dot h1] at this
  exact this

theorem run_ended (h1 : tf1.Rigid) (h2 : tf2.Rigid) (u1 : g1.Usable o.big) (u2 : g2.Usable o.big) (ht : 0 < o.tol) :
    Ended (fun d => ((MinkowskiDiff.ofShapes g1 tf1 g2 tf2).support o.big d).getD 0) (Diff g1 tf1 g2 tf2) o.tol
      (run o (MinkowskiDiff.ofShapes g1 tf1 g2 tf2)) :=
  evaluate_ended (diff_support h1 h2 u1 u2) ht _ _

/-- A weighted sum of points of a convex set. -/
theorem blend_mem {A : Set (V3 ℝ)} (hA : ConvexSet A) {f : V3 ℝ → V3 ℝ} {l : List (SV × ℝ)} (h : ∀ v ∈ l, f v.1.d ∈ A)
    (hp : ∀ v ∈ l, 0 ≤ v.2) (ht : (l.map (·.2)).sum = 1) : blend f l ∈ A := by
  obtain ⟨x, hx, e⟩ := weighted_mem hA (fun v => f v.d) l h hp 1 ht one_pos
  have : blend f l = (1 : ℝ) • x := e
  rw [this, show (1 : ℝ) • x = x by v3]; exact hx

theorem blend_sub (f g : V3 ℝ → V3 ℝ) (l : List (SV × ℝ)) (h : ∀ v ∈ l, v.1.w = f v.1.d - g v.1.d) :
    blend f l - blend g l = weighted l := by
  induction l with
  | nil => show (0 : V3 ℝ) - 0 = 0; v3
  | cons v l ih =>
    have ih' := ih (fun w hw => h w (List.mem_cons_of_mem _ hw))
    show v.2 • f v.1.d + blend f l - (v.2 • g v.1.d + blend g l) = v.2 • v.1.w + weighted l
    rw [← ih', h v List.mem_cons_self]
    v3

/-- The support points of the two shapes, in the frame of the first one. -/
theorem support_parts (h1 : tf1.Rigid) (h2 : tf2.Rigid) (u1 : g1.Usable o.big) (u2 : g2.Usable o.big) {d : V3 ℝ} (hd : d.nrm = 1) :
    ((MinkowskiDiff.ofShapes g1 tf1 g2 tf2).support o.big d).getD 0 =
      ((MinkowskiDiff.ofShapes g1 tf1 g2 tf2).support0 o.big d).getD 0 -
      ((MinkowskiDiff.ofShapes g1 tf1 g2 tf2).support1 o.big (-d)).getD 0 ∧
    ((MinkowskiDiff.ofShapes g1 tf1 g2 tf2).support0 o.big d).getD 0 ∈ g1.pts ∧
    ((MinkowskiDiff.ofShapes g1 tf1 g2 tf2).support1 o.big (-d)).getD 0 ∈
      Placed (tf1.inv.mul tf2).R (tf1.inv.mul tf2).t g2.pts := by
  have hn : ((tf2.R.tr.mul tf1.R).mulVec (-d)).nrm = 1 := by
    rw [M3.mul_mulVec]; exact usable_turn h1 h2 hd
  obtain ⟨p, ep, mp, -⟩ := C50_support u1.bounded u1.wf (u1.supp d hd) hd
  obtain ⟨q, eq, mq, -⟩ := C50_support u2.bounded u2.wf (u2.supp _ hn) hn
  have e0 : (MinkowskiDiff.ofShapes g1 tf1 g2 tf2).support0 o.big d = some p := ep
  have e1 : (MinkowskiDiff.ofShapes g1 tf1 g2 tf2).support1 o.big (-d) = some ((tf1.inv.mul tf2).apply q) := by
    show (Support.getSupport o.big g2 ((tf2.R.tr.mul tf1.R).mulVec (-d))).map _ = _
    rw [eq]; rfl
  refine ⟨?_, ?_, ?_⟩
  · simp only [MinkowskiDiff.support, e0, e1, Option.bind_some, Option.map_some, Option.getD_some]
  · rw [e0]; exact mp
  · rw [e1]; exact ⟨q, mq, rfl⟩

theorem diff_touch (h1 : tf1.Rigid) {x : V3 ℝ} (h : x ∈ Diff g1 tf1 g2 tf2) :
    ∃ a ∈ Placed tf1.R tf1.t g1.pts, ∃ b ∈ Placed tf2.R tf2.t g2.pts, a.dist b = x.nrm := by
  obtain ⟨a, ha, b, hb, e⟩ := h
  exact ⟨a, ha, b, hb, by rw [V3.dist_eq, ← e, M3.Orthonormal.nrm h1]⟩

theorem touch_diff (h1 : tf1.Rigid) {a b : V3 ℝ} (ha : a ∈ Placed tf1.R tf1.t g1.pts) (hb : b ∈ Placed tf2.R tf2.t g2.pts) :
    ∃ x ∈ Diff g1 tf1 g2 tf2, x.nrm = a.dist b := by
  refine ⟨tf1.R.tr.mulVec (a - b), ⟨a, ha, b, hb, by rw [M3.Orthonormal.mul_tr h1]⟩, ?_⟩
  rw [M3.Orthonormal.nrm h1.tr, V3.dist_eq]

/-- The points and the distance of a valid result, with the points in the frame of the first shape. -/
theorem distance_points (h1 : tf1.Rigid) (h2 : tf2.Rigid) (u1 : g1.Usable o.big) (u2 : g2.Usable o.big) (ht : 0 < o.tol)
    (place : V3 ℝ → V3 ℝ) (hr : (distanceOf o (MinkowskiDiff.ofShapes g1 tf1 g2 tf2) place).1.ret = true) :
    ∃ p q : V3 ℝ, (distanceOf o (MinkowskiDiff.ofShapes g1 tf1 g2 tf2) place).1.pts = some (place p, place q) ∧
      tf1.apply p ∈ Placed tf1.R tf1.t g1.pts ∧ tf1.apply q ∈ Placed tf2.R tf2.t g2.pts ∧
      (tf1.apply p).dist (tf1.apply q) = (distanceOf o (MinkowskiDiff.ofShapes g1 tf1 g2 tf2) place).1.dist ∧
      (distanceOf o (MinkowskiDiff.ofShapes g1 tf1 g2 tf2) place).1.dist = (run o (MinkowskiDiff.ofShapes g1 tf1 g2 tf2)).ray.nrm ∧
      (run o (MinkowskiDiff.ofShapes g1 tf1 g2 tf2)).status = .valid := by
  have E := run_ended h1 h2 u1 u2 ht
  by_cases hv : (run o (MinkowskiDiff.ofShapes g1 tf1 g2 tf2)).status = .valid
  · simp only [distanceOf, if_pos hv]
    refine ⟨_, _, rfl, ?_, ?_, ?_, ?_, hv⟩
    · refine ⟨_, ?_, rfl⟩
      exact blend_mem g1.pts_convex (fun v hv' => (support_parts h1 h2 u1 u2 (E.made v hv').2).2.1) E.wts E.total
    · have k := blend_mem (placed_convex g2.pts_convex (tf1.inv.mul tf2).R (tf1.inv.mul tf2).t)
        (f := fun d => ((MinkowskiDiff.ofShapes g1 tf1 g2 tf2).support1 o.big (-d)).getD 0)
        (fun v hv' => (support_parts h1 h2 u1 u2 (E.made v hv').2).2.2) E.wts E.total
      obtain ⟨q, hq, e⟩ := k
      refine ⟨q, hq, ?_⟩
      have e2 : tf1.apply ((tf1.inv.mul tf2).apply q) = tf2.apply q := by
        rw [Pose.mul_apply, Pose.apply_inv h1]
      rw [e]; exact e2
    · rw [Pose.dist_apply h1, V3.dist_eq]
    · rw [blend_sub _ _ _ (fun v hv' => ?_), ← E.ray]
      rw [(E.made v hv').1]
      exact (support_parts h1 h2 u1 u2 (E.made v hv').2).1
  · simp only [distanceOf, if_neg hv] at hr
    cases hr

end Gjk

variable {o : Settings} {g1 g2 : Geo ℝ} {tf1 tf2 : Pose ℝ}

/-- **C74.** When the distance query of two shapes says they are apart, it gives a point of each of them, and the distance of
these points, which is at least the tolerance: it never reports less than the distance of the shapes. -/
theorem C74_distance (h1 : tf1.Rigid) (h2 : tf2.Rigid) (u1 : g1.Usable o.big) (u2 : g2.Usable o.big) (ht : 0 < o.tol)
    (hr : (shapeDistance o g1 tf1 g2 tf2).1.ret = true) :
    ∃ p ∈ Placed tf1.R tf1.t g1.pts, ∃ q ∈ Placed tf2.R tf2.t g2.pts,
      (shapeDistance o g1 tf1 g2 tf2).1.pts = some (p, q) ∧ (shapeDistance o g1 tf1 g2 tf2).1.dist = p.dist q ∧
      o.tol ≤ p.dist q := by
  obtain ⟨p, q, e1, hp, hq, e2, e3, e4⟩ := distance_points h1 h2 u1 u2 ht tf1.apply hr
  refine ⟨_, hp, _, hq, e1, e2.symm, ?_⟩
  rw [e2, e3]
  rcases (run_ended h1 h2 u1 u2 ht).out with h | h | h
  · rw [h.1] at e4; cases e4
  · exact h.2.2.1
  · rw [h.1] at e4; cases e4

/-- **C74.** When the query says the shapes are not apart, it gives the distance -1 and no points; then the shapes are closer
than the tolerance, or the limit of the iterations was reached. -/
theorem C74_contact (h1 : tf1.Rigid) (h2 : tf2.Rigid) (u1 : g1.Usable o.big) (u2 : g2.Usable o.big) (ht : 0 < o.tol)
    (hr : (shapeDistance o g1 tf1 g2 tf2).1.ret = false) :
    (shapeDistance o g1 tf1 g2 tf2).1.dist = -1 ∧ (shapeDistance o g1 tf1 g2 tf2).1.pts = none ∧
    ((∃ p ∈ Placed tf1.R tf1.t g1.pts, ∃ q ∈ Placed tf2.R tf2.t g2.pts, p.dist q < o.tol) ∨
      (run o (MinkowskiDiff.ofShapes g1 tf1 g2 tf2)).stop = .iterations) := by
  have E := run_ended h1 h2 u1 u2 ht
  by_cases hv : (run o (MinkowskiDiff.ofShapes g1 tf1 g2 tf2)).status = .valid
  · simp only [shapeDistance, distanceOf, if_pos hv] at hr
    cases hr
  · simp only [shapeDistance, distanceOf, if_neg hv]
    refine ⟨trivial, trivial, ?_⟩
    rcases E.out with h | h | h
    · left
      obtain ⟨x, hx, e⟩ := weighted_mem (diff_isConvex g1 tf1 g2 tf2) SV.w _
        (fun v hv' => by rw [(E.made v hv').1]; exact (diff_support h1 h2 u1 u2 _ (E.made v hv').2).1) E.wts 1 E.total one_pos
      have e' : (run o (MinkowskiDiff.ofShapes g1 tf1 g2 tf2)).ray = x := by
        rw [E.ray, weighted_foldr, e]; v3
      obtain ⟨a, ha, b, hb, e2⟩ := diff_touch h1 hx
      exact ⟨a, ha, b, hb, by rw [e2, ← e']; exact h.2.2⟩
    · exact absurd h.1 hv
    · exact Or.inr h.2

/-- **C74.** When the intersection query reports a collision, there is a point of each shape with a distance less than the
tolerance, whatever the expanding polytope algorithm does. -/
theorem C74_intersect {epa : MinkowskiDiff → Res → Option (V3 ℝ × V3 ℝ × ℝ)} {contacts : Option (List CPoint)} (h1 : tf1.Rigid)
    (h2 : tf2.Rigid) (u1 : g1.Usable o.big) (u2 : g2.Usable o.big) (ht : 0 < o.tol)
    (hr : (shapeIntersect o epa g1 tf1 g2 tf2 contacts).1.1 = true) :
    ∃ p ∈ Placed tf1.R tf1.t g1.pts, ∃ q ∈ Placed tf2.R tf2.t g2.pts, p.dist q < o.tol := by
  have hs : (run o (MinkowskiDiff.ofShapes g1 tf1 g2 tf2)).status = .inside := by
    by_contra hs
    simp only [shapeIntersect, contactOf, if_neg hs] at hr
    cases hr
  have hr' : (shapeDistance o g1 tf1 g2 tf2).1.ret = false := by
    have hv : ¬ (run o (MinkowskiDiff.ofShapes g1 tf1 g2 tf2)).status = .valid := by rw [hs]; intro h; cases h
    simp only [shapeDistance, distanceOf, if_neg hv]
  rcases (C74_contact h1 h2 u1 u2 ht hr').2.2 with h | h
  · exact h
  · rcases (run_ended h1 h2 u1 u2 ht).out with k | k | k
    · obtain ⟨x, hx, e⟩ := weighted_mem (diff_isConvex g1 tf1 g2 tf2) SV.w _
        (fun v hv' => by
          rw [((run_ended h1 h2 u1 u2 ht).made v hv').1]
          exact (diff_support h1 h2 u1 u2 _ ((run_ended h1 h2 u1 u2 ht).made v hv').2).1)
        (run_ended h1 h2 u1 u2 ht).wts 1 (run_ended h1 h2 u1 u2 ht).total one_pos
      have e' : (run o (MinkowskiDiff.ofShapes g1 tf1 g2 tf2)).ray = x := by
        rw [(run_ended h1 h2 u1 u2 ht).ray, weighted_foldr, e]; v3
      obtain ⟨a, ha, b, hb, e2⟩ := diff_touch h1 hx
      exact ⟨a, ha, b, hb, by rw [e2, ← e']; exact k.2.2⟩
    · rw [k.1] at hs; cases hs
    · rw [k.1] at hs; cases hs

/-- **C75, in part.** When the search ends since the last support point brings no progress, the reported distance is that of
the shapes up to the relative tolerance. The other end of the search, at a support point seen before, is missing: there the
claim is false, see `C75_violated`. -/
theorem C75_progress_partial (h1 : tf1.Rigid) (h2 : tf2.Rigid) (u1 : g1.Usable o.big) (u2 : g2.Usable o.big) (ht : 0 < o.tol)
    (hr : (shapeDistance o g1 tf1 g2 tf2).1.ret = true) (hs : (run o (MinkowskiDiff.ofShapes g1 tf1 g2 tf2)).stop = .progress)
    {p q : V3 ℝ} (hp : p ∈ Placed tf1.R tf1.t g1.pts) (hq : q ∈ Placed tf2.R tf2.t g2.pts) :
    (1 - o.tol) * (shapeDistance o g1 tf1 g2 tf2).1.dist ≤ p.dist q := by
  obtain ⟨_, _, -, -, -, -, e3, e4⟩ := distance_points h1 h2 u1 u2 ht tf1.apply hr
  obtain ⟨x, hx, e⟩ := touch_diff h1 hp hq
  rw [show (shapeDistance o g1 tf1 g2 tf2).1.dist = _ from e3, ← e]
  rcases (run_ended h1 h2 u1 u2 ht).out with h | h | h
  · rw [h.1] at e4; cases e4
  · rcases h.2.2.2.2 with k | k
    · rw [k] at hs; cases hs
    · exact k.2 x hx
  · rw [h.1] at e4; cases e4

/-- **C75, in part.** When the support point towards the origin, at which the search ends, is no further than `e` from a vertex of
the simplex of the result, the reported distance is too large by at most `e`. -/
theorem C75_same_partial (h1 : tf1.Rigid) (h2 : tf2.Rigid) (u1 : g1.Usable o.big) (u2 : g2.Usable o.big) (ht : 0 < o.tol)
    (hr : (shapeDistance o g1 tf1 g2 tf2).1.ret = true) {v : SV × ℝ} {w : V3 ℝ} {e : ℝ}
    (hv : v ∈ (run o (MinkowskiDiff.ofShapes g1 tf1 g2 tf2)).simplex)
    (hw : gjkSupport o.big (MinkowskiDiff.ofShapes g1 tf1 g2 tf2) (-(run o (MinkowskiDiff.ofShapes g1 tf1 g2 tf2)).ray) = some w)
    (he : w.dist v.1.w ≤ e)
    {p q : V3 ℝ} (hp : p ∈ Placed tf1.R tf1.t g1.pts) (hq : q ∈ Placed tf2.R tf2.t g2.pts) :
    (shapeDistance o g1 tf1 g2 tf2).1.dist - e ≤ p.dist q := by
  obtain ⟨_, _, -, -, -, -, e3, e4⟩ := distance_points h1 h2 u1 u2 ht tf1.apply hr
  obtain ⟨x, hx, ex⟩ := touch_diff h1 hp hq
  rw [show (shapeDistance o g1 tf1 g2 tf2).1.dist = _ from e3, ← ex]
  rcases (run_ended h1 h2 u1 u2 ht).out with h | h | h
  · rw [h.1] at e4; cases e4
  · set r := run o (MinkowskiDiff.ofShapes g1 tf1 g2 tf2) with hrdef
    have hpos : 0 < r.ray.nrm := lt_of_lt_of_le ht h.2.2.1
    obtain ⟨l1, l2⟩ := lower (diff_support h1 h2 u1 u2) hpos hx
    have ew : (vertex (fun d => ((MinkowskiDiff.ofShapes g1 tf1 g2 tf2).support o.big d).getD 0) (-r.ray)).w = w := by
      show ((MinkowskiDiff.ofShapes g1 tf1 g2 tf2).support o.big (-r.ray).normalized).getD 0 = w
      rw [show (MinkowskiDiff.ofShapes g1 tf1 g2 tf2).support o.big (-r.ray).normalized = some w from hw]; rfl
    rw [ew] at l1
    have k := h.2.2.2.1 v hv
    have d1 := dot_le r.ray (v.1.w - w)
    have d2 : (v.1.w - w).nrm ≤ e := by
      rw [V3.dist_eq] at he
      rw [← nrm_neg, show -(v.1.w - w) = w - v.1.w by v3]; exact he
    have d3 := mul_le_mul_of_nonneg_left d2 hpos.le
    have d4 : r.ray.dot (v.1.w - w) = r.ray.dot v.1.w - r.ray.dot w := by simp only [dot, sub_x, sub_y, sub_z]; ring
    have d5 := nrm_mul_self r.ray
    rw [div_le_iff₀ hpos] at l2
    have d6 : (r.ray.nrm - e) * r.ray.nrm ≤ x.nrm * r.ray.nrm := by linarith
    exact le_of_mul_le_mul_right d6 hpos
  · rw [h.1] at e4; cases e4

/-! ### A collision that is missed -/

namespace Gjk.Missed

/-- The vertices of the convex. -/
def vs : List (V3 ℝ) := [⟨-2, 2, -2⟩, ⟨4, -1, 2⟩, ⟨3, 3, -3⟩, ⟨-4, 4, -3⟩]

theorem scan_eq {big : ℝ} {d p : V3 ℝ} (hp : p ∈ vs) (hb : -big < d.dot p) (h : ∀ v ∈ vs, v ≠ p → d.dot v < d.dot p) :
    Support.scanMax d vs (-big) 0 = p := by
  rcases Support.scanMax_spec d vs (-big) 0 with ⟨h1, -⟩ | ⟨h1, -, h3⟩
  · exact absurd (h1 p hp) (not_le.2 hb)
  · by_contra hne
    exact absurd (h3 p hp) (not_le.2 (h _ h1 hne))

/-- The two shapes. -/
noncomputable def m : MinkowskiDiff := MinkowskiDiff.ofShapes (.convex vs) Pose.id (.box ⟨2, 2, 2⟩) Pose.id
/-- Their support function. -/
noncomputable def sup (big : ℝ) (d : V3 ℝ) : V3 ℝ := (m.support big d).getD 0

theorem box_eq (d : V3 ℝ) : Support.box ⟨2, 2, 2⟩ d = ⟨if d.x > 0 then 1 else -1, if d.y > 0 then 1 else -1, if d.z > 0 then 1 else -1⟩ := by
  simp only [Support.box]
  norm_num

/-- A support point of the difference: the best vertex minus the corner of the box. -/
theorem vertex_eq {big : ℝ} (hbig : 100 ≤ big) {v p b : V3 ℝ} (h0 : v ≠ 0) (hp : p ∈ vs)
    (h : ∀ u ∈ vs, u ≠ p → v.dot u < v.dot p)
    (hb : (⟨if -v.x > 0 then 1 else -1, if -v.y > 0 then 1 else -1, if -v.z > 0 then 1 else -1⟩ : V3 ℝ) = b) :
    (vertex (sup big) v).w = p - b := by
  have hn := nrm_pos h0
  have hk : 0 < 1 / v.nrm := by positivity
  have e0 : v.normalized = (1 / v.nrm) • v := by rw [normalized, if_neg hn.ne']
  generalize hkk : 1 / v.nrm = k at hk e0
  have e1 : ∀ u, v.normalized.dot u = k * v.dot u := fun u => by rw [e0, smul_dot]
  have hnp : p.nrm ≤ 10 := by
    rw [nrm_le_iff (by norm_num)]
    simp only [vs, List.mem_cons, List.not_mem_nil, or_false] at hp
    rcases hp with rfl | rfl | rfl | rfl <;> norm_num [dot]
  have hlow : -big < v.normalized.dot p := by
    have := dot_le (-v.normalized) p
    rw [neg_dot, nrm_neg, nrm_normalized h0, one_mul] at this
    linarith
  have e2 : Support.scanMax v.normalized vs (-big) 0 = p := by
    refine scan_eq hp hlow fun u hu hne => ?_
    rw [e1, e1]
    exact mul_lt_mul_of_pos_left (h u hu hne) hk
  have e3 : (((M3.one : M3 ℝ).tr.mul M3.one).mulVec (-v.normalized)) = -v.normalized := by
    rw [show ((M3.one : M3 ℝ).tr.mul M3.one) = M3.one from M3.orthonormal_one.cols, M3.one_mulVec]
  have e4 : ∀ x : ℝ, (-(k * x) > 0) = (-x > 0) := by
    intro x
    apply propext
    rw [gt_iff_lt, gt_iff_lt, ← mul_neg]
    exact mul_pos_iff_of_pos_left hk
  have e5 : Support.box ⟨2, 2, 2⟩ (-v.normalized) = b := by
    rw [box_eq, ← hb, e0]
    simp only [neg_x, neg_y, neg_z, smul_x, smul_y, smul_z, e4]
  have e6 : (Pose.id.inv.mul Pose.id : Pose ℝ).apply b = b := by
    rw [Pose.mul_apply, Pose.id_apply]
    have := Pose.inv_apply (Pose.id_rigid (K := ℝ)) b
    rwa [Pose.id_apply] at this
  show ((m.support big v.normalized).getD 0) = p - b
  have e7 : m.support0 big v.normalized = some p := by
    show some (Support.scanMax v.normalized vs (-big) 0) = _
    rw [e2]
  have e8 : m.support1 big (-v.normalized) = some b := by
    show (Support.getSupport big (.box ⟨2, 2, 2⟩) (((M3.one : M3 ℝ).tr.mul M3.one).mulVec (-v.normalized))).map _ = _
    rw [e3]
    show some ((Pose.id.inv.mul Pose.id : Pose ℝ).apply (Support.box ⟨2, 2, 2⟩ (-v.normalized))) = _
    rw [e5, e6]
  simp only [MinkowskiDiff.support, e7, e8, Option.bind_some, Option.map_some, Option.getD_some]

theorem line_pq : Proj.lineO ⟨5, 0, 3⟩ ⟨-5, 5, -4⟩ = ⟨fun k => if k = 0 then 103 / 174 else if k = 1 then 71 / 174 else 0,
    875 / 174, fun k => k == 0 || k == 1⟩ := by
  norm_num [Proj.lineO, Proj.line, dot]

theorem tri_pqr : (Proj.triangleO ⟨5, 0, 3⟩ ⟨-5, 5, -4⟩ ⟨3, -2, 1⟩).dist = 83 / 138 ∧
    (Proj.triangleO ⟨5, 0, 3⟩ ⟨-5, 5, -4⟩ ⟨3, -2, 1⟩).bit = (fun k => k == 1 || k == 2) ∧
    (Proj.triangleO ⟨5, 0, 3⟩ ⟨-5, 5, -4⟩ ⟨3, -2, 1⟩).par 1 = 43 / 138 ∧
    (Proj.triangleO ⟨5, 0, 3⟩ ⟨-5, 5, -4⟩ ⟨3, -2, 1⟩).par 2 = 95 / 138 := by
  norm_num [Proj.triangleO, Proj.triangle, Proj.edge, Proj.line, Proj.vert, Proj.nxt, Proj.none, dot, cross]

theorem tri_qrs : (Proj.triangleO ⟨-5, 5, -4⟩ ⟨3, -2, 1⟩ ⟨-5, 3, -2⟩).dist = 3 / 98 ∧
    (Proj.triangleO ⟨-5, 5, -4⟩ ⟨3, -2, 1⟩ ⟨-5, 3, -2⟩).bit = (fun k => k == 1 || k == 2) ∧
    (Proj.triangleO ⟨-5, 5, -4⟩ ⟨3, -2, 1⟩ ⟨-5, 3, -2⟩).par 1 = 61 / 98 ∧
    (Proj.triangleO ⟨-5, 5, -4⟩ ⟨3, -2, 1⟩ ⟨-5, 3, -2⟩).par 2 = 37 / 98 := by
  norm_num [Proj.triangleO, Proj.triangle, Proj.edge, Proj.line, Proj.vert, Proj.nxt, Proj.none, dot, cross]

/-- A round that goes on. -/
theorem round_go {sup : V3 ℝ → V3 ℝ} {tol : ℝ} {s : St} {c : SV} {l : List (SV × ℝ)} {r : Proj} (h0 : 0 < tol) (h01 : tol < 1)
    (h1 : tol ≤ s.ray.nrm) (hc : vertex sup (-s.ray) = c)
    (h2 : ∀ i < 4, tol ≤ (c.w - s.lastw i).dot (c.w - s.lastw i)) (h3 : s.alpha = 0) (h4 : s.ray.dot c.w ≤ 0)
    (hl : s.simplex ++ [(c, 0)] = l) (hr : project (l.map (·.1.w)) = r) (h6 : 0 ≤ r.dist)
    (h7 : (r.bit 0 && r.bit 1 && r.bit 2 && r.bit 3) = false) :
    round sup tol s = .inr (⟨keep l r, weighted (keep l r), fun i => if i = (s.clastw + 1) % 4 then c.w else s.lastw i,
      (s.clastw + 1) % 4, 0⟩, false) := by
  have hpos : 0 < s.ray.nrm := lt_of_lt_of_le h0 h1
  have k2 : ¬ ∃ i < 4, (c.w - s.lastw i).dot (c.w - s.lastw i) < tol := by
    rintro ⟨i, hi, h⟩; exact absurd h (not_lt.2 (h2 i hi))
  have k3 : max s.alpha (s.ray.dot c.w / s.ray.nrm) = 0 := by
    rw [h3]; exact max_eq_left (div_nonpos_of_nonpos_of_nonneg h4 hpos.le)
  have k4 : ¬ s.ray.nrm - 0 - tol * s.ray.nrm ≤ 0 := by nlinarith
  simp only [round, if_neg (not_lt.2 h1), hc, if_neg k2, k3, if_neg k4, hl, hr]
  rw [if_pos h6, h7]

theorem loop_go {sup : V3 ℝ → V3 ℝ} {tol : ℝ} {s s' : St} {n : ℕ} (h : round sup tol s = .inr (s', false)) :
    loop sup tol (n + 1) s = loop sup tol n s' := by
  rw [loop, h]; rfl

theorem loop_end {sup : V3 ℝ → V3 ℝ} {tol : ℝ} {s : St} {r : Res} {n : ℕ} (h : round sup tol s = .inl r) :
    loop sup tol n s = r := by
  unfold loop; rw [h]

theorem far {tol : ℝ} (ht : tol ≤ 1 / 100) {v : V3 ℝ} (h : 1 / 100 ≤ v.dot v) : tol ≤ v.dot v := ht.trans h

theorem long {tol : ℝ} (ht : tol ≤ 1 / 100) {v : V3 ℝ} (h : 1 / 100 ≤ v.dot v) : tol ≤ v.nrm := by
  have h1 := nrm_mul_self v
  have h2 := nrm_nonneg v
  nlinarith

/-- The run: four support points, then the first one again. -/
theorem trace {big tol : ℝ} (hbig : 100 ≤ big) (h0 : 0 < tol) (ht : tol ≤ 1 / 100) (n : ℕ) :
    ∃ l, evaluate (sup big) tol (n + 4) (-⟨1, 0, 0⟩) = ⟨.valid, .same, (⟨-1 / 49, -11 / 98, -13 / 98⟩ : V3 ℝ).nrm, l, ⟨-1 / 49, -11 / 98, -13 / 98⟩⟩ := by
  have ht1 : tol < 1 := by linarith
  have hne : ∀ v : V3 ℝ, v.x ≠ 0 → v ≠ 0 := by rintro v h rfl; exact h rfl
  obtain ⟨c0, hc0⟩ : ∃ c, c = vertex (sup big) ⟨1, 0, 0⟩ := ⟨_, rfl⟩
  have w0 : c0.w = ⟨5, 0, 3⟩ := by
    rw [hc0, vertex_eq hbig (p := ⟨4, -1, 2⟩) (b := ⟨-1, -1, -1⟩) (hne _ (by norm_num)) (by simp [vs]) (by norm_num [vs, dot])
      (by norm_num)]
    apply V3.ext' <;> norm_num
  have hs : start (sup big) (-⟨1, 0, 0⟩) = ⟨[(c0, 1)], ⟨5, 0, 3⟩, fun _ => ⟨5, 0, 3⟩, 0, 0⟩ := by
    have e : (-(-⟨1, 0, 0⟩) : V3 ℝ) = ⟨1, 0, 0⟩ := by v3
    have g : (-⟨1, 0, 0⟩ : V3 ℝ).dot (-⟨1, 0, 0⟩) > 0 := by norm_num [dot]
    simp only [start, if_pos g, e, ← hc0, w0]
  obtain ⟨c1, hc1⟩ : ∃ c, vertex (sup big) (-⟨5, 0, 3⟩) = c := ⟨_, rfl⟩
  have w1 : c1.w = ⟨-5, 5, -4⟩ := by
    rw [← hc1, vertex_eq hbig (p := ⟨-4, 4, -3⟩) (b := ⟨1, -1, 1⟩) (hne _ (by norm_num)) (by simp [vs]) (by norm_num [vs, dot])
      (by norm_num)]
    apply V3.ext' <;> norm_num
  obtain ⟨c2, hc2⟩ : ∃ c, vertex (sup big) (-⟨80 / 87, 355 / 174, 25 / 174⟩) = c := ⟨_, rfl⟩
  have w2 : c2.w = ⟨3, -2, 1⟩ := by
    rw [← hc2, vertex_eq hbig (p := ⟨4, -1, 2⟩) (b := ⟨1, 1, 1⟩) (hne _ (by norm_num)) (by simp [vs]) (by norm_num [vs, dot])
      (by norm_num)]
    apply V3.ext' <;> norm_num
  obtain ⟨c3, hc3⟩ : ∃ c, vertex (sup big) (-⟨35 / 69, 25 / 138, -77 / 138⟩) = c := ⟨_, rfl⟩
  have w3 : c3.w = ⟨-5, 3, -2⟩ := by
    rw [← hc3, vertex_eq hbig (p := ⟨-4, 4, -3⟩) (b := ⟨1, 1, -1⟩) (hne _ (by norm_num)) (by simp [vs]) (by norm_num [vs, dot])
      (by norm_num)]
    apply V3.ext' <;> norm_num
  obtain ⟨c4, hc4⟩ : ∃ c, vertex (sup big) (-⟨-1 / 49, -11 / 98, -13 / 98⟩) = c := ⟨_, rfl⟩
  have w4 : c4.w = ⟨5, 0, 3⟩ := by
    rw [← hc4, vertex_eq hbig (p := ⟨4, -1, 2⟩) (b := ⟨-1, -1, -1⟩) (hne _ (by norm_num)) (by simp [vs]) (by norm_num [vs, dot])
      (by norm_num)]
    apply V3.ext' <;> norm_num
  have r0 := round_go (sup := sup big) (s := ⟨[(c0, 1)], ⟨5, 0, 3⟩, fun _ => ⟨5, 0, 3⟩, 0, 0⟩) h0 ht1
    (long ht (by norm_num [dot])) hc1 (by
      intro i _
      simp only [w1]
      exact far ht (by norm_num [dot])) rfl (by simp only [w1]; norm_num [dot]) rfl
    (by simp only [List.cons_append, List.nil_append, List.map_cons, List.map_nil, w0, w1, project]; exact line_pq)
    (by norm_num) (by rfl)
  have k0 : keep ([(c0, 1)] ++ [(c1, 0)]) ⟨fun k => if k = 0 then 103 / 174 else if k = 1 then 71 / 174 else 0,
      875 / 174, fun k => k == 0 || k == 1⟩ = [(c0, 103 / 174), (c1, 71 / 174)] := by
    simp [keep, List.zipIdx]
  have y0 : weighted [(c0, 103 / 174), (c1, 71 / 174)] = ⟨80 / 87, 355 / 174, 25 / 174⟩ := by
    simp only [weighted, w0, w1]; apply V3.ext' <;> norm_num
  simp only [k0, y0, w1] at r0
  obtain ⟨d1, b1, p1, p1'⟩ := tri_pqr
  have r1 := round_go (sup := sup big) (s := ⟨[(c0, 103 / 174), (c1, 71 / 174)], ⟨80 / 87, 355 / 174, 25 / 174⟩,
      fun i => if i = (0 + 1) % 4 then ⟨-5, 5, -4⟩ else ⟨5, 0, 3⟩, (0 + 1) % 4, 0⟩) (l := [(c0, 103 / 174), (c1, 71 / 174), (c2, 0)])
    (r := Proj.triangleO ⟨5, 0, 3⟩ ⟨-5, 5, -4⟩ ⟨3, -2, 1⟩) h0 ht1
    (long ht (by norm_num [dot])) hc2 (by
      intro i _
      simp only [w2]
      split_ifs <;> exact far ht (by norm_num [dot])) rfl (by simp only [w2]; norm_num [dot]) rfl
    (by simp only [List.map_cons, List.map_nil, w0, w1, w2, project])
    (by rw [d1]; norm_num) (by rw [b1]; rfl)
  have k1 : keep [(c0, 103 / 174), (c1, 71 / 174), (c2, 0)] (Proj.triangleO ⟨5, 0, 3⟩ ⟨-5, 5, -4⟩ ⟨3, -2, 1⟩) =
      [(c1, 43 / 138), (c2, 95 / 138)] := by
    simp [keep, List.zipIdx, b1, p1, p1']
  have y1 : weighted [(c1, 43 / 138), (c2, 95 / 138)] = ⟨35 / 69, 25 / 138, -77 / 138⟩ := by
    simp only [weighted, w1, w2]; apply V3.ext' <;> norm_num
  simp only [k1, y1, w2] at r1
  obtain ⟨d2, b2, p2, p2'⟩ := tri_qrs
  have r2 := round_go (sup := sup big) (s := ⟨[(c1, 43 / 138), (c2, 95 / 138)], ⟨35 / 69, 25 / 138, -77 / 138⟩,
      fun i => if i = ((0 + 1) % 4 + 1) % 4 then ⟨3, -2, 1⟩ else if i = (0 + 1) % 4 then ⟨-5, 5, -4⟩ else ⟨5, 0, 3⟩,
      ((0 + 1) % 4 + 1) % 4, 0⟩) (l := [(c1, 43 / 138), (c2, 95 / 138), (c3, 0)])
    (r := Proj.triangleO ⟨-5, 5, -4⟩ ⟨3, -2, 1⟩ ⟨-5, 3, -2⟩) h0 ht1
    (long ht (by norm_num [dot])) hc3 (by
      intro i _
      simp only [w3]
      split_ifs <;> exact far ht (by norm_num [dot])) rfl (by simp only [w3]; norm_num [dot]) rfl
    (by simp only [List.map_cons, List.map_nil, w1, w2, w3, project])
    (by rw [d2]; norm_num) (by rw [b2]; rfl)
  have k2 : keep [(c1, 43 / 138), (c2, 95 / 138), (c3, 0)] (Proj.triangleO ⟨-5, 5, -4⟩ ⟨3, -2, 1⟩ ⟨-5, 3, -2⟩) =
      [(c2, 61 / 98), (c3, 37 / 98)] := by
    simp [keep, List.zipIdx, b2, p2, p2']
  have y2 : weighted [(c2, 61 / 98), (c3, 37 / 98)] = ⟨-1 / 49, -11 / 98, -13 / 98⟩ := by
    simp only [weighted, w2, w3]; apply V3.ext' <;> norm_num
  simp only [k2, y2, w3] at r2
  refine ⟨[(c2, 61 / 98), (c3, 37 / 98)], ?_⟩
  show loop (sup big) tol (n + 3) (start (sup big) (-⟨1, 0, 0⟩)) = _
  rw [hs, loop_go r0, loop_go r1, loop_go r2]
  apply loop_end
  have hlong : ¬ (⟨-1 / 49, -11 / 98, -13 / 98⟩ : V3 ℝ).nrm < tol := not_lt.2 (long ht (by norm_num [dot]))
  simp only [round, if_neg hlong, hc4, w4]
  rw [if_pos]
  refine ⟨0, by norm_num, ?_⟩
  norm_num [dot]
  exact h0

end Gjk.Missed

open Gjk.Missed in
/-- **C75 is false in general.** For every tolerance up to 1/100 and the guess (1, 0, 0), a tetrahedron and a box of side 2 at the
same pose have a common point. The distance query says they are `√(3/98)` apart and the intersection query that they do not
collide. The search ends since it meets a support point it has dropped before. -/
theorem C75_violated {big tol : ℝ} (hbig : 100 ≤ big) (h0 : 0 < tol) (ht : tol ≤ 1 / 100) (n : ℕ)
    (epa : MinkowskiDiff → Res → Option (V3 ℝ × V3 ℝ × ℝ)) (contacts : Option (List CPoint)) :
    let o : Settings := ⟨big, tol, n + 4, ⟨1, 0, 0⟩⟩
    let A : Geo ℝ := .convex [⟨-2, 2, -2⟩, ⟨4, -1, 2⟩, ⟨3, 3, -3⟩, ⟨-4, 4, -3⟩]
    let B : Geo ℝ := .box ⟨2, 2, 2⟩
    A.Usable big ∧ B.Usable big ∧ Touch (Placed Pose.id.R Pose.id.t A.pts) (Placed Pose.id.R Pose.id.t B.pts) ∧
    (shapeDistance o A Pose.id B Pose.id).1.ret = true ∧
    (shapeDistance o A Pose.id B Pose.id).1.dist * (shapeDistance o A Pose.id B Pose.id).1.dist = 3 / 98 ∧
    (shapeIntersect o epa A Pose.id B Pose.id contacts).1.1 = false := by
  intro o A B
  have uA : A.Usable big := by
    refine ⟨trivial, trivial, fun d hd => ⟨by simp, ?_⟩⟩
    intro v hv
    have hnp : v.nrm ≤ 10 := by
      rw [nrm_le_iff (by norm_num)]
      simp only [List.mem_cons, List.not_mem_nil, or_false] at hv
      rcases hv with rfl | rfl | rfl | rfl <;> norm_num [dot]
    have := dot_le (-d) v
    rw [neg_dot, nrm_neg, hd, one_mul] at this
    linarith
  have uB : B.Usable big := ⟨trivial, by norm_num [B, Geo.WF], fun _ _ => trivial⟩
  obtain ⟨l, hl⟩ := trace hbig h0 ht n
  have hrun : run o (MinkowskiDiff.ofShapes A Pose.id B Pose.id) = _ := hl
  have hv : (run o (MinkowskiDiff.ofShapes A Pose.id B Pose.id)).status = .valid := by rw [hrun]
  have hr : (shapeDistance o A Pose.id B Pose.id).1.ret = true := by
    simp only [shapeDistance, distanceOf, if_pos hv]
  refine ⟨uA, uB, ?_, hr, ?_, ?_⟩
  · refine ⟨⟨2 / 5, 4 / 5, -2 / 5⟩, ⟨⟨2 / 5, 4 / 5, -2 / 5⟩, ?_, (Pose.id_apply _).symm⟩,
      ⟨⟨2 / 5, 4 / 5, -2 / 5⟩, ?_, (Pose.id_apply _).symm⟩⟩
    · have := HullOf.seg (l := [(⟨-2, 2, -2⟩ : V3 ℝ), ⟨4, -1, 2⟩, ⟨3, 3, -3⟩, ⟨-4, 4, -3⟩]) (2 / 5) (by norm_num) (by norm_num)
        (.pt (by simp : (⟨-2, 2, -2⟩ : V3 ℝ) ∈ _)) (.pt (by simp : (⟨4, -1, 2⟩ : V3 ℝ) ∈ _))
      show HullOf _ _
      convert this using 1
      apply V3.ext' <;> norm_num
    · refine ⟨⟨?_, ?_⟩, ⟨?_, ?_⟩, ?_, ?_⟩ <;> norm_num
  · obtain ⟨_, _, -, -, -, -, e, -⟩ := distance_points (o := o) Pose.id_rigid Pose.id_rigid uA uB h0 Pose.id.apply hr
    rw [show (shapeDistance o A Pose.id B Pose.id).1.dist = _ from e, hrun, nrm_mul_self]
    norm_num [dot]
  · have hi : ¬ (run o (MinkowskiDiff.ofShapes A Pose.id B Pose.id)).status = .inside := by
      rw [hv]; intro h; cases h
    simp only [shapeIntersect, contactOf, if_neg hi]


/-! ### Moving both shapes -/

theorem ofShapes_moved {X : Pose ℝ} (hX : X.Rigid) (g1 g2 : Geo ℝ) (tf1 tf2 : Pose ℝ) :
    MinkowskiDiff.ofShapes g1 (X.mul tf1) g2 (X.mul tf2) = MinkowskiDiff.ofShapes g1 tf1 g2 tf2 := by
  have hc : X.R.tr.mul X.R = M3.one := M3.Orthonormal.cols hX
  have key : ∀ A B : M3 ℝ, (X.R.mul A).tr.mul (X.R.mul B) = A.tr.mul B := by
    intro A B
    have e : (X.R.mul A).tr.mul (X.R.mul B) = A.tr.mul ((X.R.tr.mul X.R).mul B) := by
      simp only [M3.mul, M3.tr, M3.col, V3.get, dot]
      congr 1 <;> congr 1 <;> ring
    rw [e, hc]
    simp only [M3.mul, M3.tr, M3.col, M3.one, V3.get, dot]
    congr 1 <;> congr 1 <;> ring
  have tm : ∀ (A B : M3 ℝ) (v : V3 ℝ), (A.mul B).tr.mulVec v = B.tr.mulVec (A.tr.mulVec v) := by
    intro A B v
    apply V3.ext' <;> simp [M3.mul, M3.tr, M3.col, V3.get, M3.mulVec, dot] <;> ring
  have e1 : (X.mul tf2).R.tr.mul (X.mul tf1).R = tf2.R.tr.mul tf1.R := key _ _
  have e2 : (X.mul tf1).inv.mul (X.mul tf2) = tf1.inv.mul tf2 := by
    have eR : (X.mul tf1).R.tr.mul (X.mul tf2).R = tf1.R.tr.mul tf2.R := key _ _
    have et : (X.mul tf1).R.tr.mulVec (X.mul tf2).t + -((X.mul tf1).R.tr.mulVec (X.mul tf1).t) =
        tf1.R.tr.mulVec tf2.t + -(tf1.R.tr.mulVec tf1.t) := by
      have a1 : ∀ v : V3 ℝ, (X.mul tf1).R.tr.mulVec (X.R.mulVec v + X.t) = tf1.R.tr.mulVec v + tf1.R.tr.mulVec (X.R.tr.mulVec X.t) := by
        intro v
        show (X.R.mul tf1.R).tr.mulVec _ = _
        rw [tm, M3.mulVec_add, M3.mulVec_add, M3.Orthonormal.tr_mul hX]
      rw [show (X.mul tf2).t = X.R.mulVec tf2.t + X.t from rfl, show (X.mul tf1).t = X.R.mulVec tf1.t + X.t from rfl, a1, a1]
      v3
    show (⟨_, _⟩ : Pose ℝ) = ⟨_, _⟩
    exact congrArg₂ Pose.mk eR et
  show (⟨g1, g2, _, _⟩ : MinkowskiDiff) = ⟨g1, g2, _, _⟩
  rw [e1, e2]

/-- **C76.** Moving both shapes by the same rigid motion moves the points of the distance query with them and changes nothing
else. -/
theorem C76_distance {X : Pose ℝ} (hX : X.Rigid) (o : Settings) (g1 g2 : Geo ℝ) (tf1 tf2 : Pose ℝ) :
    (shapeDistance o g1 (X.mul tf1) g2 (X.mul tf2)).1.ret = (shapeDistance o g1 tf1 g2 tf2).1.ret ∧
    (shapeDistance o g1 (X.mul tf1) g2 (X.mul tf2)).1.dist = (shapeDistance o g1 tf1 g2 tf2).1.dist ∧
    (shapeDistance o g1 (X.mul tf1) g2 (X.mul tf2)).1.pts =
      (shapeDistance o g1 tf1 g2 tf2).1.pts.map (fun x => (X.apply x.1, X.apply x.2)) ∧
    (shapeDistance o g1 (X.mul tf1) g2 (X.mul tf2)).2 = (shapeDistance o g1 tf1 g2 tf2).2 := by
  simp only [shapeDistance, distanceOf, ofShapes_moved hX]
  split_ifs
  · exact ⟨rfl, rfl, by simp only [Option.map_some, Pose.mul_apply], rfl⟩
  · exact ⟨rfl, rfl, rfl, rfl⟩

/-- The contact moved by `X`. -/
noncomputable def CPoint.moved (X : Pose ℝ) (c : CPoint) : CPoint := ⟨X.R.mulVec c.normal, X.apply c.pos, c.depth⟩

/-- **C76, in part.** Moving both shapes by the same rigid motion changes neither the answer of the intersection query nor the
depth, and moves the contact. The normal should turn as well, but stays as it is: see `C76_violated_normal`. -/
theorem C76_intersect_partial {X : Pose ℝ} (hX : X.Rigid) (o : Settings) (epa : MinkowskiDiff → Res → Option (V3 ℝ × V3 ℝ × ℝ))
    (g1 g2 : Geo ℝ) (tf1 tf2 : Pose ℝ) :
    (shapeIntersect o epa g1 (X.mul tf1) g2 (X.mul tf2) (some [])).1.1 = (shapeIntersect o epa g1 tf1 g2 tf2 (some [])).1.1 ∧
    (∀ c, (shapeIntersect o epa g1 tf1 g2 tf2 (some [])).1.2 = some [c] →
      ∃ c', (shapeIntersect o epa g1 (X.mul tf1) g2 (X.mul tf2) (some [])).1.2 = some [c'] ∧ c'.pos = X.apply c.pos ∧
        c'.depth = c.depth ∧ c'.normal = c.normal) ∧
    (shapeIntersect o epa g1 (X.mul tf1) g2 (X.mul tf2) (some [])).2 = (shapeIntersect o epa g1 tf1 g2 tf2 (some [])).2 := by
  simp only [shapeIntersect, ofShapes_moved hX]
  rcases h : contactOf o epa (MinkowskiDiff.ofShapes g1 tf1 g2 tf2) with ⟨_ | ⟨w0, n, depth⟩, g⟩
  · exact ⟨rfl, fun c hc => by simp at hc, rfl⟩
  · refine ⟨rfl, fun c hc => ?_, rfl⟩
    simp only [Option.map_some, List.nil_append, Option.some.injEq, List.cons.injEq, and_true] at hc
    subst hc
    exact ⟨_, rfl, Pose.mul_apply _ _ _, rfl, rfl⟩

namespace Gjk.Boxes

/-- The difference of two boxes of side 2. -/
noncomputable def m : MinkowskiDiff := MinkowskiDiff.ofShapes (.box ⟨2, 2, 2⟩) Pose.id (.box ⟨2, 2, 2⟩) Pose.id

theorem support_x {big k : ℝ} (hk : 0 < k) : (m.support big ⟨k, 0, 0⟩).getD 0 = ⟨2, 0, 0⟩ ∧
    (m.support big ⟨-k, 0, 0⟩).getD 0 = ⟨-2, 0, 0⟩ := by
  have e3 : ∀ v : V3 ℝ, (((M3.one : M3 ℝ).tr.mul M3.one).mulVec v) = v := by
    intro v
    rw [show ((M3.one : M3 ℝ).tr.mul M3.one) = M3.one from M3.orthonormal_one.cols, M3.one_mulVec]
  have e6 : ∀ b : V3 ℝ, (Pose.id.inv.mul Pose.id : Pose ℝ).apply b = b := by
    intro b
    rw [Pose.mul_apply, Pose.id_apply]
    have := Pose.inv_apply (Pose.id_rigid (K := ℝ)) b
    rwa [Pose.id_apply] at this
  have key : ∀ d : V3 ℝ, (m.support big d).getD 0 = Support.box ⟨2, 2, 2⟩ d - Support.box ⟨2, 2, 2⟩ (-d) := by
    intro d
    show Support.box ⟨2, 2, 2⟩ d - (Pose.id.inv.mul Pose.id : Pose ℝ).apply
      (Support.box ⟨2, 2, 2⟩ (((M3.one : M3 ℝ).tr.mul M3.one).mulVec (-d))) = _
    rw [e3, e6]
  rw [key, key, Missed.box_eq, Missed.box_eq, Missed.box_eq, Missed.box_eq]
  have hk' : ¬ k < 0 := not_lt.2 hk.le
  constructor <;> apply V3.ext' <;> simp [hk, hk'] <;> norm_num

theorem normalized_x {k : ℝ} (hk : 0 < k) : (⟨k, 0, 0⟩ : V3 ℝ).normalized = ⟨1, 0, 0⟩ ∧
    (⟨-k, 0, 0⟩ : V3 ℝ).normalized = ⟨-1, 0, 0⟩ := by
  have h1 : (⟨k, 0, 0⟩ : V3 ℝ).nrm = k := nrm_unique hk.le (by simp [dot])
  have h2 : (⟨-k, 0, 0⟩ : V3 ℝ).nrm = k := nrm_unique hk.le (by simp [dot])
  rw [normalized, normalized, h1, h2, if_neg hk.ne', if_neg hk.ne']
  constructor <;> apply V3.ext' <;> simp [hk.ne']

/-- The boxes are found to collide. -/
theorem inside {big tol : ℝ} (h0 : 0 < tol) (ht : tol ≤ 1 / 100) (n : ℕ) :
    (run ⟨big, tol, n + 2, ⟨1, 0, 0⟩⟩ m).status = .inside := by
  obtain ⟨c0, hc0⟩ : ∃ c, c = vertex (fun d => (m.support big d).getD 0) ⟨1, 0, 0⟩ := ⟨_, rfl⟩
  have w0 : c0.w = ⟨2, 0, 0⟩ := by
    rw [hc0]
    show (m.support big (⟨1, 0, 0⟩ : V3 ℝ).normalized).getD 0 = _
    rw [(normalized_x one_pos).1, (support_x one_pos).1]
  obtain ⟨c1, hc1⟩ : ∃ c, vertex (fun d => (m.support big d).getD 0) (-⟨2, 0, 0⟩) = c := ⟨_, rfl⟩
  have w1 : c1.w = ⟨-2, 0, 0⟩ := by
    rw [← hc1]
    show (m.support big (-⟨2, 0, 0⟩ : V3 ℝ).normalized).getD 0 = _
    rw [show (-⟨2, 0, 0⟩ : V3 ℝ) = ⟨-2, 0, 0⟩ by v3, (normalized_x two_pos).2, (support_x one_pos).2]
  have hs : start (fun d => (m.support big d).getD 0) (-⟨1, 0, 0⟩) = ⟨[(c0, 1)], ⟨2, 0, 0⟩, fun _ => ⟨2, 0, 0⟩, 0, 0⟩ := by
    have e : (-(-⟨1, 0, 0⟩) : V3 ℝ) = ⟨1, 0, 0⟩ := by v3
    have g : (-⟨1, 0, 0⟩ : V3 ℝ).dot (-⟨1, 0, 0⟩) > 0 := by norm_num [dot]
    simp only [start, if_pos g, e, ← hc0, w0]
  have hl : Proj.lineO ⟨2, 0, 0⟩ ⟨-2, 0, 0⟩ = ⟨fun k => if k = 0 then 1 / 2 else if k = 1 then 1 / 2 else 0,
      0, fun k => k == 0 || k == 1⟩ := by
    norm_num [Proj.lineO, Proj.line, dot]
  have r0 := Missed.round_go (s := ⟨[(c0, 1)], ⟨2, 0, 0⟩, fun _ => ⟨2, 0, 0⟩, 0, 0⟩) h0 (by linarith)
    (Missed.long ht (by norm_num [dot])) hc1 (by
      intro i _
      simp only [w1]
      exact Missed.far ht (by norm_num [dot])) rfl (by simp only [w1]; norm_num [dot]) rfl
    (by simp only [List.cons_append, List.nil_append, List.map_cons, List.map_nil, w0, w1, project]; exact hl)
    (by norm_num) (by rfl)
  have k0 : keep ([(c0, 1)] ++ [(c1, 0)]) ⟨fun k => if k = 0 then 1 / 2 else if k = 1 then 1 / 2 else 0,
      0, fun k => k == 0 || k == 1⟩ = [(c0, 1 / 2), (c1, 1 / 2)] := by
    simp [keep, List.zipIdx]
  have y0 : weighted [(c0, 1 / 2), (c1, 1 / 2)] = 0 := by
    simp only [weighted, w0, w1]; apply V3.ext' <;> norm_num
  simp only [k0, y0, w1] at r0
  show (loop _ tol (n + 1) (start _ (-⟨1, 0, 0⟩))).status = _
  rw [hs, Missed.loop_go r0, Missed.loop_end (r := ⟨.inside, .near, 0, [(c0, 1 / 2), (c1, 1 / 2)], 0⟩)]
  simp only [round]
  rw [if_pos (by rw [nrm_zero]; exact h0)]

end Gjk.Boxes

/-- **C76 is false of the normal.** Two boxes at the same pose, turned together by a right angle about the z axis: whenever the
expanding polytope algorithm finds the normal `(1, 0, 0)` for them, the intersection query reports it for the turned boxes as
well, where it should be `(0, 1, 0)`. The normal is in the frame of the first shape, not in that of the world. -/
theorem C76_violated_normal {big tol : ℝ} (h0 : 0 < tol) (ht : tol ≤ 1 / 100) (n : ℕ) (w0 : V3 ℝ) (depth : ℝ)
    (epa : MinkowskiDiff → Res → Option (V3 ℝ × V3 ℝ × ℝ)) (he : ∀ m r, epa m r = some (w0, ⟨1, 0, 0⟩, depth)) :
    let o : Settings := ⟨big, tol, n + 2, ⟨1, 0, 0⟩⟩
    let X : Pose ℝ := ⟨⟨⟨0, -1, 0⟩, ⟨1, 0, 0⟩, ⟨0, 0, 1⟩⟩, 0⟩
    let box : Geo ℝ := .box ⟨2, 2, 2⟩
    X.Rigid ∧ ∃ c c' : CPoint, (shapeIntersect o epa box Pose.id box Pose.id (some [])).1 = (true, some [c]) ∧
      (shapeIntersect o epa box (X.mul Pose.id) box (X.mul Pose.id) (some [])).1 = (true, some [c']) ∧
      c.normal = ⟨1, 0, 0⟩ ∧ (c.moved X).normal = ⟨0, 1, 0⟩ ∧ c'.normal = ⟨1, 0, 0⟩ := by
  intro o X box
  have hX : X.Rigid := by
    constructor <;> norm_num [X, M3.mul, M3.tr, M3.col, M3.one, V3.get, dot]
  have hi : (run o (MinkowskiDiff.ofShapes box Pose.id box Pose.id)).status = .inside := Gjk.Boxes.inside h0 ht n
  refine ⟨hX, ?_⟩
  simp only [shapeIntersect, ofShapes_moved hX, contactOf, if_pos hi, he]
  refine ⟨_, _, rfl, rfl, rfl, ?_, rfl⟩
  apply V3.ext' <;> norm_num [CPoint.moved, X, M3.mulVec, dot]

/-! ### Triangles in the world frame -/

theorem ofShapes_world (s : Geo ℝ) (tf : Pose ℝ) (p1 p2 p3 : V3 ℝ) :
    (⟨s, .triangle p1 p2 p3, tf.R, tf.inv⟩ : MinkowskiDiff) = MinkowskiDiff.ofShapes s tf (.triangle p1 p2 p3) Pose.id := by
  have e1 : (Pose.id : Pose ℝ).R.tr.mul tf.R = tf.R := by
    simp only [Pose.id, M3.mul, M3.tr, M3.col, M3.one, V3.get, dot]
    simp
  have e2 : tf.inv.mul Pose.id = tf.inv := by
    have a : tf.inv.R.mul (M3.one : M3 ℝ) = tf.inv.R := by
      simp only [M3.mul, M3.tr, M3.col, M3.one, V3.get, dot]
      simp
    have b : tf.inv.R.mulVec 0 + tf.inv.t = tf.inv.t := by rw [M3.mulVec_zero]; v3
    exact congrArg₂ Pose.mk a b
  show _ = (⟨s, .triangle p1 p2 p3, _, _⟩ : MinkowskiDiff)
  rw [e1, e2]

theorem placed_id (S : Set (V3 ℝ)) : Placed (Pose.id : Pose ℝ).R (Pose.id : Pose ℝ).t S = S := by
  ext q
  constructor
  · rintro ⟨p, hp, rfl⟩
    have : (Pose.id : Pose ℝ).R.mulVec p + (Pose.id : Pose ℝ).t = p := Pose.id_apply p
    rw [this]; exact hp
  · intro h; exact ⟨q, h, (Pose.id_apply q).symm⟩

/-- **C77, in part.** The distance query of a shape and a triangle given in the world frame: the distance is that of a point of the
shape and one of the triangle, so never less than theirs, and at least the tolerance. The points it gives are in the frame
of the shape, not in that of the world: see `C77_violated`. -/
theorem C77_triangle_partial {s : Geo ℝ} {tf : Pose ℝ} {p1 p2 p3 : V3 ℝ} (h1 : tf.Rigid) (u : s.Usable o.big) (ht : 0 < o.tol)
    (hr : (triangleDistance o s tf p1 p2 p3).1.ret = true) :
    ∃ p q : V3 ℝ, (triangleDistance o s tf p1 p2 p3).1.pts = some (p, q) ∧ tf.apply p ∈ Placed tf.R tf.t s.pts ∧
      tf.apply q ∈ Shape.triangle p1 p2 p3 ∧ (triangleDistance o s tf p1 p2 p3).1.dist = (tf.apply p).dist (tf.apply q) ∧
      o.tol ≤ (triangleDistance o s tf p1 p2 p3).1.dist := by
  have ut : (Geo.triangle p1 p2 p3).Usable o.big := ⟨trivial, trivial, fun _ _ => trivial⟩
  simp only [triangleDistance, ofShapes_world] at hr ⊢
  obtain ⟨p, q, e1, hp, hq, e2, e3, e4⟩ := distance_points h1 Pose.id_rigid u ut ht id hr
  rw [placed_id] at hq
  refine ⟨p, q, e1, hp, hq, e2.symm, ?_⟩
  rw [e3]
  rcases (run_ended h1 Pose.id_rigid u ut ht).out with h | h | h
  · rw [h.1] at e4; cases e4
  · exact h.2.2.1
  · rw [h.1] at e4; cases e4

/-- **C77 is false of the points.** A box of side 2 at `(10, 0, 0)` and a triangle beyond it: the query succeeds, and the points it
gives are at `x = 1` and `x = 9`, although the box ends at `x = 11` and the triangle begins at `x = 19`. -/
theorem C77_violated {big tol : ℝ} (h0 : 0 < tol) (ht : tol ≤ 1 / 100) (n : ℕ) :
    let o : Settings := ⟨big, tol, n + 1, ⟨1, 0, 0⟩⟩
    let box : Geo ℝ := .box ⟨2, 2, 2⟩
    let tf : Pose ℝ := ⟨M3.one, ⟨10, 0, 0⟩⟩
    let out := (triangleDistance o box tf ⟨30, 5, 0⟩ ⟨19, -1, -1⟩ ⟨30, 0, 5⟩).1
    out.ret = true ∧ out.dist = 8 ∧ out.pts = some (⟨1, -1, -1⟩, ⟨9, -1, -1⟩) ∧
      (⟨1, -1, -1⟩ : V3 ℝ) ∉ Placed tf.R tf.t box.pts ∧
      (⟨9, -1, -1⟩ : V3 ℝ) ∉ Shape.triangle ⟨30, 5, 0⟩ ⟨19, -1, -1⟩ ⟨30, 0, 5⟩ := by
  intro o box tf out
  obtain ⟨m, hm⟩ : ∃ m, m = (⟨box, .triangle ⟨30, 5, 0⟩ ⟨19, -1, -1⟩ ⟨30, 0, 5⟩, tf.R, tf.inv⟩ : MinkowskiDiff) := ⟨_, rfl⟩
  have e0 : m.support0 big ⟨1, 0, 0⟩ = some ⟨1, -1, -1⟩ := by
    rw [hm]
    show some (Support.box ⟨2, 2, 2⟩ ⟨1, 0, 0⟩) = _
    rw [Gjk.Missed.box_eq]; norm_num
  have e1 : m.support1 big (-⟨1, 0, 0⟩) = some ⟨9, -1, -1⟩ := by
    rw [hm]
    show some (tf.inv.apply (Support.triangle ⟨30, 5, 0⟩ ⟨19, -1, -1⟩ ⟨30, 0, 5⟩ ((M3.one : M3 ℝ).mulVec (-⟨1, 0, 0⟩)))) = _
    rw [M3.one_mulVec]
    have : Support.triangle ⟨30, 5, 0⟩ ⟨19, -1, -1⟩ ⟨30, 0, 5⟩ (-⟨1, 0, 0⟩ : V3 ℝ) = ⟨19, -1, -1⟩ := by
      norm_num [Support.triangle, dot]
    rw [this]
    congr 1
    apply V3.ext' <;> norm_num [tf, Pose.inv, Pose.apply, M3.tr, M3.col, M3.one, V3.get, M3.mulVec, dot]
  have es : (m.support big ⟨1, 0, 0⟩).getD 0 = ⟨-8, 0, 0⟩ := by
    simp only [MinkowskiDiff.support, e0, e1, Option.bind_some, Option.map_some, Option.getD_some]
    apply V3.ext' <;> norm_num
  have hc0 : ∀ k : ℝ, 0 < k → vertex (fun d => (m.support big d).getD 0) ⟨k, 0, 0⟩ = ⟨⟨1, 0, 0⟩, ⟨-8, 0, 0⟩⟩ := by
    intro k hk
    simp only [vertex, (Gjk.Boxes.normalized_x hk).1, es]
  have hs : start (fun d => (m.support big d).getD 0) (-⟨1, 0, 0⟩) =
      ⟨[(⟨⟨1, 0, 0⟩, ⟨-8, 0, 0⟩⟩, 1)], ⟨-8, 0, 0⟩, fun _ => ⟨-8, 0, 0⟩, 0, 0⟩ := by
    have e : (-(-⟨1, 0, 0⟩) : V3 ℝ) = ⟨1, 0, 0⟩ := by v3
    have g : (-⟨1, 0, 0⟩ : V3 ℝ).dot (-⟨1, 0, 0⟩) > 0 := by norm_num [dot]
    simp only [start, if_pos g, e, hc0 1 one_pos]
  have hrun : run o m = ⟨.valid, .same, (⟨-8, 0, 0⟩ : V3 ℝ).nrm, [(⟨⟨1, 0, 0⟩, ⟨-8, 0, 0⟩⟩, 1)], ⟨-8, 0, 0⟩⟩ := by
    show loop (fun d => (m.support big d).getD 0) tol n (start (fun d => (m.support big d).getD 0) (-⟨1, 0, 0⟩)) = _
    rw [hs]
    apply Gjk.Missed.loop_end
    have hlong : ¬ (⟨-8, 0, 0⟩ : V3 ℝ).nrm < tol := not_lt.2 (Gjk.Missed.long ht (by norm_num [dot]))
    simp only [Gjk.round, if_neg hlong, show (-⟨-8, 0, 0⟩ : V3 ℝ) = ⟨8, 0, 0⟩ by apply V3.ext' <;> norm_num,
      hc0 8 (by norm_num)]
    rw [if_pos]
    refine ⟨0, by norm_num, ?_⟩
    norm_num [dot]
    exact h0
  have hb0 : blend (fun d => (m.support0 big d).getD 0) [(⟨⟨1, 0, 0⟩, ⟨-8, 0, 0⟩⟩, 1)] = ⟨1, -1, -1⟩ := by
    simp only [blend, List.foldr, e0, Option.getD_some]
    apply V3.ext' <;> norm_num
  have hb1 : blend (fun d => (m.support1 big (-d)).getD 0) [(⟨⟨1, 0, 0⟩, ⟨-8, 0, 0⟩⟩, 1)] = ⟨9, -1, -1⟩ := by
    simp only [blend, List.foldr, e1, Option.getD_some]
    apply V3.ext' <;> norm_num
  have hout : out = ⟨true, (⟨1, -1, -1⟩ - ⟨9, -1, -1⟩ : V3 ℝ).nrm, some (⟨1, -1, -1⟩, ⟨9, -1, -1⟩)⟩ := by
    show (distanceOf o _ id).1 = _
    rw [← hm]
    simp only [distanceOf, hrun, if_true]
    rw [show o.big = big from rfl, hb0, hb1]
    rfl
  rw [hout]
  refine ⟨rfl, ?_, rfl, ?_, ?_⟩
  · exact nrm_unique (by norm_num) (by norm_num [dot])
  · rintro ⟨p, ⟨⟨h, -⟩, -⟩, e⟩
    have := congrArg V3.x e
    simp only [tf, M3.one_mulVec, add_x] at this
    norm_num at h
    linarith
  · intro h
    have : ∀ v : V3 ℝ, HullOf [⟨30, 5, 0⟩, ⟨19, -1, -1⟩, ⟨30, 0, 5⟩] v → 19 ≤ v.x := by
      intro v hv
      have := Support.le_of_hull (d := ⟨-1, 0, 0⟩) (m := -19) (by norm_num [dot]) hv
      simp only [dot] at this
      linarith
    have := this _ h
    norm_num at this

/-- The normal of the query for a triangle is the opposite of that of the query for the same triangle as a shape: they do not
both point from the first object to the second. -/
theorem C77_violated_normal {epa : MinkowskiDiff → Res → Option (V3 ℝ × V3 ℝ × ℝ)} {s : Geo ℝ} {p1 p2 p3 : V3 ℝ} {c : CPoint}
    (h : (shapeIntersect o epa s tf1 (.triangle p1 p2 p3) tf2 (some [])).1 = (true, some [c])) :
    ∃ c', (triangleIntersect o epa s tf1 p1 p2 p3 tf2).1 = some c' ∧ c'.normal = -c.normal ∧ c'.pos = c.pos ∧
      c'.depth = c.depth := by
  simp only [shapeIntersect] at h
  simp only [triangleIntersect]
  rcases hc : contactOf o epa (MinkowskiDiff.ofShapes s tf1 (.triangle p1 p2 p3) tf2) with ⟨_ | ⟨w0, n, depth⟩, g⟩
  · rw [hc] at h; simp at h
  · rw [hc] at h
    simp only [Option.map_some, List.nil_append, Prod.mk.injEq, Option.some.injEq, List.cons.injEq, and_true, true_and] at h
    subst h
    exact ⟨_, rfl, rfl, rfl, rfl⟩

/-- When the query for a triangle reports a collision, the shape and the triangle are closer than the tolerance. -/
theorem C74_triangle {epa : MinkowskiDiff → Res → Option (V3 ℝ × V3 ℝ × ℝ)} {s : Geo ℝ} {p1 p2 p3 : V3 ℝ} {c : CPoint}
    (h1 : tf1.Rigid) (h2 : tf2.Rigid) (u : s.Usable o.big) (ht : 0 < o.tol)
    (hr : (triangleIntersect o epa s tf1 p1 p2 p3 tf2).1 = some c) :
    ∃ p ∈ Placed tf1.R tf1.t s.pts, ∃ q ∈ Placed tf2.R tf2.t (Shape.triangle p1 p2 p3), p.dist q < o.tol := by
  have ut : (Geo.triangle p1 p2 p3).Usable o.big := ⟨trivial, trivial, fun _ _ => trivial⟩
  refine C74_intersect (epa := epa) (contacts := none) h1 h2 u ut ht ?_
  simp only [triangleIntersect] at hr
  simp only [shapeIntersect]
  rcases hc : contactOf o epa (MinkowskiDiff.ofShapes s tf1 (.triangle p1 p2 p3) tf2) with ⟨_ | ⟨w0, n, depth⟩, g⟩
  · rw [hc] at hr; simp at hr
  · rfl

/-! ### The hypotheses are met -/

/-- A box and a box that overlap: `C74_intersect` applies, with any result of the expanding polytope algorithm. -/
example : (shapeIntersect ⟨100, 1 / 1000, 128, ⟨1, 0, 0⟩⟩ (fun _ _ => some (0, ⟨1, 0, 0⟩, -2)) (.box ⟨2, 2, 2⟩) Pose.id
    (.box ⟨2, 2, 2⟩) Pose.id none).1.1 = true := by
  have hi := Gjk.Boxes.inside (big := 100) (tol := 1 / 1000) (by norm_num) (by norm_num) 126
  simp only [shapeIntersect, contactOf]
  rw [if_pos (by exact hi)]

example : (Geo.box ⟨2, 2, 2⟩ : Geo ℝ).Usable 100 := ⟨trivial, by norm_num [Geo.WF], fun _ _ => trivial⟩
example : (Geo.cone 1 2 : Geo ℝ).Usable 100 := ⟨trivial, by norm_num [Geo.WF], fun _ _ => Or.inl one_pos⟩

/-- `C74_distance` and `C77_triangle_partial` apply to the box and the triangle of `C77_violated`. -/
example : ∃ p q : V3 ℝ, (triangleDistance ⟨100, 1 / 1000, 128, ⟨1, 0, 0⟩⟩ (.box ⟨2, 2, 2⟩) ⟨M3.one, ⟨10, 0, 0⟩⟩ ⟨30, 5, 0⟩
    ⟨19, -1, -1⟩ ⟨30, 0, 5⟩).1.pts = some (p, q) :=
  let ⟨p, q, h, _⟩ := C77_triangle_partial (o := ⟨100, 1 / 1000, 128, ⟨1, 0, 0⟩⟩) (s := .box ⟨2, 2, 2⟩) (tf := ⟨M3.one, ⟨10, 0, 0⟩⟩)
    M3.orthonormal_one ⟨trivial, by norm_num [Geo.WF], fun _ _ => trivial⟩ (by norm_num)
    (C77_violated (big := 100) (tol := 1 / 1000) (by norm_num) (by norm_num) 127).1
  ⟨p, q, h⟩

namespace Gjk.Progress

/-- Two boxes of side 2, the second at `(10, 0, 0)`. -/
noncomputable def m : MinkowskiDiff := MinkowskiDiff.ofShapes (.box ⟨2, 2, 2⟩) Pose.id (.box ⟨2, 2, 2⟩) ⟨M3.one, ⟨10, 0, 0⟩⟩

theorem vertex_eq {big : ℝ} {v a b : V3 ℝ} (h0 : v ≠ 0)
    (ha : (⟨if v.x > 0 then 1 else -1, if v.y > 0 then 1 else -1, if v.z > 0 then 1 else -1⟩ : V3 ℝ) = a)
    (hb : (⟨if -v.x > 0 then 1 else -1, if -v.y > 0 then 1 else -1, if -v.z > 0 then 1 else -1⟩ : V3 ℝ) = b) :
    (vertex (fun d => (m.support big d).getD 0) v).w = a - (b + ⟨10, 0, 0⟩) := by
  have hn := nrm_pos h0
  have hk : 0 < 1 / v.nrm := by positivity
  have e0 : v.normalized = (1 / v.nrm) • v := by rw [normalized, if_neg hn.ne']
  generalize hkk : 1 / v.nrm = k at hk e0
  have e4 : ∀ x : ℝ, (-(k * x) > 0) = (-x > 0) := by
    intro x
    apply propext
    rw [gt_iff_lt, gt_iff_lt, ← mul_neg]
    exact mul_pos_iff_of_pos_left hk
  have e4' : ∀ x : ℝ, (k * x > 0) = (x > 0) := fun x => propext (mul_pos_iff_of_pos_left hk)
  show Support.box ⟨2, 2, 2⟩ v.normalized - (Pose.id.inv.mul ⟨M3.one, ⟨10, 0, 0⟩⟩ : Pose ℝ).apply
      (Support.box ⟨2, 2, 2⟩ (((M3.one : M3 ℝ).tr.mul M3.one).mulVec (-v.normalized))) = _
  rw [show ((M3.one : M3 ℝ).tr.mul M3.one) = M3.one from M3.orthonormal_one.cols, M3.one_mulVec, Missed.box_eq, Missed.box_eq, e0]
  simp only [neg_x, neg_y, neg_z, smul_x, smul_y, smul_z, e4, e4', ha, hb]
  congr 1
  rw [Pose.mul_apply]
  have := Pose.inv_apply (Pose.id_rigid (K := ℝ)) ((⟨M3.one, ⟨10, 0, 0⟩⟩ : Pose ℝ).apply b)
  rw [Pose.id_apply] at this
  rw [this]
  simp only [Pose.apply, M3.one_mulVec]

/-- The search ends for lack of progress. -/
theorem stops : (run ⟨100, 1 / 2, 128, ⟨1, 1, 1⟩⟩ m).stop = .progress ∧ (run ⟨100, 1 / 2, 128, ⟨1, 1, 1⟩⟩ m).status = .valid := by
  obtain ⟨c0, hc0⟩ : ∃ c, c = vertex (fun d => (m.support 100 d).getD 0) ⟨1, 1, 1⟩ := ⟨_, rfl⟩
  have hne : ∀ v : V3 ℝ, v.x ≠ 0 → v ≠ 0 := by rintro v h rfl; exact h rfl
  have w0 : c0.w = ⟨-8, 2, 2⟩ := by
    rw [hc0, vertex_eq (a := ⟨1, 1, 1⟩) (b := ⟨-1, -1, -1⟩) (hne _ (by norm_num)) (by norm_num) (by norm_num)]
    apply V3.ext' <;> norm_num
  obtain ⟨c1, hc1⟩ : ∃ c, vertex (fun d => (m.support 100 d).getD 0) (-⟨-8, 2, 2⟩) = c := ⟨_, rfl⟩
  have w1 : c1.w = ⟨-8, -2, -2⟩ := by
    rw [← hc1, vertex_eq (a := ⟨1, -1, -1⟩) (b := ⟨-1, 1, 1⟩) (hne _ (by norm_num)) (by norm_num) (by norm_num)]
    apply V3.ext' <;> norm_num
  have hs : start (fun d => (m.support 100 d).getD 0) (-⟨1, 1, 1⟩) = ⟨[(c0, 1)], ⟨-8, 2, 2⟩, fun _ => ⟨-8, 2, 2⟩, 0, 0⟩ := by
    have e : (-(-⟨1, 1, 1⟩) : V3 ℝ) = ⟨1, 1, 1⟩ := by v3
    have g : (-⟨1, 1, 1⟩ : V3 ℝ).dot (-⟨1, 1, 1⟩) > 0 := by norm_num [dot]
    simp only [start, if_pos g, e, ← hc0, w0]
  have hsq := nrm_mul_self (⟨-8, 2, 2⟩ : V3 ℝ)
  have h72 : (⟨-8, 2, 2⟩ : V3 ℝ).dot ⟨-8, 2, 2⟩ = 72 := by norm_num [dot]
  have hl : (1 / 2 : ℝ) ≤ (⟨-8, 2, 2⟩ : V3 ℝ).nrm := by
    have := nrm_nonneg (⟨-8, 2, 2⟩ : V3 ℝ)
    nlinarith
  have hr : Gjk.round (fun d => (m.support 100 d).getD 0) (1 / 2) ⟨[(c0, 1)], ⟨-8, 2, 2⟩, fun _ => ⟨-8, 2, 2⟩, 0, 0⟩ =
      .inl ⟨.valid, .progress, (⟨-8, 2, 2⟩ : V3 ℝ).nrm, [(c0, 1)], ⟨-8, 2, 2⟩⟩ := by
    simp only [Gjk.round, if_neg (not_lt.2 hl), hc1, w1]
    have k1 : ¬ ∃ i < 4, ((⟨-8, -2, -2⟩ : V3 ℝ) - ⟨-8, 2, 2⟩).dot (⟨-8, -2, -2⟩ - ⟨-8, 2, 2⟩) < 1 / 2 := by
      rintro ⟨i, -, h⟩
      norm_num [dot] at h
    rw [if_neg k1, if_pos]
    have k2 := le_max_right 0 ((⟨-8, 2, 2⟩ : V3 ℝ).dot ⟨-8, -2, -2⟩ / (⟨-8, 2, 2⟩ : V3 ℝ).nrm)
    have k3 : (⟨-8, 2, 2⟩ : V3 ℝ).nrm / 2 ≤ (⟨-8, 2, 2⟩ : V3 ℝ).dot ⟨-8, -2, -2⟩ / (⟨-8, 2, 2⟩ : V3 ℝ).nrm := by
      rw [le_div_iff₀ (by linarith)]
      have : (⟨-8, 2, 2⟩ : V3 ℝ).dot ⟨-8, -2, -2⟩ = 56 := by norm_num [dot]
      rw [this]
      linarith
    linarith
  have hrun : run ⟨100, 1 / 2, 128, ⟨1, 1, 1⟩⟩ m = ⟨.valid, .progress, (⟨-8, 2, 2⟩ : V3 ℝ).nrm, [(c0, 1)], ⟨-8, 2, 2⟩⟩ := by
    show loop (fun d => (m.support 100 d).getD 0) (1 / 2) 127 (start (fun d => (m.support 100 d).getD 0) (-⟨1, 1, 1⟩)) = _
    rw [hs]
    exact Missed.loop_end hr
  rw [hrun]
  exact ⟨rfl, rfl⟩

end Gjk.Progress

/-- `C74_distance` and `C75_progress_partial` apply to two boxes apart. -/
example {p q : V3 ℝ} (hp : p ∈ Placed Pose.id.R Pose.id.t (Geo.box ⟨2, 2, 2⟩ : Geo ℝ).pts)
    (hq : q ∈ Placed M3.one ⟨10, 0, 0⟩ (Geo.box ⟨2, 2, 2⟩ : Geo ℝ).pts) :
    (1 - 1 / 2) * (shapeDistance ⟨100, 1 / 2, 128, ⟨1, 1, 1⟩⟩ (.box ⟨2, 2, 2⟩) Pose.id (.box ⟨2, 2, 2⟩) ⟨M3.one, ⟨10, 0, 0⟩⟩).1.dist ≤
      p.dist q := by
  have u : (Geo.box ⟨2, 2, 2⟩ : Geo ℝ).Usable 100 := ⟨trivial, by norm_num [Geo.WF], fun _ _ => trivial⟩
  refine C75_progress_partial (o := ⟨100, 1 / 2, 128, ⟨1, 1, 1⟩⟩) Pose.id_rigid (tf2 := ⟨M3.one, ⟨10, 0, 0⟩⟩) M3.orthonormal_one u u
    (by norm_num) ?_ Gjk.Progress.stops.1 hp hq
  simp only [shapeDistance, distanceOf]
  rw [if_pos (by exact Gjk.Progress.stops.2)]

end Fcl
