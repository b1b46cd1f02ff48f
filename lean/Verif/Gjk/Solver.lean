import Verif.Gjk.Gjk
import Verif.Narrow.Support
import Verif.Geom.QuerySpec

/-!
# The queries of fcl's own solver that use GJK

Models include/fcl/narrowphase/detail/gjk_solver_indep-inl.h: the general cases of the intersection and the distance of two
shapes and of a shape and a triangle. The expanding polytope algorithm is a parameter.
-/

namespace Fcl.Gjk
open V3

/-- The members of `GJKSolver_indep` that matter here, gjk_solver_indep.h 174-183: `gjk_tolerance`, `gjk_max_iterations` and
the guess, which is `(1, 0, 0)` or `cached_guess`; `big` is the largest number of the scalar type. -/
structure Settings where
  big : ℝ
  tol : ℝ
  maxIter : ℕ
  guess : V3 ℝ

/-- Lines 122-133, 368-379, 465-476, 606-617, 870-881 and 961-972: the call of `GJK::evaluate`. -/
noncomputable def run (o : Settings) (m : MinkowskiDiff) : Res :=
  evaluate (fun d => (m.support o.big d).getD 0) o.tol o.maxIter (-o.guess)

/-- Lines 621-628, 885-892 and 976-983: a weighted sum of support points. Simplification: the terms are added from the last
one on. -/
noncomputable def blend (f : V3 ℝ → V3 ℝ) (l : List (SV × ℝ)) : V3 ℝ := l.foldr (fun v a => v.2 • f v.1.d + a) 0

/-- Lines 619-645, 883-906 and 974-994: the result of a distance query; `place` is what is done to the points. The second
component is the guess left in the cache. -/
noncomputable def distanceOf (o : Settings) (m : MinkowskiDiff) (place : V3 ℝ → V3 ℝ) : DistOut × V3 ℝ :=
  let r := run o m
  if r.status = .valid then
    let w0 := blend (fun d => (m.support0 o.big d).getD 0) r.simplex
    let w1 := blend (fun d => (m.support1 o.big (-d)).getD 0) r.simplex
    (⟨true, (w0 - w1).nrm, some (place w0, place w1)⟩, r.ray)
  else (⟨false, -1, none⟩, r.ray)

/-- `ShapeDistanceIndepImpl::run`, lines 592-645; with a triangle for the second shape,
`ShapeTransformedTriangleDistanceIndepImpl::run`, 945-996. -/
noncomputable def shapeDistance (o : Settings) (s1 : Geo ℝ) (tf1 : Pose ℝ) (s2 : Geo ℝ) (tf2 : Pose ℝ) : DistOut × V3 ℝ :=
  distanceOf o (MinkowskiDiff.ofShapes s1 tf1 s2 tf2) tf1.apply

/-- `ShapeTriangleDistanceIndepImpl::run`, lines 855-908: the triangle is given in the world frame. -/
noncomputable def triangleDistance (o : Settings) (s : Geo ℝ) (tf : Pose ℝ) (p1 p2 p3 : V3 ℝ) : DistOut × V3 ℝ :=
  distanceOf o ⟨s, .triangle p1 p2 p3, tf.R, tf.inv⟩ id

/-- Lines 135-160, 381-404 and 478-501: whether there is a contact, and what `EPA::evaluate`, given as `epa`, tells of it: the
sum `w0` of support points, the normal and the depth. The second component is the guess left in the cache. -/
noncomputable def contactOf (o : Settings) (epa : MinkowskiDiff → Res → Option (V3 ℝ × V3 ℝ × ℝ)) (m : MinkowskiDiff) :
    Option (V3 ℝ × V3 ℝ × ℝ) × V3 ℝ :=
  let r := run o m
  (if r.status = .inside then epa m r else none, r.ray)

/-- `ShapeIntersectIndepImpl::run`, lines 110-168. -/
noncomputable def shapeIntersect (o : Settings) (epa : MinkowskiDiff → Res → Option (V3 ℝ × V3 ℝ × ℝ)) (s1 : Geo ℝ)
    (tf1 : Pose ℝ) (s2 : Geo ℝ) (tf2 : Pose ℝ) (contacts : Option (List CPoint)) : HitOut × V3 ℝ :=
  match contactOf o epa (MinkowskiDiff.ofShapes s1 tf1 s2 tf2) with
  | (some (w0, n, depth), g) =>
    ((true, contacts.map (· ++ [⟨n, tf1.apply (w0 - (depth * (1 / 2)) • n), -depth⟩])), g)
  | (none, g) => ((false, contacts), g)

/-- `ShapeTransformedTriangleIntersectIndepImpl::run`, lines 449-508, and, with `tf2` the identity,
`ShapeTriangleIntersectIndepImpl::run`, 352-411: the return value with the point, the depth and the normal. -/
noncomputable def triangleIntersect (o : Settings) (epa : MinkowskiDiff → Res → Option (V3 ℝ × V3 ℝ × ℝ)) (s : Geo ℝ)
    (tf1 : Pose ℝ) (p1 p2 p3 : V3 ℝ) (tf2 : Pose ℝ) : Option CPoint × V3 ℝ :=
  match contactOf o epa (MinkowskiDiff.ofShapes s tf1 (.triangle p1 p2 p3) tf2) with
  | (some (w0, n, depth), g) => (some ⟨-n, tf1.apply (w0 - (depth * (1 / 2)) • n), -depth⟩, g)
  | (none, g) => (none, g)

end Fcl.Gjk
