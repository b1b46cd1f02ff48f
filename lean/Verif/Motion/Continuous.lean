import Verif.Motion.Model
import Verif.Geom.QuerySpec
import Verif.BVH.TriDist
import Verif.Geom.Primitive
import Mathlib.Algebra.Order.Floor.Ring

/-!
# Model of continuous collision (include/fcl/narrowphase/continuous_collision-inl.h and
narrowphase/detail/conservative_advancement_func_matrix-inl.h)
-/

namespace Fcl

/-- `ContinuousCollisionResult<S>`, continuous_collision_result.h 44-62. -/
structure CCResult where
  isCollide : Bool
  toc : ℝ
  tf1 : Pose ℝ
  tf2 : Pose ℝ

namespace Continuous

/-! ### Sampling -/

/-- `n_iter`, continuous_collision-inl.h 139, for `toc_err > 0`. -/
noncomputable def numIter (maxIter : ℕ) (tocErr : ℝ) : ℕ := min maxIter ⌈1 / tocErr⌉₊

/-- The loop of `continuousCollideNaive`, continuous_collision-inl.h 141-162, from iteration `i` on with `k` iterations left.
`hit` is `collide(o1, tf1, o2, tf2, …)` with the default request. Simplification: for `n = 1` the code divides 0 by 0 and
goes on with a NaN, here the quotient is 0. -/
noncomputable def naiveLoop (hit : Pose ℝ → Pose ℝ → Bool) (m1 m2 : Motion) (n : ℕ) : ℕ → ℕ → Option (ℝ × Pose ℝ × Pose ℝ)
  | 0, _ => none
  | k + 1, i =>
    let t : ℝ := (i : ℝ) / ((n : ℝ) - 1)
    let s1 := m1.integrate t
    let s2 := m2.integrate t
    if hit s1.tf s2.tf then some (t, s1.tf, s2.tf) else naiveLoop hit m1 m2 n k (i + 1)

/-- `continuousCollideNaive`, continuous_collision-inl.h 128-167; the time of contact is also the return value. `r` is the result
before the call. -/
noncomputable def naive (hit : Pose ℝ → Pose ℝ → Bool) (m1 m2 : Motion) (maxIter : ℕ) (tocErr : ℝ) (r : CCResult) : CCResult :=
  match naiveLoop hit m1 m2 (numIter maxIter tocErr) (numIter maxIter tocErr) 0 with
  | some (t, tf1, tf2) => ⟨true, t, tf1, tf2⟩
  | none => ⟨false, 1, r.tf1, r.tf2⟩

/-! ### Conservative advancement -/

/-- The loop of the functions `conservativeAdvancement`, conservative_advancement_func_matrix-inl.h 109-138 (two meshes), 248-278
(two shapes): `round` is one distance traversal, it gives `delta_t` and the next state `X` of what the traversal changes besides;
`s1` and `s2` are the states of the motions. The outcome is `node.toc` and the states of the motions; `none`: not finished after
`fuel` rounds. -/
noncomputable def advance {X : Type*} (terr : ℝ) (m1 m2 : Motion) (round : X → MotionState → MotionState → ℝ × X) :
    ℕ → X → ℝ → MotionState → MotionState → Option (ℝ × MotionState × MotionState)
  | 0, _, _, _, _ => none
  | fuel + 1, x, toc, s1, s2 =>
    let (delta, x') := round x s1 s2
    if delta ≤ terr then some (toc, s1, s2)
    else
      let toc' := toc + delta
      if toc' > 1 then some (1, s1, s2)
      else advance terr m1 m2 round fuel x' toc' (m1.integrate toc') (m2.integrate toc')

/-- `if(bound <= distance) cur_delta_t = 1; else cur_delta_t = distance / bound; if(cur_delta_t < delta_t) delta_t = cur_delta_t;`
after `delta_t = 1`. Shapes that touch have `distance = -1`, and then `bound` is a zero: `nz` says whether it is the negative zero of
floating point arithmetic. The quotient is minus infinity for the positive zero, which ends the loop as any negative number does, and
plus infinity for the negative zero. -/
noncomputable def stepTime (nz : Bool) (dist bound : ℝ) : ℝ :=
  if bound ≤ dist then 1
  else if bound = 0 ∧ nz = true then 1
  else if bound = 0 then -1
  else if dist / bound < 1 then dist / bound else 1

/-- `ShapeConservativeAdvancementTraversalNode::leafTesting`, shape_conservative_advancement_traversal_node-inl.h 63-97. `dist` is
`shapeDistance` of the two shapes, `b1` and `b2` are the volumes of the shapes in their own frames (115-116). `nz` is for `stepTime`: with
two `TranslationMotion`s and `n` zero the first bound is a negative zero if all the coordinates of the first velocity are negative,
the second one if all the coordinates of the second velocity are positive or positive zeros, and the sum is a negative zero if both
are. -/
noncomputable def shapeRound (nz : Bool) (dist : Pose ℝ → Pose ℝ → DistOut) (b1 b2 : RSS ℝ) (m1 m2 : Motion) (s1 s2 : MotionState) : ℝ :=
  let o := dist s1.tf s2.tf
  let p := o.pts.getD (0, 0)
  let v := p.2 - p.1
  let n := if v.dot v > 0 then (1 / Real.sqrt (v.dot v)) • v else v
  stepTime nz o.dist (m1.bvBound s1 b1 n + m2.bvBound s2 b2 (-n))

/-- `t_err` of two shapes, shape_conservative_advancement_traversal_node-inl.h 56. -/
noncomputable def shapeErr : ℝ := 1 / 10000

/-- `t_err` of two meshes, mesh_conservative_advancement_traversal_node-inl.h 88. -/
noncomputable def meshErr : ℝ := 1 / 100000

/-- The frame around the loop: `conservativeAdvancement`, conservative_advancement_func_matrix-inl.h 230-283, the functions that copy
its outcome into the result, 714-733, and `continuousCollideConservativeAdvancement`, continuous_collision-inl.h 300-352. The
motions are in the states `s1` and `s2` before the call; the states after it are returned too. -/
noncomputable def conservative {X : Type*} (hit : Pose ℝ → Pose ℝ → Bool) (terr : ℝ) (m1 m2 : Motion)
    (round : X → MotionState → MotionState → ℝ × X) (fuel : ℕ) (x : X) (s1 s2 : MotionState) (r : CCResult) :
    Option (CCResult × MotionState × MotionState) :=
  let out : Option (ℝ × MotionState × MotionState) :=
    if hit s1.tf s2.tf then some (0, s1, s2) else advance terr m1 m2 round fuel x 0 s1 s2
  out.map fun (toc, s1', s2') =>
    if hit s1.tf s2.tf = true ∨ toc < 1 then
      (⟨true, toc, (m1.integrate toc).tf, (m2.integrate toc).tf⟩, m1.integrate toc, m2.integrate toc)
    else (⟨false, toc, r.tf1, r.tf2⟩, s1', s2')

/-- `continuousCollide` of two shapes with `CCDC_CONSERVATIVE_ADVANCEMENT`. -/
noncomputable def shapes (nz : Bool) (hit : Pose ℝ → Pose ℝ → Bool) (dist : Pose ℝ → Pose ℝ → DistOut) (b1 b2 : RSS ℝ) (m1 m2 : Motion) (fuel : ℕ)
    (s1 s2 : MotionState) (r : CCResult) : Option (CCResult × MotionState × MotionState) :=
  conservative hit shapeErr m1 m2 (fun (_ : Unit) s1 s2 => (shapeRound nz dist b1 b2 m1 m2 s1 s2, ())) fuel () s1 s2 r

/-- `collide` of a sphere with a sphere, capsule, box or cylinder without contacts: the specialisations of `shapeIntersect`,
gjk_solver_libccd-inl.h 245-252, gjk_solver_indep-inl.h 249-256. Not modelled: the other shapes. -/
noncomputable def sphereHit (eps r : ℝ) : Geo ℝ → Pose ℝ → Pose ℝ → Bool
  | .sphere r2, X, Y => (Prim.sphereSphereIntersect r X r2 Y none).1
  | .capsule r2 lz, X, Y => (Prim.sphereCapsuleIntersect r X r2 lz Y none).1
  | .box side, X, Y => (Prim.sphereBoxIntersect eps r X side Y none).1
  | .cylinder r2 lz, X, Y => (Prim.sphereCylinderIntersect eps r X r2 lz Y none).1
  | _, _, _ => false

/-- `shapeDistance` of a sphere with a sphere, capsule, box or cylinder: gjk_solver_libccd-inl.h 679-799. Not modelled: the other
shapes. -/
noncomputable def sphereDist (r : ℝ) : Geo ℝ → Pose ℝ → Pose ℝ → DistOut
  | .sphere r2, X, Y => Prim.sphereSphereDistance r X r2 Y
  | .capsule r2 lz, X, Y => Prim.sphereCapsuleDistance r X r2 lz Y
  | .box side, X, Y => Prim.sphereBoxDistance r X side Y
  | .cylinder r2 lz, X, Y => Prim.sphereCylinderDistance r X r2 lz Y
  | _, _, _ => ⟨false, -1, none⟩

/-- One round for two meshes of one triangle each: `initialize`, mesh_conservative_advancement_traversal_node-inl.h 311-358, which
moves the vertices of the working copies `x` by the current transforms, every time; then `distanceRecurse` on two leaves, which is
`leafTesting`, 112-165: both bounds are taken along `n`. `td` is `triDistance`, whose
value is not negative, so that the sign of a zero has no effect in `stepTime`. Not modelled: the traversal of larger meshes. -/
noncomputable def meshRound (td : Tri ℝ → Tri ℝ → ℝ × V3 ℝ × V3 ℝ) (m1 m2 : Motion) (x : Tri ℝ × Tri ℝ) (s1 s2 : MotionState) :
    ℝ × Tri ℝ × Tri ℝ :=
  let p : Tri ℝ := ⟨s1.tf.apply x.1.a, s1.tf.apply x.1.b, s1.tf.apply x.1.c⟩
  let q : Tri ℝ := ⟨s2.tf.apply x.2.a, s2.tf.apply x.2.b, s2.tf.apply x.2.c⟩
  let o := td p q
  let n := (o.2.2 - o.2.1).normalized
  (stepTime false o.1 (m1.triBound s1 p.a p.b p.c n + m2.triBound s2 q.a q.b q.c n), p, q)

/-- `continuousCollide` of two meshes of one triangle each with `CCDC_CONSERVATIVE_ADVANCEMENT`: the call in
conservative_advancement_func_matrix-inl.h 706 has seven arguments and so is the general function of lines 75-147 for all types of
volumes. -/
noncomputable def meshes (hit : Pose ℝ → Pose ℝ → Bool) (td : Tri ℝ → Tri ℝ → ℝ × V3 ℝ × V3 ℝ) (p q : Tri ℝ) (m1 m2 : Motion) (fuel : ℕ)
    (s1 s2 : MotionState) (r : CCResult) : Option (CCResult × MotionState × MotionState) :=
  conservative hit meshErr m1 m2 (meshRound td m1 m2) fuel (p, q) s1 s2 r

end Continuous
end Fcl
