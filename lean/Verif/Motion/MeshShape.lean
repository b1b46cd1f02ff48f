import Verif.Motion.Continuous
import Verif.Geom.SphereTriangle

/-!
# Model of conservative advancement between a mesh and a shape (include/fcl/narrowphase/detail/traversal/distance/
mesh_shape_conservative_advancement_traversal_node-inl.h, shape_mesh_conservative_advancement_traversal_node-inl.h and
narrowphase/detail/conservative_advancement_func_matrix-inl.h)
-/

namespace Fcl.Continuous

/-- What `d`, `P1` and `P2` hold after `shapeTriangleDistance`: they have no initial value, `junk` stands for what they hold if the function
writes nothing. The first point is the one of the shape. -/
noncomputable def triOut (junk : ℝ × V3 ℝ × V3 ℝ) (o : Prim.TriOut) : ℝ × V3 ℝ × V3 ℝ := (o.dist.getD junk.1, o.pts.getD junk.2)

/-- One round for a mesh of one triangle and a shape: `initialize`, mesh_shape_conservative_advancement_traversal_node-inl.h 173-213, which
moves the vertices of the working copy `x` by the current transform, every time; then `distanceRecurse` on a leaf and a shape, which
is `leafTesting`, 82-130: `n` is taken to the image of the second vertex of the triangle under the transform of the shape, line 115. `std` is
`shapeTriangleDistance` of the solver for the shape. `b2` is `model2_bv`. Not modelled: the traversal of larger meshes. -/
noncomputable def meshShapeRound (nz : Bool) (std : Pose ℝ → V3 ℝ → V3 ℝ → V3 ℝ → Prim.TriOut) (junk : ℝ × V3 ℝ × V3 ℝ) (b2 : RSS ℝ) (m1 m2 : Motion)
    (x : Tri ℝ) (s1 s2 : MotionState) : ℝ × Tri ℝ :=
  let p : Tri ℝ := ⟨s1.tf.apply x.a, s1.tf.apply x.b, s1.tf.apply x.c⟩
  let o := triOut junk (std s2.tf p.a p.b p.c)
  let n := (s2.tf.apply p.b - o.2.2).normalized
  (stepTime nz o.1 (m1.triBound s1 p.a p.b p.c n + m2.bvBound s2 b2 (-n)), p)

/-- One round for a shape and a mesh of one triangle: `initialize`, shape_mesh_conservative_advancement_traversal_node-inl.h 170-211, and
`leafTesting`, 82-129: `n` is taken from the image of the first vertex of the triangle under the transform of the shape, line 114. -/
noncomputable def shapeMeshRound (nz : Bool) (std : Pose ℝ → V3 ℝ → V3 ℝ → V3 ℝ → Prim.TriOut) (junk : ℝ × V3 ℝ × V3 ℝ) (b1 : RSS ℝ) (m1 m2 : Motion)
    (x : Tri ℝ) (s1 s2 : MotionState) : ℝ × Tri ℝ :=
  let p : Tri ℝ := ⟨s2.tf.apply x.a, s2.tf.apply x.b, s2.tf.apply x.c⟩
  let o := triOut junk (std s1.tf p.a p.b p.c)
  let n := (o.2.2 - s1.tf.apply p.a).normalized
  (stepTime nz o.1 (m1.bvBound s1 b1 n + m2.triBound s2 p.a p.b p.c (-n)), p)

/-- `t_err` of a mesh and a shape, mesh_shape_conservative_advancement_traversal_node-inl.h 59 and
shape_mesh_conservative_advancement_traversal_node-inl.h 59. -/
noncomputable def meshShapeErr : ℝ := 1 / 10000

/-- `continuousCollide` of a mesh of one triangle and a shape with `CCDC_CONSERVATIVE_ADVANCEMENT`: the call in
conservative_advancement_func_matrix-inl.h 771 gives three template arguments and so is the general function of lines 290-359 for all
types of volumes. -/
noncomputable def meshShape (hit : Pose ℝ → Pose ℝ → Bool) (nz : Bool) (std : Pose ℝ → V3 ℝ → V3 ℝ → V3 ℝ → Prim.TriOut) (junk : ℝ × V3 ℝ × V3 ℝ)
    (b2 : RSS ℝ) (p : Tri ℝ) (m1 m2 : Motion) (fuel : ℕ) (s1 s2 : MotionState) (r : CCResult) : Option (CCResult × MotionState × MotionState) :=
  conservative hit meshShapeErr m1 m2 (meshShapeRound nz std junk b2 m1 m2) fuel p s1 s2 r

/-- `continuousCollide` of a shape and a mesh of one triangle with `CCDC_CONSERVATIVE_ADVANCEMENT`: conservative_advancement_func_matrix-inl.h
749 and 458-527. -/
noncomputable def shapeMesh (hit : Pose ℝ → Pose ℝ → Bool) (nz : Bool) (std : Pose ℝ → V3 ℝ → V3 ℝ → V3 ℝ → Prim.TriOut) (junk : ℝ × V3 ℝ × V3 ℝ)
    (b1 : RSS ℝ) (p : Tri ℝ) (m1 m2 : Motion) (fuel : ℕ) (s1 s2 : MotionState) (r : CCResult) : Option (CCResult × MotionState × MotionState) :=
  conservative hit meshShapeErr m1 m2 (shapeMeshRound nz std junk b1 m1 m2) fuel p s1 s2 r

end Fcl.Continuous
