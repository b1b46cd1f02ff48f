import Verif.BVH.MeshShape
import Verif.BVH.MeshDist

/-!
# Model of the distance of a mesh and a shape

`narrowphase/detail/traversal/distance/mesh_shape_distance_traversal_node-inl.h` and the functions of
`narrowphase/detail/distance_func_matrix-inl.h` that use it. The distance matrix has entries for meshes with RSS, kIOS and
OBBRSS volumes only, distance_func_matrix-inl.h 597-605 and 640-658; the others are commented out, 574-595 and 607-638.
-/

namespace Fcl
variable {V O : Type*}

/-- The second half of `meshShapeDistanceOrientedNodeLeafTesting`, mesh_shape_distance_traversal_node-inl.h 191-203, and of
`distancePreprocessOrientedNode`, 228-240. `o` is what `shapeTriangleDistance` writes, the point of the shape first; the
variables are not initialised before, `junk` is what they hold. The overload of `update` with points is used, whatever the
request says. -/
noncomputable def shapeOffer (o1 o2 : O) (junk : ℝ × V3 ℝ × V3 ℝ) (i : ℕ) (o : Prim.TriOut) (r : MeshDistResult O) : MeshDistResult O :=
  r.update ⟨o.dist.getD junk.1, some o1, some o2, i, -1,
    some ((o.pts.map Prod.snd).getD junk.2.1, (o.pts.map Prod.fst).getD junk.2.2)⟩

/-- `MeshShapeDistanceTraversalNodeRSS`, `...kIOS` and `...OBBRSS`: `BVTesting`, 270-281, 325-333 and 364-374; `leafTesting`,
164-204; `canStop`, 102-110, with the zero `abs_err` and `rel_err` of the constructor, 51-63. The second tree has one node. -/
noncomputable def shapeDistNode (bvDist : V → ℝ) (tri : ℕ → Prim.TriOut) (junk : ℕ → ℝ × V3 ℝ × V3 ℝ) (o1 o2 : O) :
    DistNode (MeshDistResult O) ℝ (BT V ℕ) (BT Unit Unit) where
  bvDist a _ := bvDist a.bv
  leafTest r a _ :=
    match a with
    | .leaf _ i => shapeOffer o1 o2 (junk i) i (tri i) r
    | _ => r
  canStop r c := if c ≥ r.minDist - 0 ∧ c * (1 + 0) ≥ r.minDist then true else false

/-- `orientedBVHShapeDistance`, distance_func_matrix-inl.h 257-278, with `setupMeshShapeDistanceOrientedNode`,
mesh_shape_distance_traversal_node-inl.h 385-409, and `distance`, collision_node-inl.h 137-147: triangle 0 is tested before
the traversal, 207-241, and nothing is done after it. `initialize` returns false without setting pointers for a model that is
no mesh, its result is ignored, and `model1` is read. `bv2` is `model2_bv`, which `computeBV(model2, tf2, model2_bv)` sets. `tri i`
is the call of `shapeTriangleDistance` for triangle `i`. -/
noncomputable def OVol.shapeDistance (vol : OVol V) (fuel : ℕ) (o1 : O) (g : Geom ℝ) (t : BT V ℕ) (tf1 : Pose ℝ) (o2 : O) (bv2 : V)
    (tri : ℕ → Prim.TriOut) (junk0 : ℝ × V3 ℝ × V3 ℝ) (junk : ℕ → ℝ × V3 ℝ × V3 ℝ) (r : MeshDistResult O) : DistOutcome O :=
  if r.minDist ≤ 0 then .result r
  else if !g.isMesh then .undefinedBehaviour
  else
    let r := shapeOffer o1 o2 junk0 0 (tri 0) r
    match distanceRecurse (shapeDistNode (fun bv => vol.distAt tf1 bv2 bv) tri junk o1 o2) Trav.bvhShape fuel t (.leaf () ()) (r, none) with
    | some (r, _) => .result r
    | none => .outOfFuel

/-- A sphere at `tf2` and a triangle of a mesh at `tf1`: `shapeTriangleDistance(model2, tf2, p1, p2, p3, tf1, ...)`, which for both
solvers is the third `sphereTriangleDistance` (gjk_solver_libccd-inl.h 949-967, gjk_solver_indep-inl.h 1017-1035). -/
noncomputable def sphereMeshDist (rad : ℝ) (tf2 : Pose ℝ) (g : Geom ℝ) (tf1 : Pose ℝ) (i : ℕ) : Prim.TriOut :=
  Prim.sphereTrianglePosed rad tf2 (g.tri i).a (g.tri i).b (g.tri i).c tf1

end Fcl
