import Verif.BVH.TriDist
import Verif.Traversal.Model
import Verif.Narrow.Results

/-!
# Model of the distance query of two meshes

`BVHDistance` for AABBs and `orientedMeshDistance` for the oriented volumes, narrowphase/detail/distance_func_matrix-inl.h
344-460, with the traversal nodes of traversal/distance/mesh_distance_traversal_node-inl.h.
-/

namespace Fcl

/-- The state of a distance query of meshes: `DistanceResult<S>` (`Narrow/Results.lean`) with points and pointers to
geometries. -/
abbrev MeshDistResult (O : Type*) := DistResult ℝ (V3 ℝ) O

/-- What the leaf tests do with the result of `triDistance`, mesh_distance_traversal_node-inl.h 136-143 and 494-497 (and
581-584): the overload of `update` with the nearest points if they are asked for, the other one if not. -/
noncomputable def MeshDistResult.offer {O : Type*} (points : Bool) (o1 o2 : O) (i j : ℕ) (t : ℝ × V3 ℝ × V3 ℝ)
    (r : MeshDistResult O) : MeshDistResult O :=
  r.update ⟨t.1, some o1, some o2, i, j, if points then some t.2 else none⟩

variable {V O : Type*}

/-- `MeshDistanceTraversalNode`: `BVTesting` of distance/bvh_distance_traversal_node-inl.h 120-126, `leafTesting`, 110-144,
and `canStop`, 148-153, of mesh_distance_traversal_node-inl.h; for the oriented nodes `leafTesting` is
`meshDistanceOrientedNodeLeafTesting`, 455-498. `tri i j` is the call of `triDistance` for two primitives. The members
`rel_err` and `abs_err` are set by the constructor, 96-107, from a request that is still the default one, so that they
are zero; `initialize` does not set them. -/
noncomputable def meshDistanceNode (bvDist : V → V → ℝ) (tri : ℕ → ℕ → ℝ × V3 ℝ × V3 ℝ) (points : Bool) (o1 o2 : O) :
    DistNode (MeshDistResult O) ℝ (BT V ℕ) (BT V ℕ) where
  bvDist a b := bvDist a.bv b.bv
  leafTest r a b :=
    match a, b with
    | .leaf _ i, .leaf _ j => MeshDistResult.offer points o1 o2 i j (tri i j) r
    | _, _ => r
  canStop r c := if c ≥ r.minDist - 0 ∧ c * (1 + 0) ≥ r.minDist then true else false

/-- What a distance query of two meshes can come to. -/
inductive DistOutcome (O : Type*)
  | result (r : MeshDistResult O)
  /-- a null pointer is read -/
  | undefinedBehaviour
  /-- the bound on the recursion is reached -/
  | outOfFuel

/-- The mesh with all vertices moved: `vertices_transformed1`, mesh_distance_traversal_node-inl.h 175-181;
`beginReplaceModel` drops the previous vertices. -/
def Geom.move {K : Type*} [Field K] (X : Pose K) (g : Geom K) : Geom K := { g with verts := g.verts.map X.apply, prev := none }

/-- `BVHDistanceImpl::run`, distance_func_matrix-inl.h 344-370, after `initialize`, mesh_distance_traversal_node-inl.h
157-222: `g1`, `g2` are the meshes with the transformed vertices and `t1`, `t2` their hierarchies, built anew. `o1` and
`o2` are the copies `obj1_tmp` and `obj2_tmp`, which are deleted at the end. `distance(&node)` is called with the default
size 2 of the queue, so that it is `distanceRecurse`; `preprocess` and `postprocess` do nothing. As for collisions,
`initialize` sets no pointers when one of the models is no mesh. (`initialize` leaves out the move when
`tf1.matrix().isIdentity()`, 173 and 190, which holds for poses up to `1e-12` off the identity; the model moves always.) -/
noncomputable def meshDistance (bvDist : V → V → ℝ) (larger : V → V → Bool) (thin : ℝ) (fuel : ℕ) (points : Bool)
    (o1 : O) (g1 : Geom ℝ) (t1 : BT V ℕ) (o2 : O) (g2 : Geom ℝ) (t2 : BT V ℕ) (r : MeshDistResult O) : DistOutcome O :=
  if r.minDist ≤ 0 then .result r
  else if !g1.isMesh || !g2.isMesh then .undefinedBehaviour
  else
    match distanceRecurse (meshDistanceNode bvDist (fun i j => Tri.triDist thin (g1.tri i) (g2.tri j)) points o1 o2)
      (Trav.bvh larger) fuel t1 t2 (r, none) with
    | some (r, _) => .result r
    | none => .outOfFuel

/-- A pointer to a mesh: one of the caller, or one to a copy made by the query and deleted before it returns,
distance_func_matrix-inl.h 358-367. -/
inductive MeshPtr
  | caller (n : ℕ)
  | deletedCopy (n : ℕ)
deriving DecidableEq

/-- `BVHDistance<AABB<S>>`, distance_func_matrix-inl.h 344-383, for two meshes of the caller: the copies are what the
traversal gets. -/
noncomputable def aabbMeshDistance (larger : AABB ℝ → AABB ℝ → Bool) (thin : ℝ) (fuel : ℕ) (points : Bool)
    (n1 : ℕ) (g1 : Geom ℝ) (t1 : BT (AABB ℝ) ℕ) (n2 : ℕ) (g2 : Geom ℝ) (t2 : BT (AABB ℝ) ℕ) (r : MeshDistResult MeshPtr) :
    DistOutcome MeshPtr :=
  meshDistance AABB.distance larger thin fuel points (.deletedCopy n1) g1 t1 (.deletedCopy n2) g2 t2 r

/-- `distancePostprocessOrientedNode`, mesh_distance_traversal_node-inl.h 589-602. -/
noncomputable def distPostprocess [DecidableEq O] (points : Bool) (o1 o2 : O) (tf1 : Pose ℝ) (r : MeshDistResult O) : MeshDistResult O :=
  if points ∧ r.o1 = some o1 ∧ r.o2 = some o2 then { r with nearest := (tf1.apply r.nearest.1, tf1.apply r.nearest.2) } else r

/-- `orientedMeshDistance`, distance_func_matrix-inl.h 386-404, with `setupMeshDistanceOrientedNode`,
mesh_distance_traversal_node-inl.h 604-633, and `distance`, collision_node-inl.h 137-147: the first triangles are tested
before the traversal (`distancePreprocessOrientedNode`, 546-585) and the nearest points are taken to the world frame
after it. `bvDist` is the distance of two volumes in the relative pose. -/
noncomputable def orientedMeshDistance [DecidableEq O] (bvDist : Pose ℝ → V → V → ℝ) (larger : V → V → Bool) (thin : ℝ) (fuel : ℕ)
    (points : Bool) (o1 : O) (g1 : Geom ℝ) (t1 : BT V ℕ) (tf1 : Pose ℝ) (o2 : O) (g2 : Geom ℝ) (t2 : BT V ℕ) (tf2 : Pose ℝ)
    (r : MeshDistResult O) : DistOutcome O :=
  if r.minDist ≤ 0 then .result r
  else if !g1.isMesh || !g2.isMesh then .undefinedBehaviour
  else
    let X := tf1.relative tf2
    let tri := fun i j => Tri.triDist thin (g1.tri i) ((g2.tri j).move X)
    let r := MeshDistResult.offer points o1 o2 0 0 (tri 0 0) r
    match distanceRecurse (meshDistanceNode (bvDist X) tri points o1 o2) (Trav.bvh larger) fuel t1 t2 (r, none) with
    | some (r, _) => .result (distPostprocess points o1 o2 tf1 r)
    | none => .outOfFuel

end Fcl
