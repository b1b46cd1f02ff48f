import Verif.BVH.Mesh
import Verif.OBB.Fit

/-!
# Model of the collision of meshes with oriented boxes at arbitrary poses

`collide` on two `BVHModel<OBB<S>>` keeps the hierarchies as they were built and carries the pose of the second mesh
relative to the first along.
-/

namespace Fcl

section
variable {K : Type*} [Field K]

/-- `relativeTransform(R1, t1, R2, t2, R, t)`, math/geometry-inl.h 657-690, and `relativeTransform(T1, T2, R, t)`,
692-712: the same on the two parts of the transforms. -/
def Pose.relative (X Y : Pose K) : Pose K := ⟨X.R.tr.mul Y.R, X.R.tr.mulVec (Y.t - X.t)⟩

end

section
variable {K V : Type*} [LinearOrder K]

/-- The contacts added by one leaf test of `meshCollisionOrientedNodeLeafTesting`,
traversal/collision/mesh_collision_traversal_node-inl.h 566-606. A contact is represented by the two triangles. `M.hit`
and `M.hitC` are here the answers of `Intersect::intersect_Triangle` with the arguments `R` and `T`. -/
def orientedContacts (M : MeshPair K) (q : MeshRequest) (r : CollResult (ℕ × ℕ) K) (a b : ℕ) :
    CollResult (ℕ × ℕ) K × Bool :=
  if !q.enableContact then
    if M.hit a b then
      (if r.numContacts < q.req.numMax then r.addContact (a, b) else r, true)
    else (r, false)
  else
    match M.hitC a b with
    | none => (r, false)
    | some n =>
      let n :=
        if q.req.numMax < r.numContacts + n then
          (if q.req.numMax > r.numContacts then q.req.numMax - r.numContacts else 0)
        else n
      ((List.range n).foldl (fun r _ => r.addContact (a, b)) r, true)

/-- `meshCollisionOrientedNodeLeafTesting`, 526-624, on two primitives. -/
def orientedLeaf (M : MeshPair K) (q : MeshRequest) (r : CollResult (ℕ × ℕ) K) (a b : ℕ) : CollResult (ℕ × ℕ) K :=
  if M.occupied then
    let x := orientedContacts M q r a b
    if x.2 && q.req.enableCost then x.1.addCostSource (M.cost a b) q.numMaxCost else x.1
  else if M.notFree && q.req.enableCost then
    if M.hit a b then r.addCostSource (M.cost a b) q.numMaxCost else r
  else r

/-- `MeshCollisionTraversalNodeOBB`, mesh_collision_traversal_node-inl.h 250-330: `BVTesting` is
`!overlap(R, T, bv1, bv2)`; `canStop` is the one of `MeshCollisionTraversalNode`, 202-205. `overlap` here is the test
with `R` and `T` filled in. -/
def orientedNode (overlap : V → V → Bool) (M : MeshPair K) (q : MeshRequest) :
    ColNode (CollResult (ℕ × ℕ) K) (BT V ℕ) (BT V ℕ) where
  disjoint a b := !overlap a.bv b.bv
  leafTest r a b :=
    match a, b with
    | .leaf _ p, .leaf _ p' => orientedLeaf M q r p p'
    | _, _ => r
  canStop r := q.req.isSatisfied r

end

/-- What an oriented collision of two meshes can come to: a result, or undefined behaviour. -/
inductive MeshOutcome (K : Type*)
  | result (r : CollResult (ℕ × ℕ) K)
  /-- a null pointer is read -/
  | undefinedBehaviour
  /-- the bound on the recursion is reached -/
  | outOfFuel

/-- `orientedMeshCollide<MeshCollisionTraversalNodeOBB<S>, OBB<S>>`, collision_func_matrix-inl.h 570-590, with
`setupMeshCollisionOrientedNode`, mesh_collision_traversal_node-inl.h 714-745, and `collide(node)`,
collision_node-inl.h 60-80, without a front list. `g1`, `g2` are the meshes, `t1`, `t2` their hierarchies. `initialize`
returns false without setting the pointers `model1` and `model2` when one model is no triangle mesh; the result of
`initialize` is ignored and the pointers are read by `BVTesting`. -/
def orientedMeshCollide {K : Type*} [Field K] [LinearOrder K] (larger : OBB K → OBB K → Bool) (fuel : ℕ)
    (g1 : Geom K) (t1 : BT (OBB K) ℕ) (tf1 : Pose K) (g2 : Geom K) (t2 : BT (OBB K) ℕ) (tf2 : Pose K)
    (M : MeshPair K) (q : MeshRequest) (r : CollResult (ℕ × ℕ) K) : MeshOutcome K :=
  if q.req.isSatisfied r then .result r
  else if !g1.isMesh || !g2.isMesh then .undefinedBehaviour
  else
    let X := tf1.relative tf2
    match collisionRecurse (orientedNode (OBB.overlapAt X.R X.t) M q) (Trav.bvh larger) fuel t1 t2 (r, none) with
    | some (r, _) => .result r
    | none => .outOfFuel

/-- `FitImpl<S, OBB<S>>::run`, geometry/bvh/detail/BV_fitter-inl.h 301-321, on a list of primitives. `junk`: what the
uninitialised variables hold when `eigen_old` does not write them. -/
noncomputable def obbFit (big : ℝ) (eig : OBB.EigenFn ℝ) (junk : OBB ℝ) (g : Geom ℝ) (l : List ℕ) : OBB ℝ :=
  (OBB.fitn big eig (l.flatMap g.primVerts)).getD junk

/-- The fitter together with a splitter. -/
noncomputable def obbBuilder (big : ℝ) (eig : OBB.EigenFn ℝ) (junk : OBB ℝ) (g : Geom ℝ)
    (right : OBB ℝ → List ℕ → ℕ → Bool) : Builder (OBB ℝ) := ⟨obbFit big eig junk g, right⟩

end Fcl
