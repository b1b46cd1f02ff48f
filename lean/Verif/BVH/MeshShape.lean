import Verif.BVH.Volumes
import Verif.BVH.TriTest
import Verif.Geom.QuerySpec
import Verif.Geom.SphereTriangle
import Verif.Flat.Model

/-!
# Model of the collision of a mesh with a shape

`narrowphase/detail/traversal/collision/mesh_shape_collision_traversal_node-inl.h` and the functions of
`narrowphase/detail/collision_func_matrix-inl.h` that use it.
-/

namespace Fcl

/-- The `Contact` of a mesh and a shape (narrowphase/contact.h): the pointer to the mesh, the number of the triangle, and
the normal, the point and the depth (`none`: not set). The pointer to the shape and the second number, `NONE`, are always
the same. -/
structure MSContact where
  o1 : MeshPtr
  b1 : ℕ
  info : Option CPoint

/-- What `MeshShapeCollisionTraversalNode` knows besides the tree. `test out i` is the answer of
`nsolver->shapeTriangleIntersect` on triangle `i`, and what it stores, when called with (`out`) or without places for the
contact. `free1` and `free2` are `model1->isFree()` and `model2->isFree()`, `occupied` is
`model1->isOccupied() && model2->isOccupied()`. `cost i` is the cost source of mesh_shape_collision_traversal_node-inl.h
107-111: the common part of the boxes of the triangle and the shape with the product of the densities. -/
structure ShapeMesh where
  ptr : MeshPtr
  test : Bool → ℕ → Bool × Option CPoint
  occupied : Bool
  free1 : Bool
  free2 : Bool
  cost : ℕ → CostSource ℝ

section
variable {V : Type*}

/-- The contact added by a leaf test: mesh_shape_collision_traversal_node-inl.h 79-103 and, with the triangle moved by
`tf1`, 216-241. The second component is `is_intersect`. -/
noncomputable def shapeContacts (M : ShapeMesh) (q : MeshRequest) (r : CollResult MSContact ℝ) (i : ℕ) : CollResult MSContact ℝ × Bool :=
  if !q.enableContact then
    if (M.test false i).1 then
      (if q.req.numMax > r.numContacts then r.addContact ⟨M.ptr, i, none⟩ else r, true)
    else (r, false)
  else
    if (M.test true i).1 then
      (if q.req.numMax > r.numContacts then
        r.addContact ⟨M.ptr, i, (M.test true i).2.map fun k => ⟨-k.normal, k.pos, k.depth⟩⟩ else r, true)
    else (r, false)

/-- `MeshShapeCollisionTraversalNode::leafTesting`, 63-125. The second `if` is no `else`. -/
noncomputable def meshShapeLeaf (M : ShapeMesh) (q : MeshRequest) (r : CollResult MSContact ℝ) (i : ℕ) : CollResult MSContact ℝ :=
  let r1 :=
    if M.occupied then
      let x := shapeContacts M q r i
      if x.2 && q.req.enableCost then x.1.addCostSource (M.cost i) q.numMaxCost else x.1
    else r
  if (!M.free1 && !M.free2) && q.req.enableCost then
    if (M.test false i).1 then r1.addCostSource (M.cost i) q.numMaxCost else r1
  else r1

/-- `meshShapeCollisionOrientedNodeLeafTesting`, 182-267. -/
noncomputable def orientedShapeLeaf (M : ShapeMesh) (q : MeshRequest) (r : CollResult MSContact ℝ) (i : ℕ) : CollResult MSContact ℝ :=
  if M.occupied then
    let x := shapeContacts M q r i
    if x.2 && q.req.enableCost then x.1.addCostSource (M.cost i) q.numMaxCost else x.1
  else if (!M.free1 || M.free2) && q.req.enableCost then
    if (M.test false i).1 then r.addCostSource (M.cost i) q.numMaxCost else r
  else r

/-- The nodes: `leaf` is the leaf test, `overlap` the test of a volume of the mesh against the volume `model2_bv` of the
shape; `canStop`, 129-132. The second tree has one node. -/
def shapeNode (leaf : CollResult MSContact ℝ → ℕ → CollResult MSContact ℝ) (overlap : V → Bool) (q : MeshRequest) :
    ColNode (CollResult MSContact ℝ) (BT V ℕ) (BT Unit Unit) where
  disjoint a _ := !overlap a.bv
  leafTest r a _ :=
    match a with
    | .leaf _ p => leaf r p
    | _ => r
  canStop r := q.req.isSatisfied r

/-- What a query can come to. -/
inductive QueryOutcome (R : Type*)
  | result (r : R)
  /-- a null pointer is read -/
  | undefinedBehaviour
  /-- the bound on the recursion is reached -/
  | outOfFuel

/-- `collide(&node)`, collision_node-inl.h 60-80, without a front list. -/
def shapeRun (leaf : MeshRequest → CollResult MSContact ℝ → ℕ → CollResult MSContact ℝ) (overlap : V → Bool) (fuel : ℕ) (t : BT V ℕ)
    (q : MeshRequest) (r : CollResult MSContact ℝ) : QueryOutcome (CollResult MSContact ℝ) :=
  match collisionRecurse (shapeNode (leaf q) overlap q) Trav.bvhShape fuel t (.leaf () ()) (r, none) with
  | some (r, _) => .result r
  | none => .outOfFuel

/-- The body that `BVHShapeCollider::collide`, collision_func_matrix-inl.h 329-368, and `orientedBVHShapeCollide`, 384-432,
have in common. `initialize` returns false without setting pointers for a model that is no mesh, its result is ignored, and
`model1` is read. `approx` is `none` unless `use_approximate_cost` is set; then it is the cost source that
`ShapeShapeCollide` on the box around the mesh and the shape adds, if it adds one: the request made for it, 357-358, has
room for no contact, so that it adds no contact (`ShapeCollisionTraversalNode::leafTesting`). -/
noncomputable def bvhShapeCollide (leaf : MeshRequest → CollResult MSContact ℝ → ℕ → CollResult MSContact ℝ) (overlap : V → Bool) (fuel : ℕ)
    (g : Geom ℝ) (t : BT V ℕ) (q : MeshRequest) (approx : Option (Option (CostSource ℝ))) (r : CollResult MSContact ℝ) :
    QueryOutcome (CollResult MSContact ℝ) :=
  if q.req.isSatisfied r then .result r
  else if !g.isMesh then .undefinedBehaviour
  else
    match q.req.enableCost, approx with
    | true, some box =>
      match shapeRun leaf overlap fuel t { q with req := { q.req with enableCost := false } } r with
      | .result r =>
        .result (match box with
          | some c => r.addCostSource c q.numMaxCost
          | none => r)
      | o => o
    | _, _ => shapeRun leaf overlap fuel t q r

/-- `orientedBVHShapeCollide`, collision_func_matrix-inl.h 372-432, which is used for OBB, RSS, kIOS and OBBRSS, 436-530.
`BVTesting` of the four nodes, mesh_shape_collision_traversal_node-inl.h 279-374, calls
`overlap(tf1.linear(), tf1.translation(), model2_bv, bv)`. `bv2` is `model2_bv`, which `computeBV(model2, tf2, model2_bv)` sets,
398. -/
noncomputable def OVol.shapeCollide (vol : OVol V) (fuel : ℕ) (g : Geom ℝ) (t : BT V ℕ) (tf1 : Pose ℝ) (bv2 : V) (M : ShapeMesh)
    (q : MeshRequest) (approx : Option (Option (CostSource ℝ))) (r : CollResult MSContact ℝ) : QueryOutcome (CollResult MSContact ℝ) :=
  bvhShapeCollide (orientedShapeLeaf M) (fun bv => vol.overlapAt tf1 bv2 bv) fuel g t q approx r

/-- `BVHShapeCollider::collide`, collision_func_matrix-inl.h 315-369, which is used for AABB and KDOP: the mesh is copied, its
vertices moved and the hierarchy built anew, 136-179; `g` is the moved mesh, `t` its hierarchy. `BVTesting`,
bvh_shape_collision_traversal_node-inl.h 86-93, calls `bv.overlap(model2_bv)`. (`initialize` leaves out the move when
`tf1.matrix().isIdentity()`, which holds for poses up to `1e-12` off the identity; the model moves always.) -/
noncomputable def rebuiltShapeCollide (overlap : V → V → Bool) (fuel : ℕ) (g : Geom ℝ) (t : BT V ℕ) (bv2 : V) (M : ShapeMesh)
    (q : MeshRequest) (approx : Option (Option (CostSource ℝ))) (r : CollResult MSContact ℝ) : QueryOutcome (CollResult MSContact ℝ) :=
  bvhShapeCollide (meshShapeLeaf M) (fun bv => overlap bv bv2) fuel g t q approx r

end

/-! ### The shapes that have triangle tests of their own -/

/-- A half-space and a mesh with oriented volumes at `tf1`: the leaf test calls `shapeTriangleIntersect(model2, tf2, p1, p2, p3,
tf1, ...)`, which for a half-space is `halfspaceTriangleIntersect` (gjk_solver_libccd-inl.h 501-521, gjk_solver_indep-inl.h
548-568). Its answer does not depend on the places for the contact. The contacts point to the caller's mesh `n`. -/
noncomputable def halfspaceMesh (ptr : MeshPtr) (nor : V3 ℝ) (d : ℝ) (tf2 : Pose ℝ) (g : Geom ℝ) (tf1 : Pose ℝ) (occupied free1 free2 : Bool)
    (cost : ℕ → CostSource ℝ) : ShapeMesh where
  ptr := ptr
  test _ i := Flat.halfspaceTriangle nor d tf2 (g.tri i).a (g.tri i).b (g.tri i).c tf1
  occupied := occupied
  free1 := free1
  free2 := free2
  cost := cost

/-- A plane and a mesh with oriented volumes at `tf1`: `planeTriangleIntersect` (gjk_solver_libccd-inl.h 523-543,
gjk_solver_indep-inl.h 570-590). -/
noncomputable def planeMesh (ptr : MeshPtr) (nor : V3 ℝ) (d : ℝ) (tf2 : Pose ℝ) (g : Geom ℝ) (tf1 : Pose ℝ) (occupied free1 free2 : Bool)
    (cost : ℕ → CostSource ℝ) : ShapeMesh where
  ptr := ptr
  test _ i := Flat.planeTriangle nor d tf2 (g.tri i).a (g.tri i).b (g.tri i).c tf1
  occupied := occupied
  free1 := free1
  free2 := free2
  cost := cost

/-- A sphere and a mesh: `sphereTriangleIntersect`, for oriented volumes on the corners moved by `tf1` (gjk_solver_libccd-inl.h
479-499, gjk_solver_indep-inl.h 526-546); for the others `g` is the moved mesh and the corners are used as they are
(gjk_solver_libccd-inl.h 402-420; with `tf1 = Pose.id` here). `eps` is the machine epsilon. -/
noncomputable def sphereMesh (ptr : MeshPtr) (eps rad : ℝ) (tf2 : Pose ℝ) (g : Geom ℝ) (tf1 : Pose ℝ) (occupied free1 free2 : Bool)
    (cost : ℕ → CostSource ℝ) : ShapeMesh where
  ptr := ptr
  test _ i := Prim.sphereTriangleIntersect eps rad tf2 (tf1.apply (g.tri i).a) (tf1.apply (g.tri i).b) (tf1.apply (g.tri i).c)
  occupied := occupied
  free1 := free1
  free2 := free2
  cost := cost

end Fcl
