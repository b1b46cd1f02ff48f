import Verif.BVH.Model
import Verif.Narrow.Results
import Verif.KDOP.Model

/-!
# Models of meshes and point clouds, the fitter for AABBs and k-DOPs, and the mesh collision test
-/

namespace Fcl

/-- The vertex and triangle arrays of a `BVHModel` (geometry/bvh/BVH_model.h 60-75, 230-240); `prev` is
`prev_vertices`, null unless the model was updated. -/
structure Geom (K : Type*) where
  verts : List (V3 K)
  prev : Option (List (V3 K))
  tris : List (ℕ × ℕ × ℕ)
deriving DecidableEq

namespace Geom
variable {K : Type*}

/-- `getModelType() == BVH_MODEL_TRIANGLES`, BVH_model-inl.h 52-60, for a model with vertices. -/
def isMesh (g : Geom K) : Bool := !g.tris.isEmpty

/-- `num_primitives` in `buildTree`, BVH_model-inl.h 841-853. -/
def numPrims (g : Geom K) : ℕ := if g.isMesh then g.tris.length else g.verts.length

/-- The vertex indices of a primitive: those of the triangle, or the index itself (BV_fitter-inl.h 264-293). An index
out of range has none here; it is undefined behaviour in the code and excluded by `Geom.WF`. -/
def primIdx (g : Geom K) (p : ℕ) : List ℕ :=
  if g.isMesh then
    match g.tris[p]? with
    | some (a, b, c) => [a, b, c]
    | none => []
  else [p]

/-- The vertices of a primitive in the order they are added, the current ones followed by the previous ones. -/
def primVerts (g : Geom K) (p : ℕ) : List (V3 K) :=
  (g.primIdx p).filterMap (g.verts[·]?) ++
    match g.prev with
    | some old => (g.primIdx p).filterMap (old[·]?)
    | none => []

end Geom

/-- The operations of a bounding volume type used by the model: default constructor, `+=` with a point, `+`, and
`overlap`. -/
structure BVOps (V K : Type*) where
  empty : V
  add : V → V3 K → V
  merge : V → V → V
  overlap : V → V → Bool

/-- `AABB<S>`. -/
def aabbOps {K : Type*} [LinearOrder K] (big nbig : K) : BVOps (AABB K) K :=
  ⟨AABB.default big nbig, AABB.addPt, AABB.merge, AABB.overlap⟩

/-- `KDOP<S, N>`. -/
def kdopOps {K : Type*} [Field K] [LinearOrder K] (n : KDopN) (M : K) : BVOps (KDOP n K) K :=
  ⟨KDOP.default M, KDOP.addPoint, KDOP.merge, KDOP.overlap⟩

namespace BVOps
variable {V K : Type*}

/-- `FitImpl<S, BV>::run`, geometry/bvh/detail/BV_fitter-inl.h 256-298: the version for volumes that have no own. -/
def fit (o : BVOps V K) (g : Geom K) (l : List ℕ) : V := (l.flatMap g.primVerts).foldl o.add o.empty

/-- The fit of one primitive in `recursiveRefitTree_bottomup`, BVH_model-inl.h 976-1014, with `Fitter<S, BV>::fit`,
math/bv/utility-inl.h 544-552. For a mesh the vertices are added in the order `v1 v2 v3` of the previous vertices and
then of the current ones, 991-1002; the same for points, 984-988. -/
def leafFit (o : BVOps V K) (g : Geom K) (p : ℕ) : V :=
  ((match g.prev with
    | some old => (g.primIdx p).filterMap (old[·]?)
    | none => []) ++ (g.primIdx p).filterMap (g.verts[·]?)).foldl o.add o.empty

/-- The fitter together with a splitter. -/
def builder (o : BVOps V K) (g : Geom K) (right : V → List ℕ → ℕ → Bool) : Builder V := ⟨o.fit g, right⟩

end BVOps

/-- What `MeshCollisionTraversalNode` knows besides the trees. `hit p q` is the answer of
`Intersect::intersect_Triangle` on the triangles `p` and `q` without contact information, `hitC p q` the one with:
`none` for no intersection, otherwise the number of contacts it reports (narrowphase/detail/intersect.h). `occupied`
is `model1->isOccupied() && model2->isOccupied()`, `notFree` is `!model1->isFree() && !model2->isFree()`. `cost p q`
is the cost source of lines 173-175. -/
structure MeshPair (K : Type*) where
  hit : ℕ → ℕ → Bool
  hitC : ℕ → ℕ → Option ℕ
  occupied : Bool
  notFree : Bool
  cost : ℕ → ℕ → CostSource K

/-- The request of a mesh collision: `request.enable_contact` and `request.num_max_cost_sources` besides the fields
of `CollRequest`. -/
structure MeshRequest where
  req : CollRequest
  enableContact : Bool
  numMaxCost : ℕ

section
variable {K V : Type*} [LinearOrder K]

/-- The contacts added by one leaf test: the first part of `MeshCollisionTraversalNode::leafTesting`,
collision/mesh_collision_traversal_node-inl.h 146-178. A contact is represented by the two triangles. The second
component is `is_intersect`. -/
def meshContacts (M : MeshPair K) (q : MeshRequest) (r : CollResult (ℕ × ℕ) K) (a b : ℕ) :
    CollResult (ℕ × ℕ) K × Bool :=
  if !q.enableContact then
    if M.hit a b then
      (if r.numContacts < q.req.numMax then r.addContact (a, b) else r, true)
    else (r, false)
  else
    match M.hitC a b with
    | none => (r, false)
    | some n =>
      let n :=
        if q.req.numMax < n + r.numContacts then
          (if q.req.numMax ≥ r.numContacts then q.req.numMax - r.numContacts else 0)
        else n
      ((List.range n).foldl (fun r _ => r.addContact (a, b)) r, true)

/-- `MeshCollisionTraversalNode::leafTesting`, 126-198, on two primitives. -/
def meshLeaf (M : MeshPair K) (q : MeshRequest) (r : CollResult (ℕ × ℕ) K) (a b : ℕ) : CollResult (ℕ × ℕ) K :=
  if M.occupied then
    let x := meshContacts M q r a b
    if x.2 && q.req.enableCost then x.1.addCostSource (M.cost a b) q.numMaxCost else x.1
  else if M.notFree && q.req.enableCost then
    if M.hit a b then r.addCostSource (M.cost a b) q.numMaxCost else r
  else r

/-- `MeshCollisionTraversalNode`: `BVTesting` of collision/bvh_collision_traversal_node-inl.h 120-126, `leafTesting`
and `canStop`, mesh_collision_traversal_node-inl.h 202-205. The primitives are read from the leaves; `leafTesting` is
called on leaves only. -/
def meshNode (overlap : V → V → Bool) (M : MeshPair K) (q : MeshRequest) :
    ColNode (CollResult (ℕ × ℕ) K) (BT V ℕ) (BT V ℕ) where
  disjoint a b := !overlap a.bv b.bv
  leafTest r a b :=
    match a, b with
    | .leaf _ p, .leaf _ p' => meshLeaf M q r p p'
    | _, _ => r
  canStop r := q.req.isSatisfied r

end
end Fcl
