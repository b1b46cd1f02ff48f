import Verif.Octree.Cell
import Verif.Geom.ConvertBV
import Verif.Geom.ComputeBV
import Verif.Geom.QuerySpec
import Verif.Geom.Primitive
import Verif.Flat.Model
import Verif.BVH.Mesh

/-!
# Collision and distance of octrees
(`include/fcl/narrowphase/detail/traversal/octree/octree_solver-inl.h`)

The queries of an octree against a shape, against a mesh and against a second octree. The tests of two primitives, which
come from the narrow phase solver, are parameters.
-/

namespace Fcl
namespace Octree
open ConvertBV ConstructBox Prim Flat

/-- The nodes of the octomap tree that `OcTree<S>` wraps. `null` is the missing child or the root of an empty tree; `v` is
`getLogOdds()`. `nodeHasChildren` is true for `inner` and false for `leaf`; `nodeChildExists` is `child i ≠ null`. -/
inductive Node
  | null
  | leaf (v : ℝ)
  | inner (v : ℝ) (child : Fin 8 → Node)

/-- Whether the pointer is not null. -/
def Node.here : Node → Bool
  | .null => false
  | _ => true

/-- `OcTree<S>`, octree.h 57-80: tree, depth, resolution and thresholds. -/
structure Tree where
  root : Node
  depth : ℕ
  resolution : ℝ
  thr : Thresholds

/-- `getRootBV`. -/
noncomputable def Tree.bv (t : Tree) : AABB ℝ := rootBV t.depth t.resolution

noncomputable instance (t : Thresholds) (v : ℝ) : Decidable (t.isOccupied v) := inferInstanceAs (Decidable (v ≥ t.occ))
noncomputable instance (t : Thresholds) (v : ℝ) : Decidable (t.isFree v) := inferInstanceAs (Decidable (v ≤ t.free))
noncomputable instance (t : Thresholds) (v : ℝ) : Decidable (t.isUncertain v) := inferInstanceAs (Decidable (_ ∧ _))

/-- The way from the root to a node. The code identifies a node by the difference of the pointers to it and to the root. -/
abbrev Path := List (Fin 8)

/-- A box as `constructBox` gives it: sides and pose. -/
abbrev PBox := V3 ℝ × Pose ℝ

/-- `Contact<S>`: the two objects, the node of the octree, what identifies the primitive of the other object, and the
point, normal and depth if asked for. -/
structure OContact (I : Type*) where
  o1 : ℕ
  o2 : ℕ
  b1 : Path
  b2 : I
  point : Option CPoint

/-- The result of a collision query. -/
abbrev OResult (I : Type*) := CollResult (OContact I) ℝ

/-- The loops over the eight children, with `if(…) return true;` in the body. -/
def until' {ι R : Type*} (f : ι → R → R × Bool) : List ι → R → R × Bool
  | [], r => (r, false)
  | i :: l, r => if (f i r).2 then ((f i r).1, true) else until' f l (f i r).1

/-- The indices of the children in the order of the loops. -/
def eight : List (Fin 8) := List.finRange 8

/-- `cresult->addContact(Contact(tree1, …))` if there is space left: 375-379, 645-649, 658-662. -/
def addOne {I : Type*} (q : MeshRequest) (c : OContact I) (r : OResult I) : OResult I :=
  if r.numContacts < q.req.numMax then r.addContact c else r

/-- The contact points of a pair of primitives are added: 388-406 and 969-987. `pick k` is the effect of
`std::partial_sort`: the `k` first elements. -/
def addPoints {I : Type*} (pick : ℕ → List CPoint → List CPoint) (q : MeshRequest) (o1 o2 : ℕ) (b1 : Path) (b2 : I)
    (cs : List CPoint) (r : OResult I) : OResult I :=
  if q.req.numMax > r.numContacts then
    let free := q.req.numMax - r.numContacts
    let adding := if free < cs.length then pick free cs else cs
    adding.foldl (fun r c => r.addContact ⟨o1, o2, b1, b2, some c⟩) r
  else r

/-! ### Octree and shape -/

/-- What the queries use of the shape: `obb2` and `aabb2` of 193-196 and 242-243, the answers of the solver's
`shapeIntersect(box, box_tf, s, tf2, …)` without and with contacts (`none` is false) and of `shapeDistance`, `isOccupied`,
`isFree`, and the cost source of a box. -/
structure ShapeSide where
  obb : OBB ℝ
  aabb : AABB ℝ
  hit : PBox → Bool
  hitC : PBox → Option (List CPoint)
  dist : PBox → ℝ × V3 ℝ × V3 ℝ
  occupied : Bool
  free : Bool
  cost : PBox → CostSource ℝ

/-- `isUncertain`, collision_geometry-inl.h 114-117. -/
def ShapeSide.uncertain (s : ShapeSide) : Bool := !s.occupied && !s.free

/-- The contacts of an occupied cell: 371-408. The second component is `is_intersect`. -/
def shapeContacts (pick : ℕ → List CPoint → List CPoint) (q : MeshRequest) (s : ShapeSide) (o1 o2 : ℕ) (b : PBox) (p : Path)
    (r : OResult Unit) : OResult Unit × Bool :=
  if !q.enableContact then
    if s.hit b then (addOne q ⟨o1, o2, p, (), none⟩ r, true) else (r, false)
  else
    match s.hitC b with
    | none => (r, false)
    | some cs => (addPoints pick q o1 o2 p () cs r, true)

/-- The contacts of a solver's function that is called with an empty list. -/
def givenContacts (o : HitOut) : Option (List CPoint) := if o.1 then some (o.2.getD []) else none

/-- A sphere at `tf2` and boxes, with the functions of gjk_solver_indep-inl.h 224-240 and 254 for the intersection, with
`flipNormal`, contact_point-inl.h 86-91, and 730-744 for the distance. -/
noncomputable def sphereSide (eps big r : ℝ) (tf2 : Pose ℝ) (occupied free : Bool) (cost : PBox → CostSource ℝ) : ShapeSide where
  obb := aabbOBB (ComputeBV.aabb big (.sphere r) Pose.id) tf2
  aabb := ComputeBV.aabb big (.sphere r) tf2
  hit b := (sphereBoxIntersect eps r tf2 b.1 b.2 none).1
  hitC b := (givenContacts (sphereBoxIntersect eps r tf2 b.1 b.2 (some []))).map fun l => l.map fun c => { c with normal := (-1 : ℝ) • c.normal }
  dist b :=
    let o := sphereBoxDistance r tf2 b.1 b.2
    (o.dist, (o.pts.map Prod.swap).getD (⟨0, 0, 0⟩, ⟨0, 0, 0⟩))
  occupied := occupied
  free := free
  cost := cost

/-- A half-space at `tf2` and boxes: gjk_solver_indep-inl.h 208-222 and 260. The distance is not given by a function of its own. -/
noncomputable def halfspaceSide (tol big : ℝ) (n : V3 ℝ) (d : ℝ) (tf2 : Pose ℝ) (dist : PBox → ℝ × V3 ℝ × V3 ℝ) (occupied free : Bool)
    (cost : PBox → CostSource ℝ) : ShapeSide where
  obb := aabbOBB (ComputeBV.aabb big (.halfspace n d) Pose.id) tf2
  aabb := ComputeBV.aabb big (.halfspace n d) tf2
  hit b := (boxHalfspace tol b.1 b.2 n d tf2 none).1
  hitC b := givenContacts (boxHalfspace tol b.1 b.2 n d tf2 (some []))
  dist := dist
  occupied := occupied
  free := free
  cost := cost

/-- `OcTreeShapeIntersectRecurse`, 330-481. In 410-416 and 422-441 the cost of a cell is computed and thrown away: nothing
is added to the result. -/
noncomputable def shapeIntersect (thr : Thresholds) (pick : ℕ → List CPoint → List CPoint) (q : MeshRequest) (s : ShapeSide) (o1 o2 : ℕ)
    (tf1 : Pose ℝ) : Node → AABB ℝ → Path → OResult Unit → OResult Unit × Bool
  | .null, b, _, r =>
    if (aabbOBB b tf1).overlap s.obb && s.hit (aabbAt b tf1) then (r.addCostSource (s.cost (aabbAt b tf1)) q.numMaxCost, false)
    else (r, false)
  | .leaf v, b, p, r =>
    if thr.isOccupied v ∧ s.occupied then
      if (aabbOBB b tf1).overlap s.obb then
        let r' := (shapeContacts pick q s o1 o2 (aabbAt b tf1) p r).1
        (r', q.req.isSatisfied r')
      else (r, false)
    else (r, false)
  | .inner v c, b, p, r =>
    if thr.isFree v ∨ s.free then (r, false)
    else if (thr.isUncertain v ∨ s.uncertain) ∧ !q.req.enableCost then (r, false)
    else if !(aabbOBB b tf1).overlap s.obb then (r, false)
    else
      until' (fun i r =>
        if (c i).here || (!s.free && q.req.enableCost) then
          shapeIntersect thr pick q s o1 o2 tf1 (c i) (childBV b i) (p ++ [i]) r
        else (r, false)) eight r

/-- The fields of a shape at a pose that the queries compute themselves: 193-196. -/
noncomputable def shapeOBB (big : ℝ) (g : Geo ℝ) (tf2 : Pose ℝ) : OBB ℝ := aabbOBB (ComputeBV.aabb big g Pose.id) tf2

/-- `OcTreeShapeCollide`, collision_func_matrix-inl.h 119-142, with `OcTreeShapeIntersect`, 180-201, for the octree `o1` and
the shape `o2`. -/
noncomputable def shapeCollide (pick : ℕ → List CPoint → List CPoint) (q : MeshRequest) (t : Tree) (s : ShapeSide) (tf1 : Pose ℝ)
    (o1 o2 : ℕ) (r : OResult Unit) : OResult Unit :=
  if q.req.isSatisfied r then r else (shapeIntersect t.thr pick q s o1 o2 tf1 t.root t.bv [] r).1

/-- `ShapeOcTreeCollide`, collision_func_matrix-inl.h 93-116, which calls `OcTreeShapeIntersect(model2, *model1, tf2, tf1, …)`,
shape_octree_collision_traversal_node-inl.h 69-75: the shape is `o1`, the octree `o2`, at the pose `tf2`. -/
noncomputable def collideShape (pick : ℕ → List CPoint → List CPoint) (q : MeshRequest) (s : ShapeSide) (t : Tree) (tf2 : Pose ℝ)
    (o1 o2 : ℕ) (r : OResult Unit) : OResult Unit :=
  if q.req.isSatisfied r then r else (shapeIntersect t.thr pick q s o2 o1 tf2 t.root t.bv [] r).1

/-! ### Distances -/

/-- `DistanceResult<S>` with the node in place of `b1` and `b2`. -/
structure OBest (I : Type*) where
  o1 : ℕ
  o2 : ℕ
  b1 : Path
  b2 : I
  nearest : V3 ℝ × V3 ℝ

/-- `min_distance` and what belongs to it, `none` before the first update. -/
structure ODist (I : Type*) where
  minDist : ℝ
  best : Option (OBest I)

/-- `update`, distance_result-inl.h 83-104. -/
noncomputable def ODist.update {I : Type*} (r : ODist I) (d : ℝ) (b : OBest I) : ODist I :=
  if r.minDist > d then ⟨d, some b⟩ else r

/-- `DistanceRequest::isSatisfied`, distance_request-inl.h 73-77. -/
noncomputable def ODist.isSatisfied {I : Type*} (r : ODist I) : Bool := decide (r.minDist ≤ 0)

/-- `OcTreeShapeDistanceRecurse`, 272-324. It is not called with a null pointer below the root. -/
noncomputable def shapeDistRec (thr : Thresholds) (s : ShapeSide) (o1 o2 : ℕ) (tf1 : Pose ℝ) :
    Node → AABB ℝ → Path → ODist Unit → ODist Unit × Bool
  | .null, _, _, r => (r, false)
  | .leaf v, b, p, r =>
    if thr.isOccupied v then
      let x := s.dist (aabbAt b tf1)
      let r' := r.update x.1 ⟨o1, o2, p, (), x.2⟩
      (r', r'.isSatisfied)
    else (r, false)
  | .inner v c, b, p, r =>
    if ¬ thr.isOccupied v then (r, false)
    else
      until' (fun i r =>
        if (c i).here then
          if (aabbAABB (childBV b i) tf1).distance s.aabb < r.minDist then
            shapeDistRec thr s o1 o2 tf1 (c i) (childBV b i) (p ++ [i]) r
          else (r, false)
        else (r, false)) eight r

/-- `OcTreeShapeDistance`, distance_func_matrix-inl.h 110-131, with `OcTreeShapeDistance`, 229-248. `none`: the root of an
empty tree is a null pointer, which line 278 dereferences. -/
noncomputable def shapeDistance (t : Tree) (s : ShapeSide) (tf1 : Pose ℝ) (o1 o2 : ℕ) (r : ODist Unit) : Option (ODist Unit) :=
  if r.isSatisfied then some r
  else if t.root.here then some (shapeDistRec t.thr s o1 o2 tf1 t.root t.bv [] r).1
  else none

/-! ### Octree and mesh -/

/-- What the queries use of the mesh at its pose: the conversions of a volume to an OBB and an AABB at the pose of the mesh,
`bv1.size() > bv2.size()`, the answers of `shapeTriangleIntersect(box, box_tf, p1, p2, p3, tf2, …)` without and with contact
and of `shapeTriangleDistance` for a primitive, `isOccupied`, `isFree` and the cost source of a box and a triangle. The last
component of `cost` is the factor `tree1->getOccupancyThres()` or `root1->getOccupancy()`. -/
structure MeshSide (V : Type*) where
  toOBB : V → OBB ℝ
  toAABB : V → AABB ℝ
  larger : AABB ℝ → V → Bool
  hit : PBox → ℕ → Bool
  hitC : PBox → ℕ → Option CPoint
  dist : PBox → ℕ → ℝ × V3 ℝ × V3 ℝ
  occupied : Bool
  free : Bool
  cost : PBox → ℕ → ℝ → CostSource ℝ

/-- `isUncertain`. -/
def MeshSide.uncertain {V : Type*} (m : MeshSide V) : Bool := !m.occupied && !m.free

/-- octomap's `probability(logodds)`: `1 - 1 / (1 + exp(logodds))`. -/
noncomputable def probability (v : ℝ) : ℝ := 1 - 1 / (1 + Real.exp v)

section
variable {V : Type*}

/-- `OcTreeMeshIntersectRecurse` without a node, 579-621: only costs. -/
noncomputable def meshNull (thr : Thresholds) (q : MeshRequest) (m : MeshSide V) (tf1 : Pose ℝ) (b : AABB ℝ) :
    BT V ℕ → OResult ℕ → OResult ℕ × Bool
  | .leaf w k, r =>
    if (aabbOBB b tf1).overlap (m.toOBB w) && m.hit (aabbAt b tf1) k then
      (r.addCostSource (m.cost (aabbAt b tf1) k (probability thr.occ)) q.numMaxCost, false)
    else (r, false)
  | .node _ x y, r =>
    if (meshNull thr q m tf1 b x r).2 then ((meshNull thr q m tf1 b x r).1, true)
    else meshNull thr q m tf1 b y (meshNull thr q m tf1 b x r).1

/-- The contacts of an occupied cell and a triangle: 641-663. -/
def meshCellContacts (q : MeshRequest) (m : MeshSide V) (o1 o2 : ℕ) (b : PBox) (p : Path) (k : ℕ) (r : OResult ℕ) : OResult ℕ × Bool :=
  if !q.enableContact then
    if m.hit b k then (addOne q ⟨o1, o2, p, k, none⟩ r, true) else (r, false)
  else
    match m.hitC b k with
    | none => (r, false)
    | some c => (addOne q ⟨o1, o2, p, k, some c⟩ r, true)

/-- A leaf of the octree and a leaf of the hierarchy: 622-712. -/
noncomputable def meshLeafLeaf (thr : Thresholds) (q : MeshRequest) (m : MeshSide V) (o1 o2 : ℕ) (tf1 : Pose ℝ) (v : ℝ) (b : AABB ℝ) (p : Path)
    (w : V) (k : ℕ) (r : OResult ℕ) : OResult ℕ × Bool :=
  let box := aabbAt b tf1
  if thr.isOccupied v ∧ m.occupied then
    if (aabbOBB b tf1).overlap (m.toOBB w) then
      let x := meshCellContacts q m o1 o2 box p k r
      let r' := if x.2 && q.req.enableCost then x.1.addCostSource (m.cost box k (probability v)) q.numMaxCost else x.1
      (r', q.req.isSatisfied r')
    else (r, false)
  else if ¬ thr.isFree v ∧ !m.free ∧ q.req.enableCost then
    if (aabbOBB b tf1).overlap (m.toOBB w) && m.hit box k then
      (r.addCostSource (m.cost box k (probability v)) q.numMaxCost, false)
    else (r, false)
  else (r, false)

/-- The tests before a descent, 714-725: whether to stop. -/
noncomputable def meshStop (thr : Thresholds) (q : MeshRequest) (m : MeshSide V) (tf1 : Pose ℝ) (v : ℝ) (b : AABB ℝ) (w : V) : Prop :=
  thr.isFree v ∨ m.free ∨ ((thr.isUncertain v ∨ m.uncertain) ∧ !q.req.enableCost) ∨ (aabbOBB b tf1).overlap (m.toOBB w) = false

noncomputable instance (thr : Thresholds) (q : MeshRequest) (m : MeshSide V) (tf1 : Pose ℝ) (v : ℝ) (b : AABB ℝ) (w : V) :
    Decidable (meshStop thr q m tf1 v b w) := by unfold meshStop; infer_instance

/-- `OcTreeMeshIntersectRecurse` on a leaf of the octree, 573-761, by recursion over the hierarchy. -/
noncomputable def meshLeafRec (thr : Thresholds) (q : MeshRequest) (m : MeshSide V) (o1 o2 : ℕ) (tf1 : Pose ℝ) (v : ℝ) (b : AABB ℝ) (p : Path) :
    BT V ℕ → OResult ℕ → OResult ℕ × Bool
  | .leaf w k, r => meshLeafLeaf thr q m o1 o2 tf1 v b p w k r
  | .node w x y, r =>
    if meshStop thr q m tf1 v b w then (r, false)
    else if (meshLeafRec thr q m o1 o2 tf1 v b p x r).2 then ((meshLeafRec thr q m o1 o2 tf1 v b p x r).1, true)
    else meshLeafRec thr q m o1 o2 tf1 v b p y (meshLeafRec thr q m o1 o2 tf1 v b p x r).1

/-- The same on an inner node of the octree. `kids i` is the function on the child `i`: a node if it exists, otherwise the
null pointer, which is passed on only if costs are asked for. -/
noncomputable def meshInnerRec (thr : Thresholds) (q : MeshRequest) (m : MeshSide V) (tf1 : Pose ℝ) (v : ℝ) (b : AABB ℝ)
    (here : Fin 8 → Bool) (kids : Fin 8 → BT V ℕ → OResult ℕ → OResult ℕ × Bool) : BT V ℕ → OResult ℕ → OResult ℕ × Bool
  | .leaf w k, r =>
    if meshStop thr q m tf1 v b w then (r, false)
    else until' (fun i r => if here i || (!m.free && q.req.enableCost) then kids i (.leaf w k) r else (r, false)) eight r
  | .node w x y, r =>
    if meshStop thr q m tf1 v b w then (r, false)
    else if m.larger b w then
      until' (fun i r => if here i || (!m.free && q.req.enableCost) then kids i (.node w x y) r else (r, false)) eight r
    else if (meshInnerRec thr q m tf1 v b here kids x r).2 then ((meshInnerRec thr q m tf1 v b here kids x r).1, true)
    else meshInnerRec thr q m tf1 v b here kids y (meshInnerRec thr q m tf1 v b here kids x r).1

/-- `OcTreeMeshIntersectRecurse`, 573-761. -/
noncomputable def meshIntersect (thr : Thresholds) (q : MeshRequest) (m : MeshSide V) (o1 o2 : ℕ) (tf1 : Pose ℝ) :
    Node → AABB ℝ → Path → BT V ℕ → OResult ℕ → OResult ℕ × Bool
  | .null, b, _ => meshNull thr q m tf1 b
  | .leaf v, b, p => meshLeafRec thr q m o1 o2 tf1 v b p
  | .inner v c, b, p => meshInnerRec thr q m tf1 v b (fun i => (c i).here)
      (fun i => meshIntersect thr q m o1 o2 tf1 (c i) (childBV b i) (p ++ [i]))

/-- `OcTreeBVHCollide`, collision_func_matrix-inl.h 171-221, without approximate costs, with `OcTreeMeshIntersect`, 101-117. -/
noncomputable def octreeMeshCollide (q : MeshRequest) (t : Tree) (h : BT V ℕ) (m : MeshSide V) (tf1 : Pose ℝ) (o1 o2 : ℕ) (r : OResult ℕ) : OResult ℕ :=
  if q.req.isSatisfied r then r else (meshIntersect t.thr q m o1 o2 tf1 t.root t.bv [] h r).1

/-- `OcTreeMeshDistanceRecurse` on two leaves: 491-515. -/
noncomputable def meshDistLeaf (thr : Thresholds) (m : MeshSide V) (o1 o2 : ℕ) (tf1 : Pose ℝ) (v : ℝ) (b : AABB ℝ) (p : Path) (k : ℕ)
    (r : ODist ℕ) : ODist ℕ × Bool :=
  if thr.isOccupied v then
    let x := m.dist (aabbAt b tf1) k
    let r' := r.update x.1 ⟨o1, o2, p, k, x.2⟩
    (r', r'.isSatisfied)
  else (r, false)

/-- Descending in the hierarchy, 545-567: one child. -/
noncomputable def meshDistGo (m : MeshSide V) (tf1 : Pose ℝ) (b : AABB ℝ) (w : V) (f : ODist ℕ → ODist ℕ × Bool) (r : ODist ℕ) :
    ODist ℕ × Bool :=
  if (aabbAABB b tf1).distance (m.toAABB w) < r.minDist then f r else (r, false)

/-- `OcTreeMeshDistanceRecurse` on a leaf of the octree. -/
noncomputable def meshDistLeafRec (thr : Thresholds) (m : MeshSide V) (o1 o2 : ℕ) (tf1 : Pose ℝ) (v : ℝ) (b : AABB ℝ) (p : Path) :
    BT V ℕ → ODist ℕ → ODist ℕ × Bool
  | .leaf _ k, r => meshDistLeaf thr m o1 o2 tf1 v b p k r
  | .node _ x y, r =>
    if ¬ thr.isOccupied v then (r, false)
    else if (meshDistGo m tf1 b x.bv (meshDistLeafRec thr m o1 o2 tf1 v b p x) r).2 then
      ((meshDistGo m tf1 b x.bv (meshDistLeafRec thr m o1 o2 tf1 v b p x) r).1, true)
    else meshDistGo m tf1 b y.bv (meshDistLeafRec thr m o1 o2 tf1 v b p y) (meshDistGo m tf1 b x.bv (meshDistLeafRec thr m o1 o2 tf1 v b p x) r).1

/-- The loop over the children of the node of the octree, 521-541. -/
noncomputable def meshDistKids (m : MeshSide V) (tf1 : Pose ℝ) (b : AABB ℝ) (here : Fin 8 → Bool)
    (kids : Fin 8 → BT V ℕ → ODist ℕ → ODist ℕ × Bool) (h : BT V ℕ) (r : ODist ℕ) : ODist ℕ × Bool :=
  until' (fun i r =>
    if here i then
      if (aabbAABB (childBV b i) tf1).distance (m.toAABB h.bv) < r.minDist then kids i h r else (r, false)
    else (r, false)) eight r

/-- `OcTreeMeshDistanceRecurse` on an inner node of the octree. -/
noncomputable def meshDistInnerRec (thr : Thresholds) (m : MeshSide V) (tf1 : Pose ℝ) (v : ℝ) (b : AABB ℝ)
    (here : Fin 8 → Bool) (kids : Fin 8 → BT V ℕ → ODist ℕ → ODist ℕ × Bool) : BT V ℕ → ODist ℕ → ODist ℕ × Bool
  | .leaf w k, r => if ¬ thr.isOccupied v then (r, false) else meshDistKids m tf1 b here kids (.leaf w k) r
  | .node w x y, r =>
    if ¬ thr.isOccupied v then (r, false)
    else if m.larger b w then meshDistKids m tf1 b here kids (.node w x y) r
    else if (meshDistGo m tf1 b x.bv (meshDistInnerRec thr m tf1 v b here kids x) r).2 then
      ((meshDistGo m tf1 b x.bv (meshDistInnerRec thr m tf1 v b here kids x) r).1, true)
    else meshDistGo m tf1 b y.bv (meshDistInnerRec thr m tf1 v b here kids y)
      (meshDistGo m tf1 b x.bv (meshDistInnerRec thr m tf1 v b here kids x) r).1

/-- `OcTreeMeshDistanceRecurse`, 485-571. It is not called with a null pointer below the root. -/
noncomputable def meshDistRec (thr : Thresholds) (m : MeshSide V) (o1 o2 : ℕ) (tf1 : Pose ℝ) :
    Node → AABB ℝ → Path → BT V ℕ → ODist ℕ → ODist ℕ × Bool
  | .null, _, _ => fun _ r => (r, false)
  | .leaf v, b, p => meshDistLeafRec thr m o1 o2 tf1 v b p
  | .inner v c, b, p => meshDistInnerRec thr m tf1 v b (fun i => (c i).here)
      (fun i => meshDistRec thr m o1 o2 tf1 (c i) (childBV b i) (p ++ [i]))

/-- `OcTreeBVHDistance`, distance_func_matrix-inl.h 183-205, with `OcTreeMeshDistance`, 120-136. `none`: as for
`shapeDistance`, line 491. -/
noncomputable def octreeMeshDistance (t : Tree) (h : BT V ℕ) (m : MeshSide V) (tf1 : Pose ℝ) (o1 o2 : ℕ) (r : ODist ℕ) : Option (ODist ℕ) :=
  if r.isSatisfied then some r
  else if t.root.here then some (meshDistRec t.thr m o1 o2 tf1 t.root t.bv [] h r).1
  else none

end

/-! ### Two octrees -/

/-- What the queries of two octrees use besides them: `shapeIntersect` and `shapeDistance` on two boxes,
`bv1.size() > bv2.size()` and the cost source of two boxes with the product of two occupancies. -/
structure PairSide where
  hitC : PBox → PBox → Option (List CPoint)
  dist : PBox → PBox → ℝ × V3 ℝ × V3 ℝ
  larger : AABB ℝ → AABB ℝ → Bool
  cost : PBox → PBox → ℝ → CostSource ℝ

/-- The parts of the two-octree queries that do not change during a traversal. -/
structure PairEnv where
  thr1 : Thresholds
  thr2 : Thresholds
  tf1 : Pose ℝ
  tf2 : Pose ℝ
  o1 : ℕ
  o2 : ℕ
  side : PairSide

namespace PairEnv

/-- `obb1.overlap(obb2)` of two cells. -/
noncomputable def overlap (e : PairEnv) (b1 b2 : AABB ℝ) : Bool := (aabbOBB b1 e.tf1).overlap (aabbOBB b2 e.tf2)

/-- Adding the cost of two cells. -/
noncomputable def addCost (e : PairEnv) (q : MeshRequest) (b1 b2 : AABB ℝ) (x : ℝ) (r : OResult Path) : OResult Path :=
  r.addCostSource (e.side.cost (aabbAt b1 e.tf1) (aabbAt b2 e.tf2) x) q.numMaxCost

/-- Two null pointers: 854-876. -/
noncomputable def nullNull (e : PairEnv) (q : MeshRequest) (b1 b2 : AABB ℝ) (r : OResult Path) : OResult Path × Bool :=
  if e.overlap b1 b2 then (e.addCost q b1 b2 (probability e.thr1.occ * probability e.thr2.occ) r, false) else (r, false)

/-- Null and a node: 877-907. -/
noncomputable def nullLeft (e : PairEnv) (q : MeshRequest) (b1 : AABB ℝ) : Node → AABB ℝ → OResult Path → OResult Path × Bool
  | .null, b2, r => e.nullNull q b1 b2 r
  | .leaf _, b2, r => e.nullNull q b1 b2 r
  | .inner _ c, b2, r => until' (fun i r => nullLeft e q b1 (c i) (childBV b2 i) r) eight r

/-- A node and null: 908-938. -/
noncomputable def nullRight (e : PairEnv) (q : MeshRequest) (b2 : AABB ℝ) : Node → AABB ℝ → OResult Path → OResult Path × Bool
  | .null, b1, r => e.nullNull q b1 b2 r
  | .leaf _, b1, r => e.nullNull q b1 b2 r
  | .inner _ c, b1, r => until' (fun i r => nullRight e q b2 (c i) (childBV b1 i) r) eight r

/-- The contacts of two occupied leaves: 943-988. Without contacts the answer is that of the test of the oriented boxes. -/
noncomputable def contacts (e : PairEnv) (pick : ℕ → List CPoint → List CPoint) (q : MeshRequest) (b1 : AABB ℝ) (p1 : Path)
    (b2 : AABB ℝ) (p2 : Path) (r : OResult Path) : OResult Path × Bool :=
  if !q.enableContact then
    if e.overlap b1 b2 then (addOne q ⟨e.o1, e.o2, p1, p2, none⟩ r, true) else (r, false)
  else
    match e.side.hitC (aabbAt b1 e.tf1) (aabbAt b2 e.tf2) with
    | none => (r, false)
    | some cs => (addPoints pick q e.o1 e.o2 p1 p2 cs r, true)

/-- Two leaves: 939-1032. -/
noncomputable def leafLeaf (e : PairEnv) (pick : ℕ → List CPoint → List CPoint) (q : MeshRequest) (v1 : ℝ) (b1 : AABB ℝ) (p1 : Path)
    (v2 : ℝ) (b2 : AABB ℝ) (p2 : Path) (r : OResult Path) : OResult Path × Bool :=
  if e.thr1.isOccupied v1 ∧ e.thr2.isOccupied v2 then
    let x := e.contacts pick q b1 p1 b2 p2 r
    let r' := if x.2 && q.req.enableCost then e.addCost q b1 b2 (probability v1 * probability v2) x.1 else x.1
    (r', q.req.isSatisfied r')
  else if ¬ e.thr1.isFree v1 ∧ ¬ e.thr2.isFree v2 ∧ q.req.enableCost then
    if e.overlap b1 b2 then (e.addCost q b1 b2 (probability v1 * probability v2) r, false) else (r, false)
  else (r, false)

/-- The tests before a descent, 1034-1045: whether to stop. -/
noncomputable def stop (e : PairEnv) (q : MeshRequest) (v1 : ℝ) (b1 : AABB ℝ) (v2 : ℝ) (b2 : AABB ℝ) : Prop :=
  e.thr1.isFree v1 ∨ e.thr2.isFree v2 ∨ ((e.thr1.isUncertain v1 ∨ e.thr2.isUncertain v2) ∧ !q.req.enableCost) ∨ e.overlap b1 b2 = false

noncomputable instance (e : PairEnv) (q : MeshRequest) (v1 : ℝ) (b1 : AABB ℝ) (v2 : ℝ) (b2 : AABB ℝ) : Decidable (e.stop q v1 b1 v2 b2) := by
  unfold stop; infer_instance

/-- `OcTreeIntersectRecurse` on a leaf of the first octree, by recursion over the second. -/
noncomputable def leafRec (e : PairEnv) (pick : ℕ → List CPoint → List CPoint) (q : MeshRequest) (v1 : ℝ) (b1 : AABB ℝ) (p1 : Path) :
    Node → AABB ℝ → Path → OResult Path → OResult Path × Bool
  | .null, b2, _, r => e.nullNull q b1 b2 r
  | .leaf v2, b2, p2, r => e.leafLeaf pick q v1 b1 p1 v2 b2 p2 r
  | .inner v2 c, b2, p2, r =>
    if e.stop q v1 b1 v2 b2 then (r, false)
    else until' (fun i r =>
      if (c i).here || (decide (¬ e.thr1.isFree v1) && q.req.enableCost) then leafRec e pick q v1 b1 p1 (c i) (childBV b2 i) (p2 ++ [i]) r
      else (r, false)) eight r

/-- The loop over the children of the node of the first octree: 1049-1072. -/
noncomputable def kids1 (e : PairEnv) (q : MeshRequest) (here : Fin 8 → Bool) (kids : Fin 8 → OResult Path → OResult Path × Bool) (v2 : ℝ)
    (r : OResult Path) : OResult Path × Bool :=
  until' (fun i r => if here i || (decide (¬ e.thr2.isFree v2) && q.req.enableCost) then kids i r else (r, false)) eight r

/-- The same on an inner node `.inner v1 c1` of the first octree. `kids i` is the function on its child `i`. -/
noncomputable def innerRec (e : PairEnv) (q : MeshRequest) (v1 : ℝ) (c1 : Fin 8 → Node) (b1 : AABB ℝ)
    (kids : Fin 8 → Node → AABB ℝ → Path → OResult Path → OResult Path × Bool) : Node → AABB ℝ → Path → OResult Path → OResult Path × Bool
  | .null, b2, _, r => e.nullRight q b2 (.inner v1 c1) b1 r
  | .leaf v2, b2, p2, r =>
    if e.stop q v1 b1 v2 b2 then (r, false)
    else e.kids1 q (fun i => (c1 i).here) (fun i => kids i (.leaf v2) b2 p2) v2 r
  | .inner v2 c, b2, p2, r =>
    if e.stop q v1 b1 v2 b2 then (r, false)
    else if e.side.larger b1 b2 then e.kids1 q (fun i => (c1 i).here) (fun i => kids i (.inner v2 c) b2 p2) v2 r
    else until' (fun i r =>
      if (c i).here || (decide (¬ e.thr1.isFree v1) && q.req.enableCost) then innerRec e q v1 c1 b1 kids (c i) (childBV b2 i) (p2 ++ [i]) r
      else (r, false)) eight r

/-- `OcTreeIntersectRecurse`, 850-1101. -/
noncomputable def intersect (e : PairEnv) (pick : ℕ → List CPoint → List CPoint) (q : MeshRequest) :
    Node → AABB ℝ → Path → Node → AABB ℝ → Path → OResult Path → OResult Path × Bool
  | .null, b1, _ => fun n2 b2 _ r => e.nullLeft q b1 n2 b2 r
  | .leaf v, b1, p1 => e.leafRec pick q v b1 p1
  | .inner v c, b1, p1 => e.innerRec q v c b1 (fun i => intersect e pick q (c i) (childBV b1 i) (p1 ++ [i]))

/-- Two leaves: 767-793. -/
noncomputable def distLeaf (e : PairEnv) (v1 : ℝ) (b1 : AABB ℝ) (p1 : Path) (v2 : ℝ) (b2 : AABB ℝ) (p2 : Path) (r : ODist Path) : ODist Path × Bool :=
  if e.thr1.isOccupied v1 ∧ e.thr2.isOccupied v2 then
    let x := e.side.dist (aabbAt b1 e.tf1) (aabbAt b2 e.tf2)
    let r' := r.update x.1 ⟨e.o1, e.o2, p1, p2, x.2⟩
    (r', r'.isSatisfied)
  else (r, false)

/-- `aabb1.distance(aabb2) < dresult->min_distance`, 807-813 and 832-838: the boxes are those of the two nodes, not of the
child. -/
noncomputable def near (e : PairEnv) (b1 b2 : AABB ℝ) (r : ODist Path) : Prop :=
  (aabbAABB b1 e.tf1).distance (aabbAABB b2 e.tf2) < r.minDist

noncomputable instance (e : PairEnv) (b1 b2 : AABB ℝ) (r : ODist Path) : Decidable (e.near b1 b2 r) := inferInstanceAs (Decidable (_ < _))

/-- `OcTreeDistanceRecurse` on a leaf of the first octree. -/
noncomputable def distLeafRec (e : PairEnv) (v1 : ℝ) (b1 : AABB ℝ) (p1 : Path) : Node → AABB ℝ → Path → ODist Path → ODist Path × Bool
  | .null, _, _, r => (r, false)
  | .leaf v2, b2, p2, r => e.distLeaf v1 b1 p1 v2 b2 p2 r
  | .inner v2 c, b2, p2, r =>
    if ¬ e.thr1.isOccupied v1 ∨ ¬ e.thr2.isOccupied v2 then (r, false)
    else until' (fun i r =>
      if (c i).here then if e.near b1 b2 r then distLeafRec e v1 b1 p1 (c i) (childBV b2 i) (p2 ++ [i]) r else (r, false)
      else (r, false)) eight r

/-- The loop over the children of the node of the first octree: 799-821. -/
noncomputable def distKids1 (e : PairEnv) (b1 b2 : AABB ℝ) (here : Fin 8 → Bool) (kids : Fin 8 → ODist Path → ODist Path × Bool)
    (r : ODist Path) : ODist Path × Bool :=
  until' (fun i r => if here i then if e.near b1 b2 r then kids i r else (r, false) else (r, false)) eight r

/-- The same on an inner node. -/
noncomputable def distInnerRec (e : PairEnv) (v1 : ℝ) (c1 : Fin 8 → Node) (b1 : AABB ℝ)
    (kids : Fin 8 → Node → AABB ℝ → Path → ODist Path → ODist Path × Bool) : Node → AABB ℝ → Path → ODist Path → ODist Path × Bool
  | .null, _, _, r => (r, false)
  | .leaf v2, b2, p2, r =>
    if ¬ e.thr1.isOccupied v1 ∨ ¬ e.thr2.isOccupied v2 then (r, false)
    else e.distKids1 b1 b2 (fun i => (c1 i).here) (fun i => kids i (.leaf v2) b2 p2) r
  | .inner v2 c, b2, p2, r =>
    if ¬ e.thr1.isOccupied v1 ∨ ¬ e.thr2.isOccupied v2 then (r, false)
    else if e.side.larger b1 b2 then e.distKids1 b1 b2 (fun i => (c1 i).here) (fun i => kids i (.inner v2 c) b2 p2) r
    else until' (fun i r =>
      if (c i).here then if e.near b1 b2 r then distInnerRec e v1 c1 b1 kids (c i) (childBV b2 i) (p2 ++ [i]) r else (r, false)
      else (r, false)) eight r

/-- `OcTreeDistanceRecurse`, 763-848. It is not called with a null pointer below the roots. -/
noncomputable def distRec (e : PairEnv) : Node → AABB ℝ → Path → Node → AABB ℝ → Path → ODist Path → ODist Path × Bool
  | .null, _, _ => fun _ _ _ r => (r, false)
  | .leaf v, b1, p1 => e.distLeafRec v b1 p1
  | .inner v c, b1, p1 => e.distInnerRec v c b1 (fun i => distRec e (c i) (childBV b1 i) (p1 ++ [i]))

end PairEnv

/-- What the queries know of two octrees at their poses. -/
noncomputable def pairEnv (t1 t2 : Tree) (tf1 tf2 : Pose ℝ) (s : PairSide) (o1 o2 : ℕ) : PairEnv := ⟨t1.thr, t2.thr, tf1, tf2, o1, o2, s⟩

/-- `OcTreeCollide`, collision_func_matrix-inl.h 145-168, with `OcTreeIntersect`, 64-80. -/
noncomputable def octreeCollide (pick : ℕ → List CPoint → List CPoint) (q : MeshRequest) (t1 t2 : Tree) (tf1 tf2 : Pose ℝ) (s : PairSide)
    (o1 o2 : ℕ) (r : OResult Path) : OResult Path :=
  if q.req.isSatisfied r then r
  else ((pairEnv t1 t2 tf1 tf2 s o1 o2).intersect pick q t1.root t1.bv [] t2.root t2.bv [] r).1

/-- `OcTreeDistance`, distance_func_matrix-inl.h 134-156, with `OcTreeDistance`, 82-98. `none`: line 767 dereferences the
root of each tree. -/
noncomputable def octreeDistance (t1 t2 : Tree) (tf1 tf2 : Pose ℝ) (s : PairSide) (o1 o2 : ℕ) (r : ODist Path) : Option (ODist Path) :=
  if r.isSatisfied then some r
  else if t1.root.here && t2.root.here then
    some ((pairEnv t1 t2 tf1 tf2 s o1 o2).distRec t1.root t1.bv [] t2.root t2.bv [] r).1
  else none

end Octree
end Fcl
