import Mathlib.Algebra.Order.Field.Basic
import Mathlib.Data.List.Perm.Basic

/-!
# Model of the traversal of bounding volume hierarchies
(include/fcl/narrowphase/detail/traversal/)

A node index into the array `bvs` of a `BVHModel` is represented by the subtree rooted there. How the array encodes
the tree, and that `endModel` produces such an array, is the subject of `Verif.BVH`.

The traversals recurse without a bound of their own. They carry a bound here, and the result is `none` when it is
reached: a traversal that does not end is one that gives `none` for every bound.
-/

namespace Fcl

/-- `BVNode<BV>`, geometry/bvh/BV_node_base.h 50-76, with the part of the tree below it. -/
inductive BT (V P : Type*) where
  | leaf (bv : V) (prim : P)
  | node (bv : V) (l r : BT V P)
deriving DecidableEq, Repr

namespace BT
variable {V P : Type*}

/-- `isLeaf`, src/geometry/bvh/BV_node_base.cpp 44-47. -/
def isLeaf : BT V P → Bool
  | .leaf .. => true
  | .node .. => false
/-- `leftChild`, 56-59. On a leaf the code returns a negative index; no theorem depends on the value chosen here. -/
def left : BT V P → BT V P
  | .leaf bv p => .leaf bv p
  | .node _ l _ => l
/-- `rightChild`, 62-65; as `left`. -/
def right : BT V P → BT V P
  | .leaf bv p => .leaf bv p
  | .node _ _ r => r
/-- The member `bv`. -/
def bv : BT V P → V
  | .leaf bv _ => bv
  | .node bv _ _ => bv

end BT

/-- The virtual functions of `TraversalNodeBase` that say how to walk the two trees (traversal_node_base.h). -/
structure Trav (A B : Type*) where
  leaf1 : A → Bool
  leaf2 : B → Bool
  fos : A → B → Bool
  left1 : A → A
  right1 : A → A
  left2 : B → B
  right2 : B → B

namespace Trav
variable {V P W Q : Type*}

/-- Two hierarchies: `BVHCollisionTraversalNode`, collision/bvh_collision_traversal_node-inl.h 64-117, and
`BVHDistanceTraversalNode`, distance/bvh_distance_traversal_node-inl.h 64-117. `larger` is the comparison
`sz1 > sz2` on lines 80-86. -/
def bvh (larger : V → W → Bool) : Trav (BT V P) (BT W Q) where
  leaf1 := BT.isLeaf
  leaf2 := BT.isLeaf
  fos a b := b.isLeaf || (!a.isLeaf && larger a.bv b.bv)
  left1 := BT.left
  right1 := BT.right
  left2 := BT.left
  right2 := BT.right

/-- A hierarchy and a shape: `BVHShapeCollisionTraversalNode`, collision/bvh_shape_collision_traversal_node-inl.h
66-83, and `BVHShapeDistanceTraversalNode`, distance/bvh_shape_distance_traversal_node-inl.h 66-83; the other
functions come from `TraversalNodeBase`, traversal_node_base-inl.h 87-130. -/
def bvhShape : Trav (BT V P) (BT W Q) where
  leaf1 := BT.isLeaf
  leaf2 _ := true
  fos _ _ := true
  left1 := BT.left
  right1 := BT.right
  left2 b := b
  right2 b := b

/-- A shape and a hierarchy, for collision: `ShapeBVHCollisionTraversalNode`,
collision/shape_bvh_collision_traversal_node-inl.h 66-90. -/
def shapeBvhCollision : Trav (BT V P) (BT W Q) where
  leaf1 _ := true
  leaf2 := BT.isLeaf
  fos _ _ := false
  left1 a := a
  right1 a := a
  left2 := BT.left
  right2 := BT.right

/-- A shape and a hierarchy, for distance: `ShapeBVHDistanceTraversalNode`,
distance/shape_bvh_distance_traversal_node-inl.h 66-83. Unlike the collision node it does not override
`firstOverSecond`, so that `TraversalNodeBase::firstOverSecond` (96-102) answers true. -/
def shapeBvhDistance : Trav (BT V P) (BT W Q) where
  leaf1 _ := true
  leaf2 := BT.isLeaf
  fos _ _ := true
  left1 a := a
  right1 a := a
  left2 := BT.left
  right2 := BT.right

end Trav

/-- `BVHFrontList*`: null or a list of pairs of nodes (geometry/bvh/detail/BVH_front.h 55-69). -/
abbrev Front (A B : Type*) := Option (List (A × B))

/-- `updateFrontList`, src/geometry/bvh/detail/BVH_front.cpp 54-57. -/
def Front.push {A B : Type*} (F : Front A B) (a : A) (b : B) : Front A B := F.map (· ++ [(a, b)])

/-- The virtual functions of `CollisionTraversalNodeBase` (collision_traversal_node_base.h). `BVTesting` answers
whether the two volumes are disjoint; the statistics counters are left out. `σ` is what `leafTesting` changes: the
collision result. -/
structure ColNode (σ A B : Type*) where
  disjoint : A → B → Bool
  leafTest : σ → A → B → σ
  canStop : σ → Bool

section collision
variable {σ A B : Type*} (N : ColNode σ A B) (T : Trav A B)

/-- `collisionRecurse(node, b1, b2, front_list)`, traversal_recurse-inl.h 84-129. -/
def collisionRecurse : ℕ → A → B → σ × Front A B → Option (σ × Front A B)
  | 0, _, _, _ => none
  | fuel + 1, a, b, (s, F) =>
    if T.leaf1 a && T.leaf2 b then
      let F := F.push a b
      if N.disjoint a b then some (s, F) else some (N.leafTest s a b, F)
    else if N.disjoint a b then some (s, F.push a b)
    else if T.fos a b then
      match collisionRecurse fuel (T.left1 a) b (s, F) with
      | none => none
      | some (s, F) =>
        if N.canStop s && F.isNone then some (s, F) else collisionRecurse fuel (T.right1 a) b (s, F)
    else
      match collisionRecurse fuel a (T.left2 b) (s, F) with
      | none => none
      | some (s, F) =>
        if N.canStop s && F.isNone then some (s, F) else collisionRecurse fuel a (T.right2 b) (s, F)

/-- Lines 488-510: the two calls of `collisionRecurse` on the children of a pair of the front list. -/
def descend (fuel : ℕ) (a : A) (b : B) (s : σ) (F : Front A B) : Option (σ × Front A B) :=
  if T.fos a b then
    match collisionRecurse N T fuel (T.left1 a) b (s, F) with
    | none => none
    | some (s, F) => collisionRecurse N T fuel (T.right1 a) b (s, F)
  else
    match collisionRecurse N T fuel a (T.left2 b) (s, F) with
    | none => none
    | some (s, F) => collisionRecurse N T fuel a (T.right2 b) (s, F)

/-- The loop of `propagateBVHFrontListCollisionRecurse`, traversal_recurse-inl.h 465-512. `todo` are the pairs from
the iterator to the end of the list, `kept` the pairs before it that are still valid, `app` the list `append`. The
recursive calls on line 496-508 add to the list that is being iterated, so that their pairs are visited as well. -/
def propagateLoop : ℕ → List (A × B) → List (A × B) → List (A × B) → σ → Option (σ × List (A × B) × List (A × B))
  | 0, _, _, _, _ => none
  | _ + 1, [], kept, app, s => some (s, kept, app)
  | fuel + 1, (a, b) :: todo, kept, app, s =>
    if T.leaf1 a && T.leaf2 b then
      match collisionRecurse N T fuel a b (s, some app) with
      | some (s, some app) => propagateLoop fuel todo kept app s
      | _ => none
    else if !N.disjoint a b then
      match descend N T fuel a b s (some todo) with
      | some (s, some todo) => propagateLoop fuel todo kept app s
      | _ => none
    else propagateLoop fuel todo (kept ++ [(a, b)]) app s

/-- `propagateBVHFrontListCollisionRecurse`, 465-528: the loop, then the invalid pairs are erased and the list
`append` is added. -/
def propagateFront (fuel : ℕ) (F : List (A × B)) (s : σ) : Option (σ × List (A × B)) :=
  match propagateLoop N T fuel F [] [] s with
  | none => none
  | some (s, kept, app) => some (s, kept ++ app)

/-- `collide(node, front_list)`, collision_node-inl.h 72-82; `a`, `b` are the two roots. -/
def collideNode (fuel : ℕ) (a : A) (b : B) (s : σ) (F : Front A B) : Option (σ × Front A B) :=
  match F with
  | some (p :: ps) => (propagateFront N T fuel (p :: ps) s).map fun r => (r.1, some r.2)
  | F => collisionRecurse N T fuel a b (s, F)

end collision

section self
variable {σ A : Type*} (N : ColNode σ A A) (T : Trav A A)

/-- `selfCollisionRecurse`, traversal_recurse-inl.h 238-254. -/
def selfCollisionRecurse : ℕ → A → σ × Front A A → Option (σ × Front A A)
  | 0, _, _ => none
  | fuel + 1, a, (s, F) =>
    if T.leaf1 a then some (s, F)
    else
      match selfCollisionRecurse fuel (T.left1 a) (s, F) with
      | none => none
      | some (s, F) =>
        if N.canStop s && F.isNone then some (s, F)
        else
          match selfCollisionRecurse fuel (T.right1 a) (s, F) with
          | none => none
          | some (s, F) =>
            if N.canStop s && F.isNone then some (s, F)
            else collisionRecurse N T fuel (T.left1 a) (T.right1 a) (s, F)

end self

/-- The virtual functions of `DistanceTraversalNodeBase` (distance_traversal_node_base.h). `bvDist` is `BVTesting`;
the statistics counters are left out. -/
structure DistNode (σ K A B : Type*) where
  bvDist : A → B → K
  leafTest : σ → A → B → σ
  canStop : σ → K → Bool

section distance
variable {σ K A B : Type*} [LinearOrder K] (N : DistNode σ K A B) (T : Trav A B)

/-- `distanceRecurse`, traversal_recurse-inl.h 259-316. -/
def distanceRecurse : ℕ → A → B → σ × Front A B → Option (σ × Front A B)
  | 0, _, _, _ => none
  | fuel + 1, a, b, (s, F) =>
    if T.leaf1 a && T.leaf2 b then some (N.leafTest s a b, F.push a b)
    else
      let p : (A × B) × (A × B) :=
        if T.fos a b then ((T.left1 a, b), (T.right1 a, b)) else ((a, T.left2 b), (a, T.right2 b))
      let d1 := N.bvDist p.1.1 p.1.2
      let d2 := N.bvDist p.2.1 p.2.2
      let visit (d : K) (q : A × B) (x : σ × Front A B) : Option (σ × Front A B) :=
        if !N.canStop x.1 d then distanceRecurse fuel q.1 q.2 x else some (x.1, x.2.push q.1 q.2)
      if d2 < d1 then
        match visit d2 p.2 (s, F) with
        | none => none
        | some x => visit d1 p.1 x
      else
        match visit d1 p.1 (s, F) with
        | none => none
        | some x => visit d2 p.2 x

/-- The result of `std::priority_queue::top` and `pop` on the queue `BVTQ` (343-381): an element and the others, or
nothing when the queue is empty. Which element it is among those with the smallest distance is not fixed. -/
abbrev Pick (K A B : Type*) := List (K × A × B) → Option ((K × A × B) × List (K × A × B))

/-- The loop of `distanceQueueRecurse`, traversal_recurse-inl.h 386-460; `(a, b)` is `min_test`, `q` the queue.
`distanceQueueRecurse(node, b1, b2, front_list, qsize)` is this loop started with the empty queue. -/
def distanceQueueLoop (pick : Pick K A B) (qsize : ℕ) :
    ℕ → A → B → List (K × A × B) → σ × Front A B → Option (σ × Front A B)
  | 0, _, _, _, _ => none
  | fuel + 1, a, b, q, (s, F) =>
    let step : Option (List (K × A × B) × σ × Front A B) :=
      if T.leaf1 a && T.leaf2 b then some (q, N.leafTest s a b, F.push a b)
      else if q.length + 1 ≥ qsize then
        match distanceQueueLoop pick qsize fuel a b [] (s, F) with
        | none => none
        | some x => some (q, x)
      else if T.fos a b then
        some (q ++ [(N.bvDist (T.left1 a) b, T.left1 a, b), (N.bvDist (T.right1 a) b, T.right1 a, b)], s, F)
      else
        some (q ++ [(N.bvDist a (T.left2 b), a, T.left2 b), (N.bvDist a (T.right2 b), a, T.right2 b)], s, F)
    match step with
    | none => none
    | some (q, s, F) =>
      match pick q with
      | none => some (s, F)
      | some ((d, a', b'), q) =>
        if N.canStop s d then some (s, F.push a' b') else distanceQueueLoop pick qsize fuel a' b' q (s, F)

/-- `distance(node, front_list, qsize)`, collision_node-inl.h 137-147, without the hooks `preprocess` and
`postprocess`. -/
def distanceNode (pick : Pick K A B) (qsize : ℤ) (fuel : ℕ) (a : A) (b : B) (x : σ × Front A B) :
    Option (σ × Front A B) :=
  if qsize ≤ 2 then distanceRecurse N T fuel a b x
  else distanceQueueLoop N T pick qsize.toNat fuel a b [] x

end distance

/-- What `leafTesting` changes in the distance result: `min_distance` and the pair it belongs to
(narrowphase/distance_result-inl.h 74-90 and 94-115). -/
structure BestPair (K A B : Type*) where
  minDistance : K
  pair : Option (A × B)
deriving DecidableEq, Repr

/-- The node for two meshes: `MeshDistanceTraversalNode`, distance/mesh_distance_traversal_node-inl.h 109-153, and
its oriented variants. `bvDist` is the distance of two volumes, `leafDist` the distance of two primitives (for
meshes `TriangleDistance::triDistance`). -/
def meshDistNode {K A B : Type*} [Field K] [LinearOrder K] (bvDist leafDist : A → B → K) (absErr relErr : K) :
    DistNode (BestPair K A B) K A B where
  bvDist := bvDist
  leafTest r a b := if r.minDistance > leafDist a b then ⟨leafDist a b, some (a, b)⟩ else r
  canStop r c := if c ≥ r.minDistance - absErr ∧ c * (1 + relErr) ≥ r.minDistance then true else false

end Fcl
