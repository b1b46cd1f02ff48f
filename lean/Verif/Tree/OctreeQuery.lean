import Verif.Tree.Manager
import Verif.Octree.Solver
import Verif.AABB.Spec
import Mathlib.Analysis.SpecialFunctions.Exp

/-!
# An octree object against the dynamic AABB tree manager
(`include/fcl/broadphase/broadphase_dynamic_AABB_tree-inl.h` 58-489, 896-944)

The manager walks its own tree and the octree at the same time and hands the callback an object made for each cell.
-/

namespace Fcl
namespace OctMgr
open Octree ConvertBV HTree

/-- The `CollisionObject` made for a cell: the box with its pose, and `cost_density` and `threshold_occupied` of the box
(`threshold_free` stays 0, collision_geometry-inl.h 56-58). -/
structure CellObj where
  box : PBox
  density : ℝ
  occThr : ℝ

/-- `isOccupied` and `isFree`, collision_geometry-inl.h 100-110. -/
def CellObj.Occupied (c : CellObj) : Prop := c.density ≥ c.occThr
@[inherit_doc CellObj.Occupied] def CellObj.Free (c : CellObj) : Prop := c.density ≤ 0

/-- `octomap::probability(logodds)`: `1 - 1 / (1 + exp(logodds))`, which is also `getOccupancy()` of a node. -/
noncomputable def probability (v : ℝ) : ℝ := 1 - 1 / (1 + Real.exp v)

/-- What the callbacks are called with: an object of the manager or the object of a cell. -/
abbrev Item (O : Type*) := O ⊕ CellObj

/-- The parts in which the two versions of a function differ, and what they use of the objects and of the octree: `overlap`
of a node's box and a cell, `conv` the box around the placed cell, `tf` the pose given to `constructBox`, `unknown` the
`cost_density` for a cell that is not in the octree, `bigger` the comparison of the sizes, `free` is `isFree()`. -/
structure Side (O : Type*) where
  overlap : AABB ℝ → AABB ℝ → Bool
  conv : AABB ℝ → AABB ℝ
  tf : Pose ℝ
  unknown : ℝ
  bigger : AABB ℝ → AABB ℝ → Bool
  free : O → Bool
  thr : Thresholds

variable {O σ : Type*}

/-- The object of a cell that is in the octree: 116-125 and 225-232. -/
noncomputable def Side.cellObj (e : Side O) (b : AABB ℝ) (v : ℝ) : CellObj := ⟨ConstructBox.aabbAt b e.tf, probability v, probability e.thr.occ⟩
/-- The object of a cell that is not in the octree: 82-92 and 188-198. The threshold is the default 1. -/
noncomputable def Side.unknownObj (e : Side O) (b : AABB ℝ) : CellObj := ⟨ConstructBox.aabbAt b e.tf, e.unknown, 1⟩
/-- The object of a cell in a distance query: 293-296 and 407-412. Both values are the default 1. -/
noncomputable def Side.distObj (e : Side O) (b : AABB ℝ) : CellObj := ⟨ConstructBox.aabbAt b e.tf, 1, 1⟩

/-! ### Collision -/

/-- `collisionRecurse_` with a null node: 70-104 and 178-210. -/
noncomputable def collideNull (e : Side O) (cb : CB σ (Item O)) (b : AABB ℝ) : HTree ℝ O → σ → σ × Bool
  | .leaf _ b1 o, s =>
    if !e.free o then
      if e.overlap b1 b then cb s (.inl o) (.inr (e.unknownObj b)) else (s, false)
    else (s, false)
  | .node _ l r, s => andThen (collideNull e cb b l s) (collideNull e cb b r)

/-- `collisionRecurse_` with a node without children: 105-131 and 135-147, 211-238 and 240-249. -/
noncomputable def collideLeaf (e : Side O) (cb : CB σ (Item O)) (v : ℝ) (b : AABB ℝ) : HTree ℝ O → σ → σ × Bool
  | .leaf _ b1 o, s =>
    if ¬ e.thr.isFree v ∧ !e.free o then
      if e.overlap b1 b then cb s (.inl o) (.inr (e.cellObj b v)) else (s, false)
    else (s, false)
  | .node b1 l r, s =>
    if e.thr.isFree v ∨ !e.overlap b1 b then (s, false)
    else andThen (collideLeaf e cb v b l s) (collideLeaf e cb v b r)

/-- The loop over the eight children: 149-163 and 251-270. -/
def collideKids (kids : Fin 8 → HTree ℝ O → σ → σ × Bool) (t : HTree ℝ O) (s : σ) : σ × Bool :=
  until' (fun i s => kids i t s) eight s

/-- `collisionRecurse_` with a node with children: 134-164 and 240-271; `kids i t` is the call for the child `i`, which may be null. -/
noncomputable def collideInner (e : Side O) (v : ℝ) (b : AABB ℝ) (kids : Fin 8 → HTree ℝ O → σ → σ × Bool) : HTree ℝ O → σ → σ × Bool
  | .leaf i b1 o, s =>
    if e.thr.isFree v ∨ !e.overlap b1 b then (s, false) else collideKids kids (.leaf i b1 o) s
  | .node b1 l r, s =>
    if e.thr.isFree v ∨ !e.overlap b1 b then (s, false)
    else if e.bigger b1 b then andThen (collideInner e v b kids l s) (collideInner e v b kids r)
    else collideKids kids (.node b1 l r) s

/-- `collisionRecurse_`: 61-165 and 168-273. -/
noncomputable def collideRec (e : Side O) (cb : CB σ (Item O)) : Node → AABB ℝ → HTree ℝ O → σ → σ × Bool
  | .null, b => collideNull e cb b
  | .leaf v, b => collideLeaf e cb v b
  | .inner v c, b => collideInner e v b fun i => collideRec e cb (c i) (childBV b i)

/-! ### Distance -/

/-- `distanceRecurse_` with a node without children: 287-337 and 401-455. -/
noncomputable def distLeaf (e : Side O) (cb : DCB σ ℝ (Item O)) (v : ℝ) (b : AABB ℝ) : HTree ℝ O → σ → ℝ → σ × ℝ × Bool
  | .leaf _ _ o, s, md =>
    if e.thr.isOccupied v then cb s md (.inl o) (.inr (e.distObj b)) else (s, md, false)
  | .node _ l r, s, md =>
    if ¬ e.thr.isOccupied v then (s, md, false)
    else nearFirst ((e.conv b).distance l.bv) ((e.conv b).distance r.bv) (distLeaf e cb v b l) (distLeaf e cb v b r) s md

/-- The loops over the eight children with the distance bound. -/
def untilD {ι : Type*} (f : ι → σ → ℝ → σ × ℝ × Bool) : List ι → σ → ℝ → σ × ℝ × Bool
  | [], s, md => (s, md, false)
  | i :: l, s, md => andThenD (f i s md) (untilD f l)

/-- The loop over the eight children: 339-360 and 457-475; `here i` is `nodeChildExists`. -/
noncomputable def distKids (e : Side O) (b : AABB ℝ) (here : Fin 8 → Bool) (kids : Fin 8 → HTree ℝ O → σ → ℝ → σ × ℝ × Bool) (t : HTree ℝ O)
    (s : σ) (md : ℝ) : σ × ℝ × Bool :=
  untilD (fun i s md => if here i then guardD (t.bv.distance (e.conv (childBV b i))) (kids i t) s md else (s, md, false)) eight s md

/-- `distanceRecurse_` with a node with children: 302-363 and 416-478. -/
noncomputable def distInner (e : Side O) (v : ℝ) (b : AABB ℝ) (here : Fin 8 → Bool) (kids : Fin 8 → HTree ℝ O → σ → ℝ → σ × ℝ × Bool) :
    HTree ℝ O → σ → ℝ → σ × ℝ × Bool
  | .leaf i b1 o, s, md =>
    if ¬ e.thr.isOccupied v then (s, md, false) else distKids e b here kids (.leaf i b1 o) s md
  | .node b1 l r, s, md =>
    if ¬ e.thr.isOccupied v then (s, md, false)
    else if e.bigger b1 b then
      nearFirst ((e.conv b).distance l.bv) ((e.conv b).distance r.bv) (distInner e v b here kids l) (distInner e v b here kids r) s md
    else distKids e b here kids (.node b1 l r) s md

/-- `distanceRecurse_`: 276-364 and 391-479. It is never called for a null child; the call for the root is in `distanceOct`. -/
noncomputable def distRec (e : Side O) (cb : DCB σ ℝ (Item O)) : Node → AABB ℝ → HTree ℝ O → σ → ℝ → σ × ℝ × Bool
  | .null, _ => fun _ s md => (s, md, false)
  | .leaf v, b => distLeaf e cb v b
  | .inner v c, b => distInner e v b (fun i => (c i).here) fun i => distRec e cb (c i) (childBV b i)

/-! ### The manager -/

/-- The octree object: the octree, its pose, and `default_occupancy`. -/
structure OctObj where
  tree : Tree
  X : Pose ℝ
  unknown : ℝ

/-- The version for an octree with a rotation: 61-165 and 276-364. -/
noncomputable def rotated (bigger : AABB ℝ → AABB ℝ → Bool) (free : O → Bool) (q : OctObj) : Side O where
  overlap a b := (aabbOBB a Pose.id).overlap (aabbOBB b q.X)
  conv b := aabbAABB b q.X
  tf := q.X
  unknown := q.unknown
  bigger := bigger
  free := free
  thr := q.tree.thr

/-- The version for an octree without: 168-273 and 391-479. -/
noncomputable def translated (bigger : AABB ℝ → AABB ℝ → Bool) (free : O → Bool) (q : OctObj) : Side O where
  overlap a b := a.overlap (b.translate q.X.t)
  conv b := b.translate q.X.t
  tf := ⟨M3.one, q.X.t⟩
  unknown := probability q.tree.thr.occ
  bigger := bigger
  free := free
  thr := q.tree.thr

/-- `collisionRecurse` and `distanceRecurse`, 367-384 and 482-489. `ident` is Eigen's `isIdentity()`. -/
noncomputable def side (ident : M3 ℝ → Bool) (bigger : AABB ℝ → AABB ℝ → Bool) (free : O → Bool) (q : OctObj) : Side O :=
  if ident q.X.R then translated bigger free q else rotated bigger free q

/-- `collide(obj, cdata, callback)` with an octree and `octree_as_geometry_collide` false, 896-910. -/
noncomputable def collideOct (ident : M3 ℝ → Bool) (bigger : AABB ℝ → AABB ℝ → Bool) (free : O → Bool) (cb : CB σ (Item O)) (q : OctObj)
    (m : Mgr ℝ O) (s : σ) : Option σ :=
  if m.n = 0 then some s
  else m.root.map fun t => (collideRec (side ident bigger free q) cb q.tree.root q.tree.bv t s).1

/-- `distance(obj, cdata, callback)` with an octree and `octree_as_geometry_distance` false, 922-937. `none`: a null pointer
is dereferenced, which `nodeHasChildren(root2)` or `isNodeOccupied(root2)` does for an octree without nodes. The bound, which
is local, is returned so that it can be talked about. -/
noncomputable def distanceOct (ident : M3 ℝ → Bool) (bigger : AABB ℝ → AABB ℝ → Bool) (free : O → Bool) (big : ℝ) (cb : DCB σ ℝ (Item O)) (q : OctObj)
    (m : Mgr ℝ O) (s : σ) : Option (σ × ℝ × Bool) :=
  if m.n = 0 then some (s, big, false)
  else if q.tree.root.here then m.root.map fun t => distRec (side ident bigger free q) cb q.tree.root q.tree.bv t s big
  else none

end OctMgr
end Fcl
