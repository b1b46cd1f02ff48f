import Verif.Tree.Query

/-!
# Model of `DynamicAABBTreeCollisionManager`
(`include/fcl/broadphase/broadphase_dynamic_AABB_tree-inl.h`)

Octree geometries (lines 60-487 and the `GEOM_OCTREE` cases) are in `Tree/OctreeQuery.lean`.
Every operation reads `obj->getAABB()`; the model passes the current boxes as a function
`w : O → AABB K`. An operation returns `none` where the code has undefined behaviour or does not return.
-/

namespace Fcl
open HTree

/-- The members of the manager: `dtree.root_node`, `dtree.n_leaves`, `dtree.opath`, `setup_`, `table`
(an `unordered_map` from object to leaf; its iteration order is the list order), and the supply of fresh
addresses. -/
structure Mgr (K O : Type*) where
  root : Option (HTree K O)
  n : Nat
  opath : Nat
  setup : Bool
  table : List (O × Nat)
  next : Nat

namespace Mgr
variable {K O σ : Type*} [LinearOrder K] [DecidableEq O]

/-- Constructor, lines 729-743. -/
def empty : Mgr K O := ⟨none, 0, 0, false, [], 0⟩

/-- `table[obj] = node`. -/
def tableSet (o : O) (i : Nat) (tab : List (O × Nat)) : List (O × Nat) :=
  (o, i) :: tab.filter (fun e => e.1 ≠ o)

/-- `registerObject`, lines 781-785, with `HierarchyTree::insert`,
`hierarchy_tree-inl.h:94-100`. -/
def registerObject (cfg : Cfg K O) (w : O → AABB K) (o : O) (m : Mgr K O) : Mgr K O :=
  { m with
    root := some (insertLeaf cfg m.root (m.next, w o, o))
    n := m.n + 1
    table := tableSet o m.next m.table
    next := m.next + 1 }

/-- Leaves and table of the batch branch of `registerObjects`, lines 761-770. -/
def batch (w : O → AABB K) : Nat → List O → List (HTree K O) × List (O × Nat) → List (HTree K O) × List (O × Nat)
  | _, [], acc => acc
  | i, o :: os, acc => batch w (i + 1) os (acc.1 ++ [leaf i (w o) o], tableSet o i acc.2)

/-- `registerObjects`, lines 748-776; base class loop
`broadphase_collision_manager-inl.h:68-73`. `HierarchyTree::init` clears the tree and sets
`n_leaves`, `opath` (`hierarchy_tree-inl.h:535-620`). -/
def registerObjects (cfg : Cfg K O) (w : O → AABB K) (os : List O) (m : Mgr K O) :
    Option (Mgr K O) :=
  if os = [] then some m
  else if m.n > 0 then some (os.foldl (fun m o => m.registerObject cfg w o) m)
  else
    let acc := batch w m.next os ([], m.table)
    match HTree.init cfg acc.1 with
    | none => none
    | some t => some ⟨some t, os.length, 0, true, acc.2, m.next + os.length⟩

/-- `unregisterObject`, lines 790-795, with `HierarchyTree::remove`,
`hierarchy_tree-inl.h:104-109`. For an object without a table entry the code passes a null pointer on:
undefined. -/
def unregisterObject (cfg : Cfg K O) (o : O) (m : Mgr K O) : Option (Mgr K O) :=
  match m.table.find? (fun e => e.1 = o), m.root with
  | some e, some t =>
    match removeLeaf cfg e.2 t with
    | none => none
    | some (t', _) =>
      some { m with root := t', n := m.n - 1, table := m.table.filter (fun e => e.1 ≠ o) }
  | _, _ => none

/-- `setup`, lines 800-821; `balanceIncremental` and `balanceTopdown`,
`hierarchy_tree-inl.h:250-281`. A null root with `n > 0` would be dereferenced by `getMaxHeight` only
after its own null check; the balancing functions then do nothing. -/
def doSetup (cfg : Cfg K O) (m : Mgr K O) : Option (Mgr K O) :=
  if m.setup then some m
  else if m.n = 0 then some { m with setup := true }
  else
    match m.root with
    | none => some { m with setup := true }
    | some t =>
      if cfg.nearlyBalanced t.height m.n then
        let it := if cfg.incPass < 0 then m.n else cfg.incPass.toNat
        match balanceLoop cfg it m.opath t with
        | none => none
        | some (t', op) => some { m with root := some t', opath := op, setup := true }
      else
        match topdown cfg (t.leaves.map ofLeaf) with
        | none => none
        | some t' => some { m with root := some t', setup := true }

/-- `update()`, lines 826-839. A table entry whose leaf is gone would be a dangling pointer. -/
def update (cfg : Cfg K O) (w : O → AABB K) (m : Mgr K O) : Option (Mgr K O) :=
  match m.root with
  | none =>
    if m.table = [] then doSetup cfg { m with setup := false } else none
  | some t =>
    if m.table.all (fun e => t.leaves.any (fun x => x.1 = e.2)) then
      let t' := (m.table.foldl (fun t e => t.setLeaf e.2 (w e.1)) t).refit
      doSetup cfg { m with root := some t', setup := false }
    else none

/-- `update_(obj)`, lines 844-854. -/
def updateOne (cfg : Cfg K O) (w : O → AABB K) (o : O) (m : Mgr K O) : Option (Mgr K O) :=
  match m.table.find? (fun e => e.1 = o) with
  | none => some { m with setup := false }
  | some e =>
    match m.root with
    | none => none
    | some t =>
      match t.leafBv e.2 with
      | none => none
      | some b =>
        if cfg.eqv b (w o) then some { m with setup := false }
        else
          match updateLeaf cfg e.2 (w o) t with
          | none => none
          | some t' => some { m with root := some t', setup := false }

/-- `update(updated_obj)`, lines 859-863. -/
def updateObj (cfg : Cfg K O) (w : O → AABB K) (o : O) (m : Mgr K O) : Option (Mgr K O) :=
  (m.updateOne cfg w o).bind (doSetup cfg)

/-- `update(updated_objs)`, lines 868-873. -/
def updateObjs (cfg : Cfg K O) (w : O → AABB K) (os : List O) (m : Mgr K O) : Option (Mgr K O) :=
  (os.foldl (fun m o => m.bind (fun m => m.updateOne cfg w o)) (some m)).bind (doSetup cfg)

/-- `clear`, lines 878-882; `HierarchyTree::clear`, `hierarchy_tree-inl.h:113-122`. `setup_` is not
reset. -/
def clear (m : Mgr K O) : Mgr K O := { m with root := none, n := 0, opath := 0, table := [] }

/-- `getObjects`, lines 887-891: the vector is resized to `size()` and overwritten by the table;
missing entries stay null (`none`), a longer table overruns the vector. -/
def getObjects (m : Mgr K O) : Option (List (Option O)) :=
  if m.table.length ≤ m.n then
    some (m.table.map (fun e => some e.1) ++ List.replicate (m.n - m.table.length) none)
  else none

/-- `empty`, lines 989-992, and `size`, lines 997-1000. -/
def isEmpty (m : Mgr K O) : Bool := m.root.isNone
@[inherit_doc isEmpty] def size (m : Mgr K O) : Nat := m.n

/-- `collide(obj, …)`, lines 896-917. `none`: null root dereferenced. -/
def collideObj (cfg : Cfg K O) (w : O → AABB K) (cb : CB σ O) (q : O) (m : Mgr K O) (s : σ) :
    Option σ :=
  if m.size = 0 then some s
  else m.root.map fun t => (collideQ cfg cb q (w q) t s).1

/-- `collide(cdata, callback)`, lines 949-953. -/
def collideAll (cfg : Cfg K O) (cb : CB σ O) (m : Mgr K O) (s : σ) : Option σ :=
  if m.size = 0 then some s
  else m.root.map fun t => (collideSelf cfg cb t s).1

/-- `collide(other_manager, …)`, lines 968-973. -/
def collideOther (cfg : Cfg K O) (cb : CB σ O) (m m' : Mgr K O) (s : σ) : Option σ :=
  if m.size = 0 ∨ m'.size = 0 then some s
  else
    match m.root, m'.root with
    | some t, some t' => some (collideT cfg cb t t' s).1
    | _, _ => none

variable {D : Type*} [LinearOrder D]

/-- `distance(obj, …)`, lines 922-944; `big` is `numeric_limits<S>::max()`. The bound is local; it is
returned here so that it can be talked about. -/
def distanceObj (big : D) (dist : AABB K → AABB K → D) (w : O → AABB K) (cb : DCB σ D O) (q : O)
    (m : Mgr K O) (s : σ) : Option (σ × D × Bool) :=
  if m.size = 0 then some (s, big, false)
  else m.root.map fun t => distQ dist cb q (w q) t s big

/-- `distance(cdata, callback)`, lines 958-963. -/
def distanceAll (cfg : Cfg K O) (big : D) (dist : AABB K → AABB K → D) (cb : DCB σ D O)
    (m : Mgr K O) (s : σ) : Option (σ × D × Bool) :=
  if m.size = 0 then some (s, big, false)
  else m.root.map fun t => distSelf cfg dist cb t s big

/-- `distance(other_manager, …)`, lines 978-984. -/
def distanceOther (cfg : Cfg K O) (big : D) (dist : AABB K → AABB K → D) (cb : DCB σ D O)
    (m m' : Mgr K O) (s : σ) : Option (σ × D × Bool) :=
  if m.size = 0 ∨ m'.size = 0 then some (s, big, false)
  else
    match m.root, m'.root with
    | some t, some t' => some (distT cfg dist cb t t' s big)
    | _, _ => none

end Mgr

/-- The public mutating operations of the manager. -/
inductive MgrOp (O : Type*) where
  | register (o : O)
  | registerMany (os : List O)
  | unregister (o : O)
  | setup
  | update
  | updateObj (o : O)
  | updateObjs (os : List O)
  | clear

/-- One call: the operation, the boxes of all objects at the time of the call, and the choices of
heuristics and library functions in that call. -/
structure MgrCall (K O : Type*) [LinearOrder K] where
  op : MgrOp O
  w : O → AABB K
  cfg : Cfg K O

/-- Effect of one call. -/
def Mgr.step {K O : Type*} [LinearOrder K] [DecidableEq O] (m : Mgr K O) (c : MgrCall K O) :
    Option (Mgr K O) :=
  match c.op with
  | .register o => some (m.registerObject c.cfg c.w o)
  | .registerMany os => m.registerObjects c.cfg c.w os
  | .unregister o => m.unregisterObject c.cfg o
  | .setup => m.doSetup c.cfg
  | .update => m.update c.cfg c.w
  | .updateObj o => m.updateObj c.cfg c.w o
  | .updateObjs os => m.updateObjs c.cfg c.w os
  | .clear => some m.clear

/-- Effect of a history of calls. -/
def Mgr.run {K O : Type*} [LinearOrder K] [DecidableEq O] (m : Mgr K O) :
    List (MgrCall K O) → Option (Mgr K O)
  | [] => some m
  | c :: cs => (m.step c).bind (fun m => m.run cs)

end Fcl
