import Verif.AABB.Model
import Verif.Base.Callback

/-!
# Model of `HierarchyTree<AABB<S>>` (`include/fcl/broadphase/detail/hierarchy_tree-inl.h`)

Nodes are inductive data instead of a pointer graph. A leaf carries an identifier, its address: the
manager keeps pointers to leaves. `parent` pointers are the recursion paths. `free_node` (a one-cell
cache of a deleted node, lines 993-1018) and `delete` are not modelled.
`max_lookahead_level` is never changed from `-1` by any caller, so re-insertion starts at the root.
-/

namespace Fcl

/-- `NodeBase<BV>` (`include/fcl/broadphase/detail/node_base.h:50-75`). Leaves carry `data`. -/
inductive HTree (K O : Type*) where
  | leaf (id : Nat) (bv : AABB K) (obj : O)
  | node (bv : AABB K) (l r : HTree K O)
deriving DecidableEq, Repr

namespace HTree
variable {K O : Type*}

/-- Member `bv` of a node. -/
def bv : HTree K O → AABB K
  | leaf _ b _ => b
  | node b _ _ => b

/-- `extractLeaves`, `fetchLeaves` with unbounded depth (lines 293-302, 946-958): the leaves from left
to right, as (address, bv, data). -/
def leaves : HTree K O → List (Nat × AABB K × O)
  | leaf i b o => [(i, b, o)]
  | node _ l r => l.leaves ++ r.leaves

/-- A leaf node from its fields. -/
def ofLeaf (x : Nat × AABB K × O) : HTree K O := leaf x.1 x.2.1 x.2.2

/-- `getMaxHeight(node)`, lines 398-408. -/
def height : HTree K O → Nat
  | leaf _ _ _ => 0
  | node _ l r => max l.height r.height + 1

/-- Overwrite `bv` of the leaf at address `i` (`node->bv = obj->getAABB()`,
`broadphase_dynamic_AABB_tree-inl.h:832`). -/
def setLeaf (i : Nat) (b : AABB K) : HTree K O → HTree K O
  | leaf j c o => if j = i then leaf j b o else leaf j c o
  | node c l r => node c (l.setLeaf i b) (r.setLeaf i b)

section order
variable [LinearOrder K]

/-- Choices that depend on floating point heuristics or on library freedom. The theorems hold for
every value of this structure (with the stated contracts), so for the real formulas under any
rounding. -/
structure Cfg (K O : Type*) [LinearOrder K] where
  /-- `select(query, node1, node2)`, lines 1099-1132: `true` means child 1. -/
  select : AABB K → AABB K → AABB K → Bool
  /-- `root1->bv.size() > root2->bv.size()` in the tree-tree recursions. -/
  bigger : AABB K → AABB K → Bool
  /-- `AABB::equal` (approximate comparison, `AABB-inl.h:319-323`). -/
  eqv : AABB K → AABB K → Bool
  /-- `cur_size < min_size` in `bottomup` (line 356): compare the merged boxes of two pairs. -/
  sizeLt : AABB K → AABB K → Bool
  /-- `cur_size < numeric_limits<S>::max()` in `bottomup` (line 356, first comparison). -/
  sizeOk : AABB K → Bool
  /-- `best_axis` of `topdown_0` for the total box (lines 436-439). -/
  bestAxis : AABB K → Fin 3
  /-- `std::nth_element` by centre along an axis (line 443). -/
  nth : Fin 3 → Nat → List (HTree K O) → List (HTree K O)
  /-- `topdown_1`: split axis and split value chosen from the leaves; `true` for a leaf whose centre
  is below the split value (lines 470-508). -/
  below : List (AABB K) → AABB K → Bool
  /-- Morton code of the centre relative to the total box (lines 556-558). -/
  code : AABB K → AABB K → Nat
  /-- `std::sort(..., SortByMorton())` for given codes. -/
  sortM : (HTree K O → Nat) → List (HTree K O) → List (HTree K O)
  /-- `bu_threshold`, `topdown_level` (public through the manager). -/
  buThreshold : Int
  topdownLevel : Int
  /-- `tree_init_level`, `tree_incremental_balance_pass`. -/
  initLevel : Int
  incPass : Int
  /-- `height - log(num)/log(2) < max_tree_nonbalanced_level`
  (`broadphase_dynamic_AABB_tree-inl.h:814`). -/
  nearlyBalanced : Nat → Nat → Bool
  /-- Contents of `bv` in a node created without a box (lines 652, 993-1007): unspecified. -/
  junk : AABB K

/-- `insertLeaf(root, leaf)`, lines 814-865, on a non-empty tree. The flag says whether the upward
loop of lines 844-851 is still running when the parent is reached. -/
def insertGo (cfg : Cfg K O) (x : Nat × AABB K × O) : HTree K O → HTree K O × Bool
  | leaf j b o => (node (x.2.1.merge b) (leaf j b o) (ofLeaf x), true)
  | node b l r =>
    if cfg.select x.2.1 l.bv r.bv then
      let res := insertGo cfg x r
      if res.2 then
        if b.contain res.1.bv then (node b l res.1, false)
        else (node (l.bv.merge res.1.bv) l res.1, true)
      else (node b l res.1, false)
    else
      let res := insertGo cfg x l
      if res.2 then
        if b.contain res.1.bv then (node b res.1 r, false)
        else (node (res.1.bv.merge r.bv) res.1 r, true)
      else (node b res.1 r, false)

/-- `insertLeaf(root_node, leaf)`, lines 793-871. -/
def insertLeaf (cfg : Cfg K O) (t : Option (HTree K O)) (x : Nat × AABB K × O) : HTree K O :=
  match t with
  | none => ofLeaf x
  | some t => (insertGo cfg x t).1

/-- Outcome of looking for the leaf in a subtree during `removeLeaf`. -/
inductive RemRes (K O : Type*) where
  /-- the leaf is not in this subtree -/
  | absent
  /-- this subtree is the leaf itself; its parent must be replaced by the sibling -/
  | here (x : Nat × AABB K × O)
  /-- removed inside; `true` while the tightening loop (lines 912-921) is still running -/
  | done (t : HTree K O) (x : Nat × AABB K × O) (tighten : Bool)

/-- One iteration of the tightening loop, lines 914-920, at a node with box `b` and new children. -/
def tightenNode (cfg : Cfg K O) (b : AABB K) (l r : HTree K O) (go : Bool) : HTree K O × Bool :=
  if go then
    let nb := l.bv.merge r.bv
    if !cfg.eqv nb b then (node nb l r, true) else (node b l r, false)
  else (node b l r, false)

/-- `removeLeaf(leaf)` below the root, lines 887-921. The search replaces the stored pointer. -/
def removeGo (cfg : Cfg K O) (i : Nat) : HTree K O → RemRes K O
  | leaf j b o => if j = i then .here (j, b, o) else .absent
  | node b l r =>
    match removeGo cfg i l with
    | .here x => .done r x true
    | .done l' x go =>
      let res := tightenNode cfg b l' r go
      .done res.1 x res.2
    | .absent =>
      match removeGo cfg i r with
      | .here x => .done l x true
      | .done r' x go =>
        let res := tightenNode cfg b l r' go
        .done res.1 x res.2
      | .absent => .absent

/-- `removeLeaf(leaf)`, lines 876-942: the remaining tree and the removed leaf. `none` when the pointer
is not a leaf of the tree (undefined behaviour). -/
def removeLeaf (cfg : Cfg K O) (i : Nat) (t : HTree K O) :
    Option (Option (HTree K O) × (Nat × AABB K × O)) :=
  match removeGo cfg i t with
  | .here x => some (none, x)
  | .done t' x _ => some (some t', x)
  | .absent => none

/-- `update(leaf, -1)`, lines 133-161: remove and re-insert at the root. -/
def reinsert (cfg : Cfg K O) (i : Nat) (t : HTree K O) : Option (HTree K O) :=
  match removeLeaf cfg i t with
  | none => none
  | some (t', x) => some (insertLeaf cfg t' x)

/-- `update_(leaf, bv)`, lines 746-762. -/
def reinsertWith (cfg : Cfg K O) (i : Nat) (b : AABB K) (t : HTree K O) : Option (HTree K O) :=
  match removeLeaf cfg i t with
  | none => none
  | some (t', x) => some (insertLeaf cfg t' (x.1, b, x.2.2))

/-- The `bv` of the leaf at an address. -/
def leafBv (i : Nat) (t : HTree K O) : Option (AABB K) :=
  (t.leaves.find? (fun x => x.1 = i)).map (fun x => x.2.1)

/-- `update(leaf, bv)`, lines 165-170. -/
def updateLeaf (cfg : Cfg K O) (i : Nat) (b : AABB K) (t : HTree K O) : Option (HTree K O) :=
  match t.leafBv i with
  | none => none
  | some old => if old.contain b then some t else reinsertWith cfg i b t

/-- `recurseRefit`, lines 1036-1046. -/
def refit : HTree K O → HTree K O
  | leaf i b o => leaf i b o
  | node _ l r =>
    let l' := l.refit
    let r' := r.refit
    node (l'.bv.merge r'.bv) l' r'

/-- The walk of `balanceIncremental`, lines 270-276: address of the leaf reached by the bits of
`opath`. `sort` (lines 766-789) swaps the addresses, boxes and links of a node and its parent so that the
tree of boxes and leaves is unchanged; it is the identity here. -/
def walk (opath : Nat) : Nat → HTree K O → Nat
  | _, leaf i _ _ => i
  | bit, node _ l r =>
    if (opath >>> bit) % 2 = 1 then walk opath ((bit + 1) % 32) r
    else walk opath ((bit + 1) % 32) l

/-- `balanceIncremental` loop, lines 268-279 (`opath` is a 32-bit counter). -/
def balanceLoop (cfg : Cfg K O) : Nat → Nat → HTree K O → Option (HTree K O × Nat)
  | 0, opath, t => some (t, opath)
  | n + 1, opath, t =>
    match reinsert cfg (walk opath 0 t) t with
    | none => none
    | some t' => balanceLoop cfg n ((opath + 1) % 2 ^ 32) t'

/-- Inner double loop of `bottomup`, lines 350-363: the pair of positions with the smallest merged
box, first found first. `none` when no pair has size below `numeric_limits<S>::max()` (then the code
dereferences uninitialised iterators). Pairs are visited in the order `it1 < it2`. -/
def scanRow (cfg : Cfg K O) (i : Nat) (bi : AABB K) :
    Nat → List (HTree K O) → Option (Nat × Nat × AABB K) → Option (Nat × Nat × AABB K)
  | _, [], best => best
  | j, t :: ts, best =>
    let cur := bi.merge t.bv
    let best' := match best with
      | none => if cfg.sizeOk cur then some (i, j, cur) else none
      | some (p, q, m) => if cfg.sizeLt cur m then some (i, j, cur) else some (p, q, m)
    scanRow cfg i bi (j + 1) ts best'

@[inherit_doc scanRow]
def scanPairs (cfg : Cfg K O) :
    Nat → List (HTree K O) → Option (Nat × Nat × AABB K) → Option (Nat × Nat × AABB K)
  | _, [], best => best
  | i, t :: ts, best => scanPairs cfg (i + 1) ts (scanRow cfg i t.bv (i + 1) ts best)

/-- Replace positions `i` and `j` as in lines 365-375: position `i` becomes the new parent, position
`j` the last node, and the last position is dropped. -/
def joinAt (ts : List (HTree K O)) (i j : Nat) : Option (List (HTree K O)) :=
  match ts[i]?, ts[j]?, ts.getLast? with
  | some a, some b, some z => some (((ts.set i (node (a.bv.merge b.bv) a b)).set j z).dropLast)
  | _, _, _ => none

/-- `bottomup`, lines 344-377, with `fuel` at least the number of nodes. Returns `*lbeg`. -/
def bottomup (cfg : Cfg K O) : Nat → List (HTree K O) → Option (HTree K O)
  | _, [] => none
  | _, [t] => some t
  | 0, _ :: _ :: _ => none
  | fuel + 1, t :: u :: ts =>
    match scanPairs cfg 0 (t :: u :: ts) none with
    | none => none
    | some (i, j, _) =>
      match joinAt (t :: u :: ts) i j with
      | none => none
      | some ts' => bottomup cfg fuel ts'

/-- Box of all nodes of a range, lines 432-434, 471-477, 550-554. -/
def volOf (t : HTree K O) (ts : List (HTree K O)) : AABB K :=
  ts.foldl (fun v u => v.merge u.bv) t.bv

/-- `topdown_0`, lines 425-459, with `fuel` at least the number of nodes. -/
def topdown0 (cfg : Cfg K O) : Nat → List (HTree K O) → Option (HTree K O)
  | _, [] => none
  | _, [t] => some t
  | 0, _ :: _ :: _ => none
  | fuel + 1, t :: u :: ts =>
    let all := t :: u :: ts
    if (all.length : Int) > cfg.buThreshold then
      let vol := volOf t (u :: ts)
      let k := all.length / 2
      let all' := cfg.nth (cfg.bestAxis vol) k all
      match topdown0 cfg fuel (all'.take k), topdown0 cfg fuel (all'.drop k) with
      | some l, some r => some (node vol l r)
      | _, _ => none
    else bottomup cfg all.length all

/-- The swap partition of `topdown_1`, lines 505-515: `pre` the nodes already moved to the front,
`mid` the ones passed over, `ts` the rest. -/
def partSwap (p : HTree K O → Bool) (pre mid : List (HTree K O)) :
    List (HTree K O) → List (HTree K O) × List (HTree K O)
  | [] => (pre, mid)
  | t :: ts =>
    if p t then
      match mid with
      | [] => partSwap p (pre ++ [t]) [] ts
      | m :: ms => partSwap p (pre ++ [t]) (ms ++ [m]) ts
    else partSwap p pre (mid ++ [t]) ts

/-- `topdown_1`, lines 463-531. The recursion is not structurally bounded: when one side of the
partition is empty the other call is made on the same range again, and the fuel running out is that
infinite recursion (stack overflow). `none` for the empty side is only reached together with it. -/
def topdown1 (cfg : Cfg K O) : Nat → List (HTree K O) → Option (HTree K O)
  | _, [] => none
  | _, [t] => some t
  | 0, _ :: _ :: _ => none
  | fuel + 1, t :: u :: ts =>
    let all := t :: u :: ts
    if (all.length : Int) > cfg.buThreshold then
      let vol := volOf t (u :: ts)
      let parts := partSwap (fun v => cfg.below (all.map bv) v.bv) [] [] all
      match topdown1 cfg fuel parts.1, topdown1 cfg fuel parts.2 with
      | some l, some r => some (node vol l r)
      | _, _ => none
    else bottomup cfg all.length all

/-- `topdown`, lines 381-394. -/
def topdown (cfg : Cfg K O) (ts : List (HTree K O)) : Option (HTree K O) :=
  if cfg.topdownLevel = 1 then topdown1 cfg ts.length ts else topdown0 cfg ts.length ts

/-- `std::lower_bound(lbeg, lend, &dummy, SortByMorton())` on a range sorted by code, lines 631-633:
number of leading nodes with a smaller code. -/
def lowerBound (code : HTree K O → Nat) (split : Nat) (ts : List (HTree K O)) : Nat :=
  (ts.takeWhile (fun t => decide (code t < split))).length

/-- `split | (1 << (bits - 1))`, line 637. -/
def splitHi (split bits : Nat) : Nat := split ||| (1 <<< (bits - 1))
/-- `(split & ~(1 << bits)) | (1 << (bits - 1))` on 32-bit words, line 642. -/
def splitLo (split bits : Nat) : Nat :=
  (split &&& ((2 ^ 32 - 1) ^^^ (1 <<< bits))) ||| (1 <<< (bits - 1))

/-- `mortonRecurse_0`, lines 624-668. -/
def morton0 (cfg : Cfg K O) (code : HTree K O → Nat) : Nat → Nat → List (HTree K O) →
    Option (HTree K O)
  | _, _, [] => none
  | _, _, [t] => some t
  | 0, _, t :: u :: ts => topdown cfg (t :: u :: ts)
  | bits + 1, split, t :: u :: ts =>
    let all := t :: u :: ts
    let c := lowerBound code split all
    if c = 0 then morton0 cfg code bits (splitHi split (bits + 1)) all
    else if c = all.length then morton0 cfg code bits (splitLo split (bits + 1)) all
    else
      match morton0 cfg code bits (splitLo split (bits + 1)) (all.take c),
            morton0 cfg code bits (splitHi split (bits + 1)) (all.drop c) with
      | some l, some r => some (node cfg.junk l r)
      | _, _ => none

/-- `mortonRecurse_2`, lines 726-742; also the `bits <= 0` branch of `mortonRecurse_1`
(lines 710-717), which halves the range and stays in that branch. -/
def morton2 (cfg : Cfg K O) : Nat → List (HTree K O) → Option (HTree K O)
  | _, [] => none
  | _, [t] => some t
  | 0, _ :: _ :: _ => none
  | fuel + 1, t :: u :: ts =>
    let all := t :: u :: ts
    match morton2 cfg fuel (all.take (all.length / 2)), morton2 cfg fuel (all.drop (all.length / 2)) with
    | some l, some r => some (node cfg.junk l r)
    | _, _ => none

/-- `mortonRecurse_1`, lines 672-722. -/
def morton1 (cfg : Cfg K O) (code : HTree K O → Nat) : Nat → Nat → List (HTree K O) →
    Option (HTree K O)
  | _, _, [] => none
  | _, _, [t] => some t
  | 0, _, t :: u :: ts => morton2 cfg (t :: u :: ts).length (t :: u :: ts)
  | bits + 1, split, t :: u :: ts =>
    let all := t :: u :: ts
    let c := lowerBound code split all
    if c = 0 then morton1 cfg code bits (splitHi split (bits + 1)) all
    else if c = all.length then morton1 cfg code bits (splitLo split (bits + 1)) all
    else
      match morton1 cfg code bits (splitLo split (bits + 1)) (all.take c),
            morton1 cfg code bits (splitHi split (bits + 1)) (all.drop c) with
      | some l, some r => some (node cfg.junk l r)
      | _, _ => none

/-- `init(leaves, level)`, lines 71-90, with `init_0` … `init_3`, lines 535-620
(`coder.bits()` is 30, `include/fcl/broadphase/detail/morton-inl.h`). -/
def init (cfg : Cfg K O) (ls : List (HTree K O)) : Option (HTree K O) :=
  match ls with
  | [] => none
  | t :: ts =>
    let vol := volOf t ts
    let code : HTree K O → Nat := fun u => cfg.code vol u.bv
    let sorted := cfg.sortM code (t :: ts)
    if cfg.initLevel = 1 then (morton0 cfg code 29 (1 <<< 29) sorted).map refit
    else if cfg.initLevel = 2 then (morton1 cfg code 29 (1 <<< 29) sorted).map refit
    else if cfg.initLevel = 3 then (morton2 cfg sorted.length sorted).map refit
    else topdown cfg (t :: ts)

end order
end HTree
end Fcl
