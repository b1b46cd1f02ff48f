import Verif.Tree.Manager

/-!
# Model of the tree in an array and its manager
(`include/fcl/broadphase/detail/hierarchy_tree_array-inl.h`,
`include/fcl/broadphase/broadphase_dynamic_AABB_tree_array-inl.h`)

The array `nodes` is modelled as memory: a function from indices, `none` outside the array. `NULL_NODE` is `none`.
Everything returns `none` where the code reads or writes outside the array, reads a union member that was not written,
reads through a reference into an array that has been deleted, or does not return (the fuel is the size of the array).
Line numbers are those of `hierarchy_tree_array-inl.h` unless the manager (`array-inl.h`) is named. Not modelled: the
initialisation levels 1 to 3 and `topdown_level` 1 (the defaults are 0), octrees, leaked arrays.
-/

namespace Fcl
namespace TArr

/-- The union of `children[0]` and `data`, node_base_array.h 63-67. -/
inductive Slot (O : Type*) where
  | child (i : Option ℕ)
  | data (o : Option O)

/-- `NodeBase`, node_base_array.h 52-73. `link` is the union of `parent` and `next`. `code` is left out. -/
structure Node (K O : Type*) where
  bv : AABB K
  link : Option ℕ
  slot : Slot O
  child1 : Option ℕ

/-- `children[k]`; `none` if `data` was written last. -/
def Node.kid {K O : Type*} (n : Node K O) : Bool → Option (Option ℕ)
  | true => some n.child1
  | false => match n.slot with
    | .child i => some i
    | .data _ => none

/-- `children[k] = i`. -/
def Node.setKid {K O : Type*} (k : Bool) (i : ℕ) (n : Node K O) : Node K O :=
  if k then { n with child1 := some i } else { n with slot := .child (some i) }

/-- The array. -/
abbrev Heap (K O : Type*) := ℕ → Option (Node K O)

/-- The array with a new element. -/
def Heap.upd {K O : Type*} (h : Heap K O) (i : ℕ) (n : Node K O) : Heap K O := fun j => if j = i then some n else h j

/-- A write to one element. -/
def Heap.mod {K O : Type*} (h : Heap K O) (i : ℕ) (f : Node K O → Node K O) : Option (Heap K O) :=
  match h i with
  | none => none
  | some n => some (h.upd i (f n))

/-- `nodes[i].bv`. -/
def Heap.bv {K O : Type*} (h : Heap K O) (i : ℕ) : Option (AABB K) := (h i).map Node.bv

/-- The members of `HierarchyTree`, hierarchy_tree_array.h. `n_nodes_alloc` is `alloc`. -/
structure Arr (K O : Type*) where
  heap : Heap K O
  alloc : ℕ
  root : Option ℕ
  nNodes : ℕ
  nLeaves : ℕ
  freelist : Option ℕ
  opath : ℕ

/-- The choices of the tree with pointers, and those of functions that work on indices. -/
structure ACfg (K O : Type*) [LinearOrder K] extends HTree.Cfg K O where
  /-- `std::nth_element` by centre along an axis, line 620. -/
  nthIds : Fin 3 → ℕ → List (ℕ × AABB K) → List (ℕ × AABB K)
  /-- The positions of the pair with the smallest union, lines 554-569; see `HTree.scanPairs`. -/
  pair : List (AABB K) → ℕ × ℕ
  /-- The contents of new elements. -/
  raw : ℕ → Node K O

variable {K O : Type*}

/-- Elements of a new array linked up to the last one, lines 64-66, 293-295, 954-956. -/
def fresh (raw : ℕ → Node K O) (size : ℕ) : Heap K O := fun j =>
  if j < size then some { raw j with link := if j + 1 = size then none else some (j + 1) } else none

/-- Constructor, lines 57-73, and `clear`, lines 285-300. -/
def emptyArr (raw : ℕ → Node K O) : Arr K O := ⟨fresh raw 16, 16, none, 0, 0, some 0, 0⟩

/-- `allocateNode`, lines 943-967. The flag tells whether the array was replaced. -/
def allocateNode (raw : ℕ → Node K O) (A : Arr K O) : Option (ℕ × Bool × Arr K O) :=
  let (moved, A) := match A.freelist with
    | some _ => (false, A)
    | none =>
      (true, { A with
        alloc := A.alloc * 2
        heap := fun j => if j < A.nNodes then A.heap j else fresh raw (A.alloc * 2) j
        freelist := some A.nNodes })
  match A.freelist with
  | none => none
  | some i =>
    match A.heap i with
    | none => none
    | some n =>
      some (i, moved, { A with
        freelist := n.link
        heap := A.heap.upd i { n with link := none, slot := .child none, child1 := none }
        nNodes := A.nNodes + 1 })

/-- `createNode(parent, bv, data)`, lines 984-994; `bv` is outside the array or a local variable. -/
def createNode (raw : ℕ → Node K O) (parent : Option ℕ) (bv : AABB K) (data : Option O) (A : Arr K O) :
    Option (ℕ × Arr K O) :=
  match allocateNode raw A with
  | none => none
  | some (i, _, A) =>
    match A.heap.mod i fun n => { n with link := parent, slot := .data data, bv := bv } with
    | none => none
    | some h => some (i, { A with heap := h })

/-- `createNode(parent, nodes[i].bv, nodes[j].bv, nullptr)`, lines 970-981. The boxes are passed by reference: after the
array has been replaced the references are to the deleted array. -/
def createNode2 [LinearOrder K] (raw : ℕ → Node K O) (parent : Option ℕ) (i j : ℕ) (A : Arr K O) :
    Option (ℕ × Arr K O) :=
  match allocateNode raw A with
  | none => none
  | some (_, true, _) => none
  | some (k, false, A) =>
    match A.heap.bv i, A.heap.bv j with
    | some b, some c =>
      match A.heap.mod k fun n => { n with link := parent, slot := .data none, bv := b.merge c } with
      | none => none
      | some h => some (k, { A with heap := h })
    | _, _ => none

/-- `deleteNode`, lines 1008-1014. -/
def deleteNode (i : ℕ) (A : Arr K O) : Option (Arr K O) :=
  match A.heap.mod i fun n => { n with link := A.freelist } with
  | none => none
  | some h => some { A with heap := h, freelist := some i, nNodes := A.nNodes - 1 }

variable [LinearOrder K]

/-- The boxes of the two children. -/
def kidBvs (h : Heap K O) (n : Node K O) : Option (AABB K × AABB K) :=
  match n.kid false, n.kid true with
  | some (some i), some (some j) =>
    match h.bv i, h.bv j with
    | some b, some c => some (b, c)
    | _, _ => none
  | _, _ => none

/-- The way down of `insertLeaf`, lines 840-847. -/
def descend (sel : AABB K → AABB K → AABB K → Bool) (h : Heap K O) (q : AABB K) : ℕ → ℕ → Option ℕ
  | 0, _ => none
  | fuel + 1, i =>
    match h i with
    | none => none
    | some n =>
      if n.child1 = none then some i
      else
        match kidBvs h n with
        | none => none
        | some (b, c) =>
          match n.kid (sel q b c) with
          | some (some j) => descend sel h q fuel j
          | _ => none

/-- The way up of `insertLeaf`, lines 856-863. -/
def climb (h : Heap K O) : ℕ → ℕ → ℕ → Option (Heap K O)
  | 0, _, _ => none
  | fuel + 1, node, prev =>
    match h.bv node, h prev with
    | some b, some n =>
      if !n.bv.contain b then
        match kidBvs h n with
        | none => none
        | some (c, d) =>
          match h.mod prev fun n => { n with bv := c.merge d } with
          | none => none
          | some h =>
            match n.link with
            | none => some h
            | some q => climb h fuel prev q
      else some h
    | _, _ => none

/-- `nodes[node].children[0] = root; nodes[root].parent = node; nodes[node].children[1] = leaf; nodes[leaf].parent = node;`,
lines 854-855 and 867-868; also lines 571-574 in another order. -/
def join (h : Heap K O) (node i j : ℕ) : Option (Heap K O) :=
  ((((h.mod node (Node.setKid false i)).bind fun h => h.mod i fun n => { n with link := some node }).bind
    fun h => h.mod node (Node.setKid true j)).bind fun h => h.mod j fun n => { n with link := some node })

/-- `insertLeaf(root, leaf)`, lines 830-872. -/
def insertLeaf (cfg : ACfg K O) (root : Option ℕ) (leaf : ℕ) (A : Arr K O) : Option (Arr K O) :=
  match A.root with
  | none =>
    match A.heap.mod leaf fun n => { n with link := none } with
    | none => none
    | some h => some { A with root := some leaf, heap := h }
  | some _ =>
    match root, A.heap.bv leaf with
    | some root, some q =>
      match descend cfg.select A.heap q A.alloc root with
      | none => none
      | some r =>
        match A.heap r with
        | none => none
        | some rn =>
          match createNode2 cfg.raw rn.link leaf r A with
          | none => none
          | some (node, A) =>
            match rn.link with
            | some p =>
              match A.heap p with
              | none => none
              | some pn =>
                match A.heap.mod p (Node.setKid (decide (pn.child1 = some r)) node) with
                | none => none
                | some h =>
                  match join h node r leaf with
                  | none => none
                  | some h =>
                    match climb h A.alloc node p with
                    | none => none
                    | some h => some { A with heap := h }
            | none =>
              match join A.heap node r leaf with
              | none => none
              | some h => some { A with heap := h, root := some node }
    | _, _ => none

/-- The loop of `removeLeaf`, lines 894-903: the last value of `prev`. -/
def tighten (eqv : AABB K → AABB K → Bool) (h : Heap K O) : ℕ → ℕ → Option (Option ℕ × Heap K O)
  | 0, _ => none
  | fuel + 1, prev =>
    match h prev with
    | none => none
    | some n =>
      match kidBvs h n with
      | none => none
      | some (b, c) =>
        if !eqv (b.merge c) n.bv then
          match h.mod prev fun n => { n with bv := b.merge c } with
          | none => none
          | some h =>
            match n.link with
            | none => some (none, h)
            | some q => tighten eqv h fuel q
        else some (some prev, h)

/-- `removeLeaf(leaf)`, lines 875-915: the node that is returned. -/
def removeLeaf (cfg : ACfg K O) (leaf : ℕ) (A : Arr K O) : Option (Option ℕ × Arr K O) :=
  if A.root = some leaf then some (none, { A with root := none })
  else
    match A.heap leaf with
    | none => none
    | some n =>
      match n.link with
      | none => none
      | some parent =>
        match A.heap parent with
        | none => none
        | some pn =>
          match pn.kid (decide (pn.child1 ≠ some leaf)) with
          | some (some sibling) =>
            match pn.link with
            | some prev =>
              match A.heap prev with
              | none => none
              | some qn =>
                match A.heap.mod prev (Node.setKid (decide (qn.child1 = some parent)) sibling) with
                | none => none
                | some h =>
                  match h.mod sibling fun n => { n with link := some prev } with
                  | none => none
                  | some h =>
                    match deleteNode parent { A with heap := h } with
                    | none => none
                    | some A =>
                      match tighten cfg.eqv A.heap A.alloc prev with
                      | none => none
                      | some (prev, h) => some (prev.or A.root, { A with heap := h })
            | none =>
              match A.heap.mod sibling fun n => { n with link := none } with
              | none => none
              | some h =>
                match deleteNode parent { A with heap := h, root := some sibling } with
                | none => none
                | some A => some (A.root, A)
          | _ => none

/-- `insert(bv, data)`, lines 266-273. -/
def insert (cfg : ACfg K O) (bv : AABB K) (o : O) (A : Arr K O) : Option (ℕ × Arr K O) :=
  match createNode cfg.raw none bv (some o) A with
  | none => none
  | some (i, A) =>
    match insertLeaf cfg A.root i A with
    | none => none
    | some A => some (i, { A with nLeaves := A.nLeaves + 1 })

/-- `remove(leaf)`, lines 276-282. -/
def remove (cfg : ACfg K O) (leaf : ℕ) (A : Arr K O) : Option (Arr K O) :=
  match removeLeaf cfg leaf A with
  | none => none
  | some (_, A) =>
    match deleteNode leaf A with
    | none => none
    | some A => some { A with nLeaves := A.nLeaves - 1 }

/-- `update(leaf, -1)`, lines 310-325. -/
def reinsert (cfg : ACfg K O) (leaf : ℕ) (A : Arr K O) : Option (Arr K O) :=
  match removeLeaf cfg leaf A with
  | none => none
  | some (root, A) => insertLeaf cfg (root.bind fun _ => A.root) leaf A

/-- `update_(leaf, bv)`, lines 918-933, with `max_lookahead_level` -1. Nothing more is done when the leaf was the root. -/
def updateBv (cfg : ACfg K O) (leaf : ℕ) (bv : AABB K) (A : Arr K O) : Option (Arr K O) :=
  match removeLeaf cfg leaf A with
  | none => none
  | some (none, A) => some A
  | some (some root, A) =>
    match A.heap.mod leaf fun n => { n with bv := bv } with
    | none => none
    | some h => insertLeaf cfg (some root) leaf { A with heap := h }

/-- `update(leaf, bv)`, lines 328-334. -/
def updateLeaf (cfg : ACfg K O) (leaf : ℕ) (bv : AABB K) (A : Arr K O) : Option (Arr K O) :=
  match A.heap.bv leaf with
  | none => none
  | some b => if b.contain bv then some A else updateBv cfg leaf bv A

/-- `recurseRefit`, lines 1017-1028. -/
def refitGo : ℕ → ℕ → Heap K O → Option (Heap K O)
  | 0, _, _ => none
  | fuel + 1, i, h =>
    match h i with
    | none => none
    | some n =>
      if n.child1 = none then some h
      else
        match n.kid false, n.kid true with
        | some (some l), some (some r) =>
          match refitGo fuel l h with
          | none => none
          | some h =>
            match refitGo fuel r h with
            | none => none
            | some h =>
              match h.bv l, h.bv r with
              | some b, some c => h.mod i fun n => { n with bv := b.merge c }
              | _, _ => none
        | _, _ => none

/-- `refit`, lines 458-463. -/
def refit (A : Arr K O) : Option (Arr K O) :=
  match A.root with
  | none => some A
  | some i => (refitGo A.alloc i A.heap).map fun h => { A with heap := h }

/-- The subtree at an index, as the recursive functions that only read it see it. -/
def load (h : Heap K O) : ℕ → ℕ → Option (HTree K O)
  | 0, _ => none
  | fuel + 1, i =>
    match h i with
    | none => none
    | some n =>
      if n.child1 = none then
        match n.slot with
        | .data (some o) => some (.leaf i n.bv o)
        | _ => none
      else
        match n.kid false, n.kid true with
        | some (some l), some (some r) =>
          match load h fuel l, load h fuel r with
          | some l, some r => some (.node n.bv l r)
          | _, _ => none
        | _, _ => none

/-- The way down of `balanceIncremental`, lines 444-450. -/
def walk (h : Heap K O) (opath : ℕ) : ℕ → ℕ → ℕ → Option ℕ
  | 0, _, _ => none
  | fuel + 1, bit, i =>
    match h i with
    | none => none
    | some n =>
      if n.child1 = none then some i
      else
        match n.kid (decide ((opath >>> bit) % 2 = 1)) with
        | some (some j) => walk h opath fuel ((bit + 1) % 32) j
        | _ => none

/-- The loop of `balanceIncremental`, lines 442-453. -/
def balanceLoop (cfg : ACfg K O) : ℕ → Arr K O → Option (Arr K O)
  | 0, A => some A
  | n + 1, A =>
    match A.root with
    | none => none
    | some r =>
      match walk A.heap A.opath A.alloc 0 r with
      | none => none
      | some i =>
        match reinsert cfg i A with
        | none => none
        | some A => balanceLoop cfg n { A with opath := (A.opath + 1) % 2 ^ 32 }

/-- `bottomup`, lines 548-581, on a list of indices: the first index at the end. -/
def bottomup (cfg : ACfg K O) : ℕ → List ℕ → Arr K O → Option (ℕ × Arr K O)
  | _, [], _ => none
  | _, [i], A => some (i, A)
  | 0, _ :: _ :: _, _ => none
  | fuel + 1, ids, A =>
    match ids.mapM A.heap.bv with
    | none => none
    | some bs =>
      match ids[(cfg.pair bs).1]?, ids[(cfg.pair bs).2]?, ids.getLast? with
      | some i, some j, some z =>
        match createNode2 cfg.raw none i j A with
        | none => none
        | some (p, A) =>
          match join A.heap p i j with
          | none => none
          | some h =>
            bottomup cfg fuel (((ids.set (cfg.pair bs).1 p).set (cfg.pair bs).2 z).dropLast) { A with heap := h }
      | _, _, _ => none

/-- `topdown_0`, lines 601-636. -/
def topdown0 (cfg : ACfg K O) : ℕ → List ℕ → Arr K O → Option (ℕ × Arr K O)
  | _, [], _ => none
  | _, [i], A => some (i, A)
  | 0, _ :: _ :: _, _ => none
  | fuel + 1, ids, A =>
    if (ids.length : ℤ) > cfg.buThreshold then
      match ids.mapM A.heap.bv with
      | none => none
      | some [] => none
      | some (b :: bs) =>
        let vol := bs.foldl AABB.merge b
        let k := ids.length / 2
        let ids := (cfg.nthIds (cfg.bestAxis vol) k (ids.zip (b :: bs))).map Prod.fst
        match createNode cfg.raw none vol none A with
        | none => none
        | some (p, A) =>
          match topdown0 cfg fuel (ids.take k) A with
          | none => none
          | some (l, A) =>
            match A.heap.mod p (Node.setKid false l) with
            | none => none
            | some h =>
              match topdown0 cfg fuel (ids.drop k) { A with heap := h } with
              | none => none
              | some (r, A) =>
                match A.heap.mod p (Node.setKid true r) with
                | none => none
                | some h =>
                  match h.mod l fun n => { n with link := some p } with
                  | none => none
                  | some h =>
                    match h.mod r fun n => { n with link := some p } with
                    | none => none
                    | some h => some (p, { A with heap := h })
    else bottomup cfg ids.length ids A

/-- The array of `init_0` before anything is built, lines 113-120, with the leaves of `registerObjects`. -/
def startHeap (raw : ℕ → Node K O) (w : O → AABB K) (os : List O) : Heap K O := fun j =>
  match os[j]? with
  | some o => some ⟨w o, none, .data (some o), none⟩
  | none => fresh raw (os.length * 2) j

/-- `init_0`, lines 106-131, with the leaves of `registerObjects`, array-inl.h 763-776. -/
def init (cfg : ACfg K O) (w : O → AABB K) (os : List O) : Option (Arr K O) :=
  let n := os.length
  let A : Arr K O :=
    { heap := startHeap cfg.raw w os
      alloc := 2 * n, root := none, nNodes := n, nLeaves := n, freelist := some n, opath := 0 }
  match topdown0 cfg n (List.range n) A with
  | none => none
  | some (r, A) => some { A with root := some r }

/-- `extractLeaves`, lines 466-479: the leaves from left to right. -/
def extract (h : Heap K O) : ℕ → ℕ → Option (List (Node K O))
  | 0, _ => none
  | fuel + 1, i =>
    match h i with
    | none => none
    | some n =>
      if n.child1 = none then some [n]
      else
        match n.kid false, n.kid true with
        | some (some l), some (some r) =>
          match extract h fuel l, extract h fuel r with
          | some ls, some rs => some (ls ++ rs)
          | _, _ => none
        | _, _ => none

/-- `balanceTopdown`, lines 410-433. The leaves are copied to the beginning of the array. -/
def balanceTopdown (cfg : ACfg K O) (A : Arr K O) : Option (Arr K O) :=
  match A.root with
  | none => some A
  | some r =>
    match extract A.heap A.alloc r with
    | none => none
    | some ls =>
      if ls.length ≠ A.nLeaves then none
      else
        let n := A.nLeaves
        let A := { A with
          heap := fun j => match ls[j]? with
            | some l => some l
            | none => (A.heap j).map fun m => { m with link := if j + 1 = A.alloc then none else some (j + 1) }
          root := none, nNodes := n, freelist := some n }
        match topdown0 cfg n (List.range n) A with
        | none => none
        | some (r, A) => some { A with root := some r }

/-! ### The manager -/

/-- The members of `DynamicAABBTreeCollisionManager_Array`. -/
structure AMgr (K O : Type*) where
  tree : Arr K O
  table : List (O × ℕ)
  setup : Bool

/-- Constructor, array-inl.h 731-747. -/
def AMgr.empty (raw : ℕ → Node K O) : AMgr K O := ⟨emptyArr raw, [], false⟩

variable [DecidableEq O]

/-- `registerObject`, array-inl.h 783-789. -/
def registerObject (cfg : ACfg K O) (w : O → AABB K) (o : O) (m : AMgr K O) : Option (AMgr K O) :=
  match insert cfg (w o) o m.tree with
  | none => none
  | some (i, A) => some { m with tree := A, table := Mgr.tableSet o i m.table }

/-- The table of `registerObjects`, array-inl.h 771. -/
def tableOf (os : List O) (tab : List (O × ℕ)) : List (O × ℕ) :=
  os.zipIdx.foldl (fun tab e => Mgr.tableSet e.1 e.2 tab) tab

/-- `registerObjects`, array-inl.h 750-780; base class loop broadphase_collision_manager-inl.h 68-73. -/
def registerObjects (cfg : ACfg K O) (w : O → AABB K) (os : List O) (m : AMgr K O) : Option (AMgr K O) :=
  if os = [] then some m
  else if m.tree.nLeaves > 0 then os.foldlM (fun m o => registerObject cfg w o m) m
  else
    match init cfg w os with
    | none => none
    | some A => some ⟨A, tableOf os m.table, true⟩

/-- `unregisterObject`, array-inl.h 792-799. `table[obj]` of an object that is not there is 0; left out. -/
def unregisterObject (cfg : ACfg K O) (o : O) (m : AMgr K O) : Option (AMgr K O) :=
  match m.table.find? (fun e => e.1 = o) with
  | none => none
  | some e =>
    match remove cfg e.2 m.tree with
    | none => none
    | some A => some { m with tree := A, table := m.table.filter (fun e => e.1 ≠ o) }

/-- `setup`, array-inl.h 802-825; `balanceIncremental`, hierarchy_tree_array-inl.h 436-455; `getMaxHeight`, 361-367. -/
def doSetup (cfg : ACfg K O) (m : AMgr K O) : Option (AMgr K O) :=
  if m.setup then some m
  else if m.tree.nLeaves = 0 then some { m with setup := true }
  else
    match m.tree.root with
    | none =>
      -- the height is 0, and both functions do nothing
      some { m with setup := true }
    | some r =>
      match load m.tree.heap m.tree.alloc r with
      | none => none
      | some t =>
        if cfg.nearlyBalanced t.height m.tree.nLeaves then
          let it := if cfg.incPass < 0 then m.tree.nLeaves else cfg.incPass.toNat
          match balanceLoop cfg it m.tree with
          | none => none
          | some A => some { m with tree := A, setup := true }
        else
          match balanceTopdown cfg m.tree with
          | none => none
          | some A => some { m with tree := A, setup := true }

/-- The loop of `update()`, array-inl.h 832-837. -/
def writeBoxes (w : O → AABB K) : List (O × ℕ) → Heap K O → Option (Heap K O)
  | [], h => some h
  | e :: tab, h =>
    match h.mod e.2 fun n => { n with bv := w e.1 } with
    | none => none
    | some h => writeBoxes w tab h

/-- `update()`, array-inl.h 828-843. -/
def updateAll (cfg : ACfg K O) (w : O → AABB K) (m : AMgr K O) : Option (AMgr K O) :=
  match writeBoxes w m.table m.tree.heap with
  | none => none
  | some h =>
    match refit { m.tree with heap := h } with
    | none => none
    | some A => doSetup cfg { m with tree := A, setup := false }

/-- `update_(obj)`, array-inl.h 846-858. -/
def updateOne (cfg : ACfg K O) (w : O → AABB K) (o : O) (m : AMgr K O) : Option (AMgr K O) :=
  match m.table.find? (fun e => e.1 = o) with
  | none => some { m with setup := false }
  | some e =>
    match m.tree.heap.bv e.2 with
    | none => none
    | some b =>
      if cfg.eqv b (w o) then some { m with setup := false }
      else
        match updateLeaf cfg e.2 (w o) m.tree with
        | none => none
        | some A => some { m with tree := A, setup := false }

/-- `update(updated_obj)`, array-inl.h 861-867. -/
def updateObj (cfg : ACfg K O) (w : O → AABB K) (o : O) (m : AMgr K O) : Option (AMgr K O) :=
  (updateOne cfg w o m).bind (doSetup cfg)

/-- `update(updated_objs)`, array-inl.h 870-877. -/
def updateObjs (cfg : ACfg K O) (w : O → AABB K) (os : List O) (m : AMgr K O) : Option (AMgr K O) :=
  (os.foldlM (fun m o => updateOne cfg w o m) m).bind (doSetup cfg)

/-- `clear`, array-inl.h 880-886. `setup_` is not reset. -/
def clearMgr (raw : ℕ → Node K O) (m : AMgr K O) : AMgr K O := { m with tree := emptyArr raw, table := [] }

/-- One call with the choices made in it. -/
structure ACall (K O : Type*) [LinearOrder K] where
  op : MgrOp O
  w : O → AABB K
  cfg : ACfg K O

/-- Effect of one call. -/
def AMgr.step (m : AMgr K O) (c : ACall K O) : Option (AMgr K O) :=
  match c.op with
  | .register o => registerObject c.cfg c.w o m
  | .registerMany os => registerObjects c.cfg c.w os m
  | .unregister o => unregisterObject c.cfg o m
  | .setup => doSetup c.cfg m
  | .update => updateAll c.cfg c.w m
  | .updateObj o => updateObj c.cfg c.w o m
  | .updateObjs os => updateObjs c.cfg c.w os m
  | .clear => some (clearMgr c.cfg.raw m)

/-- Effect of a history of calls. -/
def AMgr.run (m : AMgr K O) : List (ACall K O) → Option (AMgr K O)
  | [] => some m
  | c :: cs => (m.step c).bind fun m => m.run cs

/-- `size()`, array-inl.h 999-1004. -/
def AMgr.size (m : AMgr K O) : ℕ := m.tree.nLeaves

/-- `empty()`, array-inl.h 991-996; hierarchy_tree_array-inl.h 303-307. -/
def AMgr.isEmpty (m : AMgr K O) : Bool := m.tree.nNodes = 0

/-- `getObjects(objs)`, array-inl.h 889-895: `none` in the list is a null pointer left by `resize`; the keys are written
past the end of the vector if there are more keys than `size()`. -/
def AMgr.getObjects (m : AMgr K O) : Option (List (Option O)) :=
  if m.table.length ≤ m.size then
    some (m.table.map (fun e => some e.1) ++ List.replicate (m.size - m.table.length) none)
  else none

/-- What the queries see: the tree with pointers that has the same nodes, and `size()`. The recursive functions of
array-inl.h 466-697 are those of the manager with pointers (`Tree/Query.lean`), with `nodes + i` for a pointer, and only
read. `none`: there is no tree although `size()` is not 0, `nodes + NULL_NODE` is read. -/
def AMgr.view (m : AMgr K O) : Option (Mgr K O) :=
  if m.tree.nLeaves = 0 then some ⟨none, 0, m.tree.opath, m.setup, m.table, 0⟩
  else
    match m.tree.root with
    | none => none
    | some r =>
      match load m.tree.heap m.tree.alloc r with
      | none => none
      | some t => some ⟨some t, m.tree.nLeaves, m.tree.opath, m.setup, m.table, m.tree.alloc⟩

end TArr
end Fcl
