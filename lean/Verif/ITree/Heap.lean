import Verif.ITree.Model

/-!
# The interval tree on a pointer heap

A second, literal model of fcl/broadphase/detail/interval_tree-inl.h: nodes live at addresses,
address 0 is the sentinel `nil`, address 1 the sentinel `root`, and every assignment of the C++
code is one update of the heap.  Unlike the tree model of `Verif/ITree/Model.lean` it can follow
the code after a rotation has made the sentinel `nil` an inner node.  Freed nodes keep their
address and are not reused.  Loops carry a bound on the number of iterations and give `none` when
it is reached; null pointers do not occur in these functions.
-/

namespace Fcl.ITree.Heap

/-- `IntervalTreeNode<S>`, interval_tree_node.h 52-87. -/
structure Cell (K I : Type) where
  ivl : Option (Ivl K I)
  key : K
  high : K
  mh : K
  red : Bool
  left : ℕ
  right : ℕ
  parent : ℕ

/-- The memory: the cell at each address in use. -/
structure Mem (K I : Type) where
  cells : List (Cell K I)

section

variable {K I : Type} [LinearOrder K] [DecidableEq I]

/-- The value of a cell that does not exist (never read by the functions below on a constructed
tree). -/
def Cell.none (bot : K) : Cell K I := ⟨.none, bot, bot, bot, false, 0, 0, 0⟩

/-- Read. -/
def Mem.get (bot : K) (m : Mem K I) (a : ℕ) : Cell K I := m.cells.getD a (Cell.none bot)

/-- Write. -/
def Mem.set (m : Mem K I) (a : ℕ) (f : Cell K I → Cell K I) : Mem K I := ⟨m.cells.modify a f⟩

/-- `p->red = c`. -/
def Mem.setRed (m : Mem K I) (a : ℕ) (c : Bool) : Mem K I := m.set a fun x => { x with red := c }

/-- `IntervalTree()`, interval_tree-inl.h 54-73. -/
def init (bot top : K) : Mem K I :=
  ⟨[⟨.none, bot, bot, bot, false, 0, 0, 0⟩, ⟨.none, top, top, top, false, 0, 0, 0⟩]⟩

/-- `x->max_high = max(x->left->max_high, max(x->right->max_high, x->high))`. -/
def Mem.updMax (bot : K) (m : Mem K I) (a : ℕ) : Mem K I :=
  let c := m.get bot a
  m.set a fun x => { x with mh := max (m.get bot c.left).mh (max (m.get bot c.right).mh c.high) }

/-- `leftRotate`, interval_tree-inl.h 116-137. -/
def leftRotate (bot : K) (m : Mem K I) (x : ℕ) : Mem K I :=
  let y := (m.get bot x).right
  let m := m.set x fun c => { c with right := (m.get bot y).left }
  let yl := (m.get bot y).left
  let m := if yl ≠ 0 then m.set yl fun c => { c with parent := x } else m
  let px := (m.get bot x).parent
  let m := m.set y fun c => { c with parent := px }
  let m := if x = (m.get bot px).left then m.set px fun c => { c with left := y }
    else m.set px fun c => { c with right := y }
  let m := m.set y fun c => { c with left := x }
  let m := m.set x fun c => { c with parent := y }
  let m := m.updMax bot x
  m.set y fun c => { c with mh := max (m.get bot x).mh (max (m.get bot c.right).mh c.high) }

/-- `rightRotate`, interval_tree-inl.h 141-161. -/
def rightRotate (bot : K) (m : Mem K I) (y : ℕ) : Mem K I :=
  let x := (m.get bot y).left
  let m := m.set y fun c => { c with left := (m.get bot x).right }
  let xr := (m.get bot x).right
  let m := if 0 ≠ xr then m.set xr fun c => { c with parent := y } else m
  let py := (m.get bot y).parent
  let m := m.set x fun c => { c with parent := py }
  let m := if y = (m.get bot py).left then m.set py fun c => { c with left := x }
    else m.set py fun c => { c with right := x }
  let m := m.set x fun c => { c with right := y }
  let m := m.set y fun c => { c with parent := x }
  let m := m.updMax bot y
  m.set x fun c => { c with mh := max (m.get bot c.left).mh (max (m.get bot y).mh c.high) }

/-- The loop of `recursiveInsert`, interval_tree-inl.h 171-180: the parent of the new node. -/
def descend (bot key : K) (m : Mem K I) : ℕ → ℕ → ℕ → Option ℕ
  | 0, _, _ => none
  | n + 1, y, x =>
    if x ≠ 0 then
      descend bot key m n x (if (m.get bot x).key > key then (m.get bot x).left
        else (m.get bot x).right)
    else some y

/-- `fixupMaxHigh`, interval_tree-inl.h 190-197. -/
def fixupMaxHigh (bot : K) : ℕ → Mem K I → ℕ → Option (Mem K I)
  | 0, _, _ => none
  | n + 1, m, x => if x ≠ 1 then fixupMaxHigh bot n (m.updMax bot x) (m.get bot x).parent else some m

/-- The loop of `insert`, interval_tree-inl.h 212-259. -/
def insFix (bot : K) : ℕ → Mem K I → ℕ → Option (Mem K I)
  | 0, _, _ => none
  | n + 1, m, x =>
    let p := (m.get bot x).parent
    if (m.get bot p).red then
      let g := (m.get bot p).parent
      if p = (m.get bot g).left then
        let y := (m.get bot g).right
        if (m.get bot y).red then
          insFix bot n (((m.setRed p true).setRed y true).setRed g true) g
        else
          let xm := if x = (m.get bot p).right then (p, leftRotate bot m p) else (x, m)
          let x := xm.1
          let m := xm.2
          let p := (m.get bot x).parent
          let g := (m.get bot p).parent
          insFix bot n (rightRotate bot ((m.setRed p false).setRed g true) g) x
      else
        let y := (m.get bot g).left
        if (m.get bot y).red then
          insFix bot n (((m.setRed p false).setRed y false).setRed g true) g
        else
          let xm := if x = (m.get bot p).left then (p, rightRotate bot m p) else (x, m)
          let x := xm.1
          let m := xm.2
          let p := (m.get bot x).parent
          let g := (m.get bot p).parent
          insFix bot n (leftRotate bot ((m.setRed p false).setRed g true) g) x
    else some m

/-- `insert`, interval_tree-inl.h 201-262, with `recursiveInsert` (165-186) inlined. -/
def insert (bot : K) (m : Mem K I) (iv : Ivl K I) : Option (Mem K I) := do
  let a := m.cells.length
  let fuel := a + 1
  let y ← descend bot iv.low m fuel 1 (m.get bot 1).left
  let m : Mem K I := ⟨m.cells ++ [⟨some iv, iv.low, iv.high, iv.high, false, 0, 0, y⟩]⟩
  let m := if y = 1 ∨ (m.get bot y).key > iv.low then m.set y fun c => { c with left := a }
    else m.set y fun c => { c with right := a }
  let m ← fixupMaxHigh bot fuel m y
  let m ← insFix bot fuel (m.setRed a true) a
  return m.setRed (m.get bot 1).left false

/-- `getSuccessor` for a node with a right child, interval_tree-inl.h 270-275. -/
def leftmost (bot : K) (m : Mem K I) : ℕ → ℕ → Option ℕ
  | 0, _ => none
  | n + 1, y => if (m.get bot y).left ≠ 0 then leftmost bot m n (m.get bot y).left else some y

/-- `deleteFixup`, interval_tree-inl.h 335-406 (`rl` is `root_left_node`). -/
def delFix (bot : K) (rl : ℕ) : ℕ → Mem K I → ℕ → Option (Mem K I)
  | 0, _, _ => none
  | n + 1, m, x =>
    if !(m.get bot x).red && decide (rl ≠ x) then
      let p := (m.get bot x).parent
      if x = (m.get bot p).left then
        let w := (m.get bot p).right
        let mw := if (m.get bot w).red then
            let m := leftRotate bot ((m.setRed w false).setRed p true) p
            (m, (m.get bot (m.get bot x).parent).right)
          else (m, w)
        let m := mw.1
        let w := mw.2
        let p := (m.get bot x).parent
        if !(m.get bot (m.get bot w).right).red && !(m.get bot (m.get bot w).left).red then
          delFix bot rl n (m.setRed w true) p
        else
          let mw := if !(m.get bot (m.get bot w).right).red then
              let m := rightRotate bot ((m.setRed (m.get bot w).left false).setRed w true) w
              (m, (m.get bot (m.get bot x).parent).right)
            else (m, w)
          let m := mw.1
          let w := mw.2
          let p := (m.get bot x).parent
          let m := m.setRed w (m.get bot p).red
          let m := m.setRed p false
          let m := m.setRed (m.get bot w).right false
          delFix bot rl n (leftRotate bot m p) rl
      else
        let w := (m.get bot p).left
        let mw := if (m.get bot w).red then
            let m := rightRotate bot ((m.setRed w false).setRed p true) p
            (m, (m.get bot (m.get bot x).parent).left)
          else (m, w)
        let m := mw.1
        let w := mw.2
        let p := (m.get bot x).parent
        if !(m.get bot (m.get bot w).right).red && !(m.get bot (m.get bot w).left).red then
          delFix bot rl n (m.setRed w true) p
        else
          let mw := if !(m.get bot (m.get bot w).left).red then
              let m := leftRotate bot ((m.setRed (m.get bot w).right false).setRed w true) w
              (m, (m.get bot (m.get bot x).parent).left)
            else (m, w)
          let m := mw.1
          let w := mw.2
          let p := (m.get bot x).parent
          let m := m.setRed w (m.get bot p).red
          let m := m.setRed p false
          let m := m.setRed (m.get bot w).left false
          delFix bot rl n (rightRotate bot m p) rl
    else some (m.setRed x false)

/-- `recursiveSearch`, interval_tree-inl.h 419-433 (0 is `nil`). -/
def search (bot : K) (m : Mem K I) (i : I) : ℕ → ℕ → Option ℕ
  | 0, _ => none
  | n + 1, a =>
    if a ≠ 0 then
      if (m.get bot a).ivl.map (·.id) = some i then some a
      else do
        let l ← search bot m i n (m.get bot a).left
        if l ≠ 0 then return l
        search bot m i n (m.get bot a).right
    else some 0

/-- `deleteNode(node)`, interval_tree-inl.h 437-493. -/
def deleteNode (bot : K) (m : Mem K I) (z : ℕ) : Option (Mem K I) := do
  let fuel := m.cells.length + 1
  let zc := m.get bot z
  let y ← if zc.left = 0 ∨ zc.right = 0 then some z else leftmost bot m fuel zc.right
  let yc := m.get bot y
  let x := if yc.left = 0 then yc.right else yc.left
  let m := m.set x fun c => { c with parent := yc.parent }
  let m := if yc.parent = 1 then m.set 1 fun c => { c with left := x }
    else if y = (m.get bot yc.parent).left then m.set yc.parent fun c => { c with left := x }
    else m.set yc.parent fun c => { c with right := x }
  if y ≠ z then
    let zc := m.get bot z
    let m := m.set y fun c =>
      { c with mh := bot, left := zc.left, right := zc.right, parent := zc.parent }
    let m := m.set zc.right fun c => { c with parent := y }
    let m := m.set zc.left fun c => { c with parent := y }
    let m := if z = (m.get bot zc.parent).left then m.set zc.parent fun c => { c with left := y }
      else m.set zc.parent fun c => { c with right := y }
    let m ← fixupMaxHigh bot fuel m (m.get bot x).parent
    let yred := (m.get bot y).red
    let m := m.setRed y zc.red
    if !yred then delFix bot (m.get bot 1).left fuel m x else return m
  else
    let m ← fixupMaxHigh bot fuel m (m.get bot x).parent
    if !yc.red then delFix bot (m.get bot 1).left fuel m x else return m

/-- `deleteNode(ivl)`, interval_tree-inl.h 410-415, for an interval that is in the tree; `none`
when the search ends at the sentinel. -/
def delete (bot : K) (m : Mem K I) (i : I) : Option (Mem K I) := do
  let z ← search bot m i (m.cells.length + 1) 1
  if z = 0 then none else deleteNode bot m z

/-- One entry of `recursion_node_stack`. -/
structure SFrame where
  start : ℕ
  parent : ℕ
  tryRight : Bool

/-- `recursion_node_stack[i].try_right_branch = true`. -/
def mark (i : ℕ) (s : List SFrame) : List SFrame := s.modify i fun f => { f with tryRight := true }

/-- The inner loop of `query`, interval_tree-inl.h 546-555. -/
def popLoop (bot : K) (m : Mem K I) : (n : ℕ) → List SFrame → ℕ → ℕ × List SFrame × ℕ
  | 0, s, cur => (0, s, cur)
  | n + 1, s, cur =>
    match s[n + 1]? with
    | none => (0, s, cur)
    | some f =>
      let s' := s.take (n + 1)
      if f.tryRight then
        let x := (m.get bot f.start).right
        if x ≠ 0 then (x, mark f.parent s', f.parent)
        else popLoop bot m n (mark f.parent s') f.parent
      else popLoop bot m n s' cur

/-- The loop of `query`, interval_tree-inl.h 520-556; results are the `stored_interval` fields. -/
def qLoop (bot lo hi : K) (m : Mem K I) :
    ℕ → ℕ → List SFrame → ℕ → List (Option (Ivl K I)) → Option (List (Option (Ivl K I)))
  | 0, _, _, _, _ => none
  | n + 1, x, s, cur, res =>
    if x = 0 then some res
    else
      let c := m.get bot x
      let hit := overlap lo hi c.key c.high
      let res := if hit then res ++ [c.ivl] else res
      let s := if hit then mark cur s else s
      let (x, s, cur) :=
        if lo ≤ (m.get bot c.left).mh then (c.left, s ++ [⟨x, cur, false⟩], s.length)
        else (c.right, s, cur)
      let (x, s, cur) := if x = 0 then popLoop bot m (s.length - 1) s cur else (x, s, cur)
      qLoop bot lo hi m n x s cur res

/-- `query`, interval_tree-inl.h 512-558. -/
def query (bot : K) (m : Mem K I) (lo hi : K) : Option (List (Option (Ivl K I))) :=
  qLoop bot lo hi m (m.cells.length + 1) (m.get bot 1).left [⟨0, 0, false⟩] 0 []

/-- One call. -/
def step (bot : K) (m : Mem K I) : Op K I → Option (Mem K I)
  | .insert iv => insert bot m iv
  | .delete i => delete bot m i

/-- A history of calls. -/
def run (bot : K) : Mem K I → List (Op K I) → Option (Mem K I)
  | m, [] => some m
  | m, o :: os => (step bot m o).bind fun m' => run bot m' os

end

end Fcl.ITree.Heap
