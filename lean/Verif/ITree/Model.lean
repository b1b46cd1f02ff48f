import Mathlib.Order.Defs.LinearOrder
import Mathlib.Data.List.Basic

/-!
# Model of `IntervalTree<S>` (fcl/broadphase/detail/interval_tree-inl.h)

The C++ tree is made of nodes with `left`, `right` and `parent` pointers, a shared sentinel
`nil` and a sentinel `root` whose left child is the actual tree.  A node is modelled by a
constructor, the parent chain of the node the code is working at by a path (a zipper), and the
two mutable fields of the sentinel `nil` that matter by `nilRed` (its colour, which the code
does change) and the constant `bot` (its `max_high`, `-DBL_MAX`).

The operations that would make `nil` an inner node of the tree (a rotation whose pivot child is
`nil`), or that write through the sentinel `root` as if it were a node, leave the world of
trees.  They are the distinct outcome `none` here.  `Verif/ITree/Heap.lean` models the same
functions literally on a pointer heap, to see what such a call does to later queries.
-/

namespace Fcl.ITree

/-- `SimpleInterval<S>`, fcl/broadphase/detail/simple_interval.h 46-58, with the address of the
object as `id`. -/
structure Ivl (K : Type*) (I : Type*) where
  id : I
  low : K
  high : K
deriving DecidableEq

/-- The data of `IntervalTreeNode<S>` (interval_tree_node.h 52-87; constructor
interval_tree_node-inl.h 60-68 copies `low` to `key` and `high` to `high`). -/
structure Nd (K : Type*) (I : Type*) where
  ivl : Ivl K I
  mh : K
  red : Bool
deriving DecidableEq

/-- A subtree; `nil` is the shared sentinel. -/
inductive T (K : Type*) (I : Type*) where
  | nil
  | node (l : T K I) (d : Nd K I) (r : T K I)
deriving DecidableEq

/-- Which child of its parent a node is. -/
inductive Dir where
  | L
  | R
deriving DecidableEq

/-- One ancestor of the current node: which child we are, the ancestor's data, and its other
child. -/
structure Frame (K : Type*) (I : Type*) where
  dir : Dir
  d : Nd K I
  sib : T K I

/-- The chain of `parent` pointers up to the sentinel `root`, nearest ancestor first. -/
abbrev Path (K : Type*) (I : Type*) := List (Frame K I)

/-- The whole tree (`root->left`) given the current node and its ancestors. -/
def plug {K I : Type*} : T K I → Path K I → T K I
  | t, [] => t
  | t, ⟨.L, d, s⟩ :: p => plug (.node t d s) p
  | t, ⟨.R, d, s⟩ :: p => plug (.node s d t) p

/-- The tree object: `root->left` and the colour of `nil`. -/
structure St (K : Type*) (I : Type*) where
  t : T K I
  nilRed : Bool

/-- `IntervalTree()`, interval_tree-inl.h 54-73. -/
def St.empty {K I : Type*} : St K I := ⟨.nil, false⟩

section

variable {K I : Type*} [LinearOrder K]

/-- `x->max_high`; for `nil` it is `-DBL_MAX` (interval_tree-inl.h 59). -/
def mh (bot : K) : T K I → K
  | .nil => bot
  | .node _ d _ => d.mh

/-- `x->red`. -/
def isRed (nilRed : Bool) : T K I → Bool
  | .nil => nilRed
  | .node _ d _ => d.red

/-- `x->red = c` for the node data. -/
def Nd.col (d : Nd K I) (c : Bool) : Nd K I := { d with red := c }

/-- `x->red = c` for a pointer that may be `nil`: the tree, and the colour of `nil`
afterwards. -/
def setRed (c : Bool) (nilRed : Bool) : T K I → T K I × Bool
  | .nil => (.nil, c)
  | .node l d r => (.node l (d.col c) r, nilRed)

/-- `x->max_high = max(left, right, high)`, the common part of interval_tree-inl.h 135, 136,
159, 160, 194. -/
def Nd.upd (bot : K) (l : T K I) (d : Nd K I) (r : T K I) : Nd K I :=
  { d with mh := max (ITree.mh bot l) (max (ITree.mh bot r) d.ivl.high) }

/-- A node with its `max_high` recomputed. -/
def mk (bot : K) (l : T K I) (d : Nd K I) (r : T K I) : T K I :=
  .node l (d.upd bot l r) r

/-- `leftRotate`, interval_tree-inl.h 116-137.  `none`: the right child is `nil`, which the code
would make the parent of `x`. -/
def leftRotate (bot : K) : T K I → Option (T K I)
  | .node a d (.node b e c) => some (mk bot (mk bot a d b) e c)
  | _ => none

/-- `rightRotate`, interval_tree-inl.h 141-161.  `none`: the left child is `nil`. -/
def rightRotate (bot : K) : T K I → Option (T K I)
  | .node (.node a e b) d c => some (mk bot a e (mk bot b d c))
  | _ => none

/-- The descent of `recursiveInsert`, interval_tree-inl.h 170-180: the ancestors of the place of
the new node. -/
def descend (key : K) : T K I → Path K I → Path K I
  | .nil, p => p
  | .node l d r, p =>
    if d.ivl.low > key then descend key l (⟨.L, d, r⟩ :: p)
    else descend key r (⟨.R, d, l⟩ :: p)

/-- `fixupMaxHigh`, interval_tree-inl.h 190-197, started at the nearest ancestor of a node whose
`max_high` is `m`. -/
def fixPath (bot : K) : K → Path K I → Path K I
  | _, [] => []
  | m, f :: p =>
    let m' := max f.d.ivl.high (max m (mh bot f.sib))
    { f with d := { f.d with mh := m' } } :: fixPath bot m' p

/-- The loop of `insert`, interval_tree-inl.h 212-259; `x` is the current node.  The second
component of the result is the colour of `nil`.  After the rotations of lines 232-234 and 254-256
the parent of `x` is the node just made black, so the loop test fails and the loop ends. -/
def insFix (bot : K) (nr : Bool) (x : T K I) : Path K I → Option (T K I × Bool)
  | [] => some (x, nr)                              -- x->parent == root, which is black
  | [f] =>
    if f.d.red then none                            -- x->parent->parent == root
    else some (plug x [f], nr)
  | f :: g :: p =>
    if !f.d.red then some (plug x (f :: g :: p), nr)
    else
      match g.dir with
      | .L =>                                       -- x->parent == x->parent->parent->left
        if isRed nr g.sib then                      -- y->red
          let par := plug x [⟨f.dir, f.d.col true, f.sib⟩]
          let (y, nr') := setRed true nr g.sib
          insFix bot nr' (.node par (g.d.col true) y) p
        else
          match f.dir with
          | .R =>                                   -- x == x->parent->right
            match leftRotate bot (.node f.sib f.d x) with
            | some (.node x' e b) =>
              match rightRotate bot (.node (.node x' (e.col false) b) (g.d.col true) g.sib) with
              | some (.node x'' e' b') => some (plug x'' (⟨.L, e', b'⟩ :: p), nr)
              | _ => none
            | _ => none
          | .L =>
            match rightRotate bot (.node (.node x (f.d.col false) f.sib) (g.d.col true) g.sib) with
            | some (.node x'' e' b') => some (plug x'' (⟨.L, e', b'⟩ :: p), nr)
            | _ => none
      | .R =>
        if isRed nr g.sib then
          let par := plug x [⟨f.dir, f.d.col false, f.sib⟩]
          let (y, nr') := setRed false nr g.sib
          insFix bot nr' (.node y (g.d.col true) par) p
        else
          match f.dir with
          | .L =>                                   -- x == x->parent->left
            match rightRotate bot (.node x f.d f.sib) with
            | some (.node b e x') =>
              match leftRotate bot (.node g.sib (g.d.col true) (.node b (e.col false) x')) with
              | some (.node b' e' x'') => some (plug x'' (⟨.R, e', b'⟩ :: p), nr)
              | _ => none
            | _ => none
          | .R =>
            match leftRotate bot (.node g.sib (g.d.col true) (.node f.sib (f.d.col false) x)) with
            | some (.node b' e' x'') => some (plug x'' (⟨.R, e', b'⟩ :: p), nr)
            | _ => none

/-- `insert`, interval_tree-inl.h 201-262. -/
def insert (bot : K) (st : St K I) (iv : Ivl K I) : Option (St K I) :=
  let x : T K I := .node .nil ⟨iv, iv.high, true⟩ .nil
  let p := fixPath bot iv.high (descend iv.low st.t [])
  match insFix bot st.nilRed x p with
  | none => none
  | some (t, nr) =>
    let (t', nr') := setRed false nr t              -- root->left->red = false
    some ⟨t', nr'⟩

/-- `x->red = false` at the end of `deleteFixup`, interval_tree-inl.h 405. -/
def blacken (nr : Bool) (x : T K I) (p : Path K I) : T K I × Bool :=
  let (x', nr') := setRed false nr x
  (plug x' p, nr')

/-- Lines 352-371 of `deleteFixup` for a left child `x` of `d` with sibling `w`, in the case that
one of `w`'s children is red.  (`x = root_left_node; x->red = false` afterwards is a no-op:
`root->left` is black on entry, and if line 348 made it red then line 367 made it black.) -/
def delCase34L (bot : K) (nr : Bool) (x : T K I) (d : Nd K I) (w : T K I) (p : Path K I) :
    Option (T K I × Bool) :=
  match w with
  | .nil => none                                    -- leftRotate would rotate nil
  | .node wl wd wr =>
    if !isRed nr wr then
      match wl with
      | .nil => none                                -- rightRotate(w) would rotate nil
      | .node a e b =>
        match rightRotate bot (.node (.node a (e.col false) b) (wd.col true) wr) with
        | some (.node wl' wd' wr') =>
          let (wr'', nr') := setRed false nr wr'
          match leftRotate bot (.node x (d.col false) (.node wl' (wd'.col d.red) wr'')) with
          | some t => some (plug t p, nr')
          | none => none
        | _ => none
    else
      let (wr'', nr') := setRed false nr wr
      match leftRotate bot (.node x (d.col false) (.node wl (wd.col d.red) wr'')) with
      | some t => some (plug t p, nr')
      | none => none

/-- Lines 383-402 of `deleteFixup`, the mirror image. -/
def delCase34R (bot : K) (nr : Bool) (x : T K I) (d : Nd K I) (w : T K I) (p : Path K I) :
    Option (T K I × Bool) :=
  match w with
  | .nil => none
  | .node wl wd wr =>
    if !isRed nr wl then
      match wr with
      | .nil => none
      | .node a e b =>
        match leftRotate bot (.node wl (wd.col true) (.node a (e.col false) b)) with
        | some (.node wl' wd' wr') =>
          let (wl'', nr') := setRed false nr wl'
          match rightRotate bot (.node (.node wl'' (wd'.col d.red) wr') (d.col false) x) with
          | some t => some (plug t p, nr')
          | none => none
        | _ => none
    else
      let (wl'', nr') := setRed false nr wl
      match rightRotate bot (.node (.node wl'' (wd.col d.red) wr) (d.col false) x) with
      | some t => some (plug t p, nr')
      | none => none

/-- `(!w->right->red) && (!w->left->red)`, interval_tree-inl.h 352, 383 (the children of `nil`
are `nil`). -/
def bothBlack (nr : Bool) : T K I → Bool
  | .nil => !nr
  | .node l _ r => !isRed nr r && !isRed nr l

/-- `x == nil`. -/
def isNil : T K I → Bool
  | .nil => true
  | .node .. => false

/-- `deleteFixup`, interval_tree-inl.h 335-406.  Line 342 compares pointers, so when `x` and its
sibling are both `nil` the first branch is taken. -/
def delFix (bot : K) (nr : Bool) (x : T K I) : Path K I → Option (T K I × Bool)
  | [] => some (blacken nr x [])                    -- root_left_node == x
  | f :: p =>
    if isRed nr x then some (blacken nr x (f :: p))
    else
      if f.dir == .L || (isNil x && isNil f.sib) then
        if isRed nr f.sib then
          match f.sib with
          | .nil => none
          | .node wl wd wr =>
            match leftRotate bot (.node x (f.d.col true) (.node wl (wd.col false) wr)) with
            | some (.node (.node x' d' w') e b) =>
              if bothBlack nr w' then
                -- x->parent is red here, so the loop ends with x = x->parent
                let (w'', nr') := setRed true nr w'
                some (blacken nr' (.node x' d' w'') (⟨.L, e, b⟩ :: p))
              else delCase34L bot nr x' d' w' (⟨.L, e, b⟩ :: p)
            | _ => none
        else if bothBlack nr f.sib then
          let (w', nr') := setRed true nr f.sib
          delFix bot nr' (.node x f.d w') p
        else delCase34L bot nr x f.d f.sib p
      else
        if isRed nr f.sib then
          match f.sib with
          | .nil => none
          | .node wl wd wr =>
            match rightRotate bot (.node (.node wl (wd.col false) wr) (f.d.col true) x) with
            | some (.node b e (.node w' d' x')) =>
              if bothBlack nr w' then
                let (w'', nr') := setRed true nr w'
                some (blacken nr' (.node w'' d' x') (⟨.R, e, b⟩ :: p))
              else delCase34R bot nr x' d' w' (⟨.R, e, b⟩ :: p)
            | _ => none
        else if bothBlack nr f.sib then
          let (w', nr') := setRed true nr f.sib
          delFix bot nr' (.node w' f.d x) p
        else delCase34R bot nr x f.d f.sib p

/-- `recursiveSearch`, interval_tree-inl.h 419-433: node first, then left, then right. -/
def find [DecidableEq I] (i : I) : T K I → Path K I → Option (T K I × Path K I)
  | .nil, _ => none
  | .node l d r, p =>
    if d.ivl.id = i then some (.node l d r, p)
    else
      match find i l (⟨.L, d, r⟩ :: p) with
      | some z => some z
      | none => find i r (⟨.R, d, l⟩ :: p)

/-- `getSuccessor` of a node with a right child, interval_tree-inl.h 270-275: the leftmost node of
the right subtree `r` (its data and right child), and its ancestors inside `r`. -/
def leftmost : T K I → Nd K I → T K I → Path K I → Nd K I × T K I × Path K I
  | .nil, d, r, p => (d, r, p)
  | .node l' d' r', d, r, p => leftmost l' d' r' (⟨.L, d, r⟩ :: p)

/-- `deleteNode(node)`, interval_tree-inl.h 437-493, for the node `(l, z, r)` with ancestors
`p`. -/
def deleteAt (bot : K) (nr : Bool) (l : T K I) (z : Nd K I) (r : T K I) (p : Path K I) :
    Option (T K I × Bool) :=
  match l, r with
  | .node ll ld lr, .node rl rd rr =>
    -- y = getSuccessor(z), spliced out and put in the place of z
    let (y, x, q) := leftmost rl rd rr []
    let path := q ++ ⟨.R, { y with red := z.red, mh := bot }, .node ll ld lr⟩ :: p
    let path' := fixPath bot (mh bot x) path
    if !y.red then delFix bot nr x path' else some (plug x path', nr)
  | .nil, x | x, .nil =>
    -- y = z
    let path' := fixPath bot (mh bot x) p
    if !z.red then delFix bot nr x path' else some (plug x path', nr)

/-- `deleteNode(ivl)`, interval_tree-inl.h 410-415.  When the interval is not in the tree the
search returns the sentinel `nil` (never a null pointer), and the code deletes the sentinel:
outcome `none`. -/
def delete [DecidableEq I] (bot : K) (st : St K I) (i : I) : Option (St K I) :=
  match find i st.t [] with
  | some (.node l z r, p) =>
    match deleteAt bot st.nilRed l z r p with
    | some (t, nr) => some ⟨t, nr⟩
    | none => none
  | _ => none

/-- `overlap(a1, a2, b1, b2)`, interval_tree-inl.h 498-508. -/
def overlap (a1 a2 b1 b2 : K) : Bool :=
  if a1 ≤ b1 then decide (b1 ≤ a2) else decide (a1 ≤ b2)

/-- One entry of `recursion_node_stack`, interval_tree.h 53-62.  Entry 0 has no start node. -/
structure SFrame (K : Type*) (I : Type*) where
  /-- `start_node->right`, the only use of `start_node` -/
  right : T K I
  parent : ℕ
  tryRight : Bool

/-- State of the loop of `query`: the current node, the stack (entries below
`recursion_node_stack_top`), `current_parent`, and the results so far. -/
structure QSt (K : Type*) (I : Type*) where
  x : T K I
  stack : List (SFrame K I)
  cur : ℕ
  res : List (Ivl K I)

/-- `recursion_node_stack[i].try_right_branch = true`. -/
def mark (i : ℕ) (s : List (SFrame K I)) : List (SFrame K I) :=
  s.modify i fun f => { f with tryRight := true }

/-- The inner loop of `query`, interval_tree-inl.h 545-555, entered with `x == nil`: pop until a
right branch has to be tried.  The stack is traversed from its top. -/
def popLoop : (n : ℕ) → List (SFrame K I) → ℕ → T K I × List (SFrame K I) × ℕ
  | 0, s, cur => (.nil, s, cur)
  | n + 1, s, cur =>
    -- recursion_node_stack_top == n + 2 here
    match s[n + 1]? with
    | none => (.nil, s, cur)
    | some f =>
      let s' := s.take (n + 1)
      if f.tryRight then
        match f.right with
        | .nil => popLoop n (mark f.parent s') f.parent
        | x => (x, mark f.parent s', f.parent)
      else popLoop n s' cur

/-- The body of the outer loop of `query`, interval_tree-inl.h 522-555, for a node. -/
def qStep (bot lo hi : K) (l : T K I) (d : Nd K I) (r : T K I) (s : List (SFrame K I)) (cur : ℕ)
    (res : List (Ivl K I)) : QSt K I :=
  let hit := overlap lo hi d.ivl.low d.ivl.high
  let res' := if hit then res ++ [d.ivl] else res
  let s' := if hit then mark cur s else s
  let (x, s'', cur') :=
    if lo ≤ mh bot l then (l, s' ++ [⟨r, cur, false⟩], s'.length)
    else (r, s', cur)
  match x with
  | .nil =>
    let (x', s3, cur3) := popLoop (s''.length - 1) s'' cur'
    ⟨x', s3, cur3, res'⟩
  | x => ⟨x, s'', cur', res'⟩

/-- The outer loop of `query`, interval_tree-inl.h 520-556, with a bound on the number of
iterations; `none` when the bound is reached. -/
def qLoop (bot lo hi : K) : ℕ → QSt K I → Option (List (Ivl K I))
  | 0, q => match q.x with
    | .nil => some q.res
    | .node .. => none
  | n + 1, q => match q.x with
    | .nil => some q.res
    | .node l d r => qLoop bot lo hi n (qStep bot lo hi l d r q.stack q.cur q.res)

/-- Number of nodes. -/
def T.size : T K I → ℕ
  | .nil => 0
  | .node l _ r => l.size + 1 + r.size

/-- `query`, interval_tree-inl.h 512-558.  The number of nodes is given as the bound on the
number of iterations; `C18_query` shows that it is never exceeded. -/
def query (bot : K) (st : St K I) (lo hi : K) : Option (List (Ivl K I)) :=
  qLoop bot lo hi st.t.size ⟨st.t, [⟨.nil, 0, false⟩], 0, []⟩

/-- A call that changes the tree. -/
inductive Op (K : Type*) (I : Type*) where
  | insert (iv : Ivl K I)
  | delete (i : I)

/-- One call. -/
def step [DecidableEq I] (bot : K) (st : St K I) : Op K I → Option (St K I)
  | .insert iv => insert bot st iv
  | .delete i => delete bot st i

/-- A history of calls on a new tree. -/
def run [DecidableEq I] (bot : K) : St K I → List (Op K I) → Option (St K I)
  | st, [] => some st
  | st, o :: os => (step bot st o).bind fun st' => run bot st' os

end

end Fcl.ITree
