import Verif.BVH.Model
import Verif.Traversal.Spec

/-!
# Vocabulary for the construction of hierarchies
-/

namespace Fcl
variable {V : Type*}

/-- The primitive of a leaf. -/
def BT.prim? {P : Type*} : BT V P → Option P
  | .leaf _ p => some p
  | .node .. => none

/-- The primitives of a tree from left to right. -/
def BT.prims {P : Type*} : BT V P → List P
  | .leaf _ p => [p]
  | .node _ l r => l.prims ++ r.prims

/-- The arrays hold the tree `t` at node `id`: the nodes of the tree are the slots `ids`; a node stands for `num`
entries of `primitive_indices` from `first` on; a leaf for one, which is its primitive; the entries of an inner node
are those of its left child followed by those of its right child. -/
inductive IsTree (bvs : List (BVNode V)) (prims : List ℕ) : ℕ → ℕ → ℕ → List ℕ → BT V ℕ → Prop
  | leaf {id first : ℕ} {bv : V} {p : ℕ} (hn : bvs[id]? = some ⟨bv, first, 1, -((p : ℤ) + 1)⟩)
      (hp : prims[first]? = some p) : IsTree bvs prims id first 1 [id] (.leaf bv p)
  | node {id first num n1 n2 c : ℕ} {ids1 ids2 : List ℕ} {bv : V} {l r : BT V ℕ}
      (hn : bvs[id]? = some ⟨bv, first, num, c⟩) (hl : IsTree bvs prims c first n1 ids1 l)
      (hr : IsTree bvs prims (c + 1) (first + n1) n2 ids2 r) (hnum : num = n1 + n2) :
      IsTree bvs prims id first num (id :: (ids1 ++ ids2)) (.node bv l r)

/-- Every volume encloses every primitive below it. -/
def Enclosing (Encl : V → ℕ → Prop) (t : BT V ℕ) : Prop := ∀ u, BT.Below u t → ∀ p ∈ u.prims, Encl u.bv p

/-- The same tree without the volumes. -/
def BT.shape {P : Type*} : BT V P → BT Unit P
  | .leaf _ p => .leaf () p
  | .node _ l r => .node () l.shape r.shape

/-- Only the volumes of two arrays differ. -/
def SameTopology (bvs bvs' : List (BVNode V)) : Prop :=
  bvs'.length = bvs.length ∧ ∀ (i : ℕ) (n' : BVNode V), bvs'[i]? = some n' → ∃ n : BVNode V, bvs[i]? = some n ∧
    n'.firstPrimitive = n.firstPrimitive ∧ n'.numPrimitives = n.numPrimitives ∧ n'.firstChild = n.firstChild

/-- Every volume of the tree was fitted to the primitives below it, in some order. -/
def Fitted (fit : List ℕ → V) (t : BT V ℕ) : Prop := ∀ u, BT.Below u t → ∃ l, l.Perm u.prims ∧ u.bv = fit l

/-- The right primitives of a node are in its right child and the others in its left child, unless all of them are on
the same side. -/
def Sorted (B : Builder V) (t : BT V ℕ) : Prop :=
  ∀ bv l r, BT.Below (.node bv l r) t → ∃ m, m.Perm (l.prims ++ r.prims) ∧ bv = B.fit m ∧
    (((∀ x ∈ l.prims, B.right bv m x = false) ∧ ∀ x ∈ r.prims, B.right bv m x = true) ∨
      ((∀ x ∈ m, B.right bv m x = false) ∨ ∀ x ∈ m, B.right bv m x = true) ∧ l.prims.length = m.length / 2)

end Fcl
