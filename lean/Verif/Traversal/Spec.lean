import Verif.Traversal.Model
import Mathlib.Data.List.ProdSigma

/-!
# Vocabulary for the properties of traversals
-/

namespace Fcl

namespace BT
variable {V P : Type*}

/-- The leaves of a tree, from left to right. -/
def leaves : BT V P → List (BT V P)
  | .leaf bv p => [.leaf bv p]
  | .node _ l r => l.leaves ++ r.leaves

/-- The largest number of steps from the root to a leaf. -/
def depth : BT V P → ℕ
  | .leaf .. => 0
  | .node _ l r => max l.depth r.depth + 1

/-- `u` is `t` or one of the nodes below it. -/
inductive Below : BT V P → BT V P → Prop
  | refl (t) : Below t t
  | left {u bv l r} : Below u l → Below u (.node bv l r)
  | right {u bv l r} : Below u r → Below u (.node bv l r)

end BT

section
variable {V P W Q : Type*}

/-- All pairs of a leaf of the first tree and a leaf of the second. -/
def leafPairs (a : BT V P) (b : BT W Q) : List (BT V P × BT W Q) := a.leaves ×ˢ b.leaves

/-- All pairs of leaves of one tree, each taken once and no leaf with itself: `x` is left of `y`. -/
def twoOf {α : Type*} : List α → List (α × α)
  | [] => []
  | x :: xs => xs.map (fun y => (x, y)) ++ twoOf xs

/-- The walk descends in the trees as they are, and only into nodes that have children, for all the pairs that
satisfy `C`. -/
structure Trav.Follows (T : Trav (BT V P) (BT W Q)) (C : BT V P → BT W Q → Prop) : Prop where
  leaf1 : ∀ {a b}, C a b → T.leaf1 a = a.isLeaf
  leaf2 : ∀ {a b}, C a b → T.leaf2 b = b.isLeaf
  first : ∀ {a b}, C a b → (a.isLeaf && b.isLeaf) = false → T.fos a b = true →
    ∃ bv l r, a = .node bv l r ∧ T.left1 a = l ∧ T.right1 a = r ∧ C l b ∧ C r b
  second : ∀ {a b}, C a b → (a.isLeaf && b.isLeaf) = false → T.fos a b = false →
    ∃ bv l r, b = .node bv l r ∧ T.left2 b = l ∧ T.right2 b = r ∧ C a l ∧ C a r
  below : ∀ {a b u v}, C a b → BT.Below u a → BT.Below v b → C u v

/-- The volumes enclose what is below them, as far as the test can see: if two nodes are reported disjoint, then so
are all the pairs of leaves below them. -/
def ColNode.Encloses {σ : Type*} (N : ColNode σ (BT V P) (BT W Q)) (a : BT V P) (b : BT W Q) : Prop :=
  ∀ u v, BT.Below u a → BT.Below v b → N.disjoint u v = true → ∀ p ∈ leafPairs u v, N.disjoint p.1 p.2 = true

/-- A front of the pair of trees: nodes that together stand for every pair of leaves exactly once. -/
def IsFront (a : BT V P) (b : BT W Q) (F : List (BT V P × BT W Q)) : Prop :=
  (∀ p ∈ F, BT.Below p.1 a ∧ BT.Below p.2 b) ∧ (F.flatMap fun p => leafPairs p.1 p.2).Perm (leafPairs a b)

/-- The distances of the volumes are lower bounds for the distances of all pairs of leaves below them. -/
def LowerBounds {K : Type*} [LE K] (bvDist leafDist : BT V P → BT W Q → K) (a : BT V P) (b : BT W Q) : Prop :=
  ∀ u v, BT.Below u a → BT.Below v b → ∀ p ∈ leafPairs u v, bvDist u v ≤ leafDist p.1 p.2

/-- The queue hands out an element with the smallest distance, whichever it is, and keeps the others. -/
structure LawfulPick {K A B : Type*} [LE K] (pick : Pick K A B) : Prop where
  nil : pick [] = none
  some : ∀ q, q ≠ [] → ∃ x rest, pick q = Option.some (x, rest) ∧ (x :: rest).Perm q ∧ ∀ y ∈ rest, x.1 ≤ y.1

end
end Fcl
