import Verif.ITree.Model

/-! What the interval tree should hold and return, without reference to trees. -/

namespace Fcl.ITree

variable {K I : Type*} [LinearOrder K] [DecidableEq I]

/-- The intervals that should be stored after one more call. -/
def storedStep (l : List (Ivl K I)) : Op K I → List (Ivl K I)
  | .insert iv => iv :: l
  | .delete i => l.filter fun a => decide (a.id ≠ i)

/-- Inserted and not yet deleted. -/
def stored (h : List (Op K I)) : List (Ivl K I) := h.foldl storedStep []

/-- A call a user may make when `l` is stored: insert a proper interval that is not in the tree
(`bot` is `-DBL_MAX`), or delete one that is. -/
def OpOk (bot : K) (l : List (Ivl K I)) : Op K I → Prop
  | .insert iv => (∀ a ∈ l, a.id ≠ iv.id) ∧ iv.low ≤ iv.high ∧ bot ≤ iv.high
  | .delete i => ∃ a ∈ l, a.id = i

/-- Every call of the history is allowed when it is made. -/
def Lawful (bot : K) (h : List (Op K I)) : Prop :=
  ∀ p o s, h = p ++ o :: s → OpOk bot (stored p) o

/-- The closed intervals `[lo, hi]` and `a` have a common point. -/
def Meets (lo hi : K) (a : Ivl K I) : Prop := ∃ x, lo ≤ x ∧ x ≤ hi ∧ a.low ≤ x ∧ x ≤ a.high

/-- `s` is a subtree of `t`. -/
inductive Sub : T K I → T K I → Prop
  | refl (t) : Sub t t
  | left {s l d r} : Sub s l → Sub s (.node l d r)
  | right {s l d r} : Sub s r → Sub s (.node l d r)

end Fcl.ITree
