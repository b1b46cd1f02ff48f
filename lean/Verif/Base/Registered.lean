import Verif.Tree.Manager

/-! Which objects are registered, read off the history of calls alone (specification). -/

namespace Fcl
variable {O : Type*} [DecidableEq O]

/-- `registeredRev o h`: with the calls listed latest first, is `o` registered? The latest call that
mentions `o` (or clears everything) decides. -/
def registeredRev (o : O) : List (MgrOp O) → Bool
  | [] => false
  | .register p :: h => decide (p = o) || registeredRev o h
  | .registerMany ps :: h => decide (o ∈ ps) || registeredRev o h
  | .unregister p :: h => decide (p ≠ o) && registeredRev o h
  | .clear :: _ => false
  | .setup :: h => registeredRev o h
  | .update :: h => registeredRev o h
  | .updateObj _ :: h => registeredRev o h
  | .updateObjs _ :: h => registeredRev o h

/-- `o` is registered after the calls `h` (earliest first). -/
def registered (o : O) (h : List (MgrOp O)) : Bool := registeredRev o h.reverse

/-- Calls a correct client makes: only objects that are not registered are registered, and a batch
contains no object twice. -/
def MgrOp.Fresh (h : List (MgrOp O)) : MgrOp O → Prop
  | .register o => registered o h = false
  | .registerMany os => os.Nodup ∧ ∀ o ∈ os, registered o h = false
  | _ => True

/-- All calls of a history are correct in this sense. -/
inductive FreshHistory : List (MgrOp O) → Prop
  | nil : FreshHistory []
  | snoc {h : List (MgrOp O)} {c : MgrOp O} (hh : FreshHistory h) (hc : c.Fresh h) : FreshHistory (h ++ [c])

theorem registered_snoc (o : O) (h : List (MgrOp O)) (c : MgrOp O) :
    registered o (h ++ [c]) = registeredRev o (c :: h.reverse) := by
  simp [registered]

end Fcl
