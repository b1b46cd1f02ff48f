import Verif.SSaP.Model
import Verif.Base.Registered
import Verif.AABB.Spec

/-! # Specification vocabulary for the sweeping managers -/

namespace Fcl
variable {K O : Type*} [LinearOrder K] [DecidableEq O]

/-- A call: the operation, the boxes at the time of the call, and what `std::sort` does in it. -/
structure SCall (K O : Type*) where
  op : MgrOp O
  w : O → AABB K
  srt : (O → K) → List O → List O

/-- `std::sort` returns the same elements in order. Equal keys may come in any order. -/
def LawfulSort (srt : (O → K) → List O → List O) : Prop :=
  ∀ (f : O → K) (l : List O), (srt f l).Perm l ∧ (srt f l).Pairwise (fun a b => f a ≤ f b)

/-- The boxes of the last `setup()`, `update()` or `unregisterObject()` that still counts: registering or
clearing invalidates it, and `setup()` (also the one made by `unregisterObject`) does nothing while it
counts. Latest call first. -/
def seenRev : List (SCall K O) → Option (O → AABB K)
  | [] => none
  | c :: h =>
    match c.op with
    | .register _ => none
    | .registerMany os => if os = [] then seenRev h else none
    | .clear => none
    | .setup => some ((seenRev h).getD c.w)
    | .unregister _ => some ((seenRev h).getD c.w)
    | _ => some c.w

/-- Earliest call first. -/
def seen (h : List (SCall K O)) : Option (O → AABB K) := seenRev h.reverse

/-- Is `o` registered after these calls? -/
def regd (o : O) (h : List (SCall K O)) : Bool := registered o (h.map (·.op))

/-- The manager has been set up or updated, and no registered object's box has changed since. -/
def UpToDate (h : List (SCall K O)) (w : O → AABB K) : Prop :=
  ∃ w0, seen h = some w0 ∧ ∀ o, regd o h = true → w0 o = w o

/-- Histories a correct client produces: nothing is registered twice, and `unregisterObject` is called
with a proper box and only when no registered box has changed since the last set-up (if any). -/
inductive SHistory : List (SCall K O) → Prop
  | nil : SHistory []
  | snoc {h : List (SCall K O)} {c : SCall K O} (hh : SHistory h) (hs : LawfulSort c.srt)
      (hc : c.op.Fresh (h.map (·.op)))
      (hu : ∀ o, c.op = .unregister o → (regd o h = true → (c.w o).Valid) ∧
        ∀ w0, seen h = some w0 → ∀ p, regd p h = true → w0 p = c.w p) : SHistory (h ++ [c])

/-- Execute a history from a new manager. -/
def SSaP.run (h : List (SCall K O)) : SSaP O := h.foldl (fun m c => m.step c.srt c.w c.op) SSaP.empty

end Fcl
