import Verif.IMgr.Model
import Verif.AABB.Spec

/-! # Specification vocabulary for the interval tree manager -/

namespace Fcl
variable {K O : Type*} [LinearOrder K] [LinearOrder O]

/-- A call: the operation, the boxes at the time of the call, and what `std::sort` does in it. -/
structure ICall (K O : Type*) where
  op : MgrOp O
  w : O → AABB K
  srt : List (IEnd K O) → List (IEnd K O)

/-- `std::sort` returns the same end points in order. Equal values may come in any order. -/
def LawfulSortI (srt : List (IEnd K O) → List (IEnd K O)) : Prop :=
  ∀ l, (srt l).Perm l ∧ (srt l).Pairwise (fun a b => a.val ≤ b.val)

namespace IMgr

/-- One more call in `regBox`. -/
def regStep (o : O) (old : Option (AABB K)) (c : ICall K O) : Option (AABB K) :=
  match c.op with
  | .register p => if o = p then some (c.w o) else old
  | .registerMany ps => if o ∈ ps then some (c.w o) else old
  | .unregister p => if o = p then none else old
  | .update => old.map (fun _ => c.w o)
  | .clear => none
  | _ => old

/-- The box of `o` when it was registered or, if later, at the last `update()`; `none` when `o` is not registered.
Earliest call first. -/
def regBox (o : O) (h : List (ICall K O)) : Option (AABB K) := h.foldl (regStep o) none

/-- `o` is registered after the calls `h`. -/
def Registered (o : O) (h : List (ICall K O)) : Prop := regBox o h ≠ none

/-- `update(obj)` has been called since the last `update()` or `clear()`. -/
def spoiled (h : List (ICall K O)) : Bool :=
  h.foldl (fun r c => match c.op with
    | .update => false
    | .clear => false
    | .updateObj _ => true
    | .updateObjs os => r || !os.isEmpty
    | _ => r) false

/-- Nothing has moved since it was registered or, if later, the last `update()`, and `update(obj)` has not been
called. -/
def Still (h : List (ICall K O)) (w : O → AABB K) : Prop :=
  spoiled h = false ∧ ∀ o b, regBox o h = some b → b = w o

/-- One more call in `seen`. -/
def seenStep (f : Option (O → AABB K)) (c : ICall K O) : Option (O → AABB K) :=
  match c.op with
  | .register _ => none
  | .registerMany os => if os = [] then f else none
  | .clear => none
  | .setup => some (f.getD c.w)
  | .unregister _ => some (f.getD c.w)
  | .update => some c.w
  | .updateObj o => f.map (fun g p => if p = o then c.w p else g p)
  | .updateObjs os => f.map (fun g p => if p ∈ os then c.w p else g p)

/-- The boxes of the last set-up that still counts, as changed by `update(obj)` since: registering or clearing
invalidates a set-up, and `setup()` (also the one made by `unregisterObject`) does nothing while one counts. -/
def seen (h : List (ICall K O)) : Option (O → AABB K) := h.foldl seenStep none

/-- The manager has been set up and has been told the current box of every registered object. -/
def Current (h : List (ICall K O)) (w : O → AABB K) : Prop :=
  ∃ f, seen h = some f ∧ ∀ o, Registered o h → f o = w o

/-- A box with ordered corners, above `-DBL_MAX`. -/
def Fit (bot : K) (b : AABB K) : Prop := ∀ i : Fin 3, bot < b.lo.get i ∧ b.lo.get i ≤ b.hi.get i

/-- No registered box reaches beyond the box of `o` on the axis. -/
def Top (h : List (ICall K O)) (w : O → AABB K) (o : O) (i : Fin 3) : Prop :=
  ∀ p, Registered p h → (w p).hi.get i ≤ (w o).hi.get i

/-- Calls under which the manager keeps its bookkeeping: nothing is registered twice, boxes are fit, and an object is
only unregistered while nothing has moved, and only when no other box reaches further on any axis. -/
def _root_.Fcl.ICall.Good (bot : K) (h : List (ICall K O)) (c : ICall K O) : Prop :=
  LawfulSortI c.srt ∧ (∀ o, Registered o (h ++ [c]) → Fit bot (c.w o)) ∧
  match c.op with
  | .register o => ¬ Registered o h
  | .registerMany os => os.Nodup ∧ ∀ o ∈ os, ¬ Registered o h
  | .unregister o => Registered o h → Fit bot (c.w o) ∧ Still h c.w ∧ ∀ i, Top h c.w o i
  | _ => True

/-- Histories of such calls. -/
inductive History (bot : K) : List (ICall K O) → Prop
  | nil : History bot []
  | snoc {h : List (ICall K O)} {c : ICall K O} (hh : History bot h) (hc : c.Good bot h) : History bot (h ++ [c])

/-- Execute a history from a new manager. -/
def run (bot : K) (h : List (ICall K O)) : Option (IMgr K O) :=
  h.foldl (fun m c => m.bind fun m => m.step bot c.srt c.w c.op) (some IMgr.empty)

theorem run_snoc (bot : K) (h : List (ICall K O)) (c : ICall K O) :
    run bot (h ++ [c]) = (run bot h).bind fun m => m.step bot c.srt c.w c.op := by
  simp [run]

theorem regBox_snoc (o : O) (h : List (ICall K O)) (c : ICall K O) : regBox o (h ++ [c]) = regStep o (regBox o h) c := by
  simp [regBox]

theorem seen_snoc (h : List (ICall K O)) (c : ICall K O) : seen (h ++ [c]) = seenStep (seen h) c := by
  simp [seen]

theorem spoiled_snoc (h : List (ICall K O)) (c : ICall K O) :
    spoiled (h ++ [c]) = match c.op with
    | .update => false
    | .clear => false
    | .updateObj _ => true
    | .updateObjs os => spoiled h || !os.isEmpty
    | _ => spoiled h := by
  unfold spoiled
  rw [List.foldl_append]
  rfl

end IMgr
end Fcl
