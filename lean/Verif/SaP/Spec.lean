import Verif.SaP.Model
import Verif.AABB.Spec

/-! # Specification vocabulary for the sweep-and-prune manager -/

namespace Fcl
variable {K O : Type*} [LinearOrder K] [LinearOrder O]

/-- The box of `o` the manager was last told about, after one more call. -/
def lastStep (o : O) (old : Option (AABB K)) (c : PCall K O) : Option (AABB K) :=
  match c.op with
  | .register p => if o = p then some (c.w o) else old
  | .registerMany ps => if o ∈ ps then some (c.w o) else old
  | .unregister p => if o = p then none else old
  | .setup => old
  | .update => old.map (fun _ => c.w o)
  | .updateObj p => if o = p then old.map (fun _ => c.w o) else old
  | .updateObjs ps => if o ∈ ps then old.map (fun _ => c.w o) else old
  | .clear => none

/-- The box of `o` the manager was last told about by registering or updating; `none` when `o` is not
registered. Earliest call first. -/
def lastBox (o : O) (h : List (PCall K O)) : Option (AABB K) := h.foldl (lastStep o) none

/-- `o` is registered after the calls `h`. -/
def InMgr (o : O) (h : List (PCall K O)) : Prop := lastBox o h ≠ none

/-- The manager has seen the current box of every registered object. -/
def LastCurrent (h : List (PCall K O)) (w : O → AABB K) : Prop := ∀ o b, lastBox o h = some b → b = w o

/-- An object has been unregistered since the last registration, update or clearing. -/
def removedLast (h : List (PCall K O)) : Bool :=
  h.foldl (fun r c => match c.op with
    | .unregister _ => true
    | .setup => r
    | .registerMany [] => r
    | _ => false) false

/-- The box has positive extent along every axis. -/
def AABB.Solid (b : AABB K) : Prop := ∀ c : Fin 3, b.lo.get c < b.hi.get c

/-- Along every axis both ends of the box move up, or both move down, or none moves. -/
def AABB.Shifted (b b' : AABB K) : Prop :=
  ∀ c : Fin 3, (b'.lo.get c < b.lo.get c ∧ b'.hi.get c < b.hi.get c) ∨
    (b.lo.get c < b'.lo.get c ∧ b.hi.get c < b'.hi.get c) ∨
    (b.lo.get c = b'.lo.get c ∧ b.hi.get c = b'.hi.get c)

/-- No end of the first box has the same coordinate as an end of the second. -/
def AABB.Apart (b b' : AABB K) : Prop :=
  ∀ c : Fin 3, b.lo.get c ≠ b'.lo.get c ∧ b.lo.get c ≠ b'.hi.get c ∧
    b.hi.get c ≠ b'.lo.get c ∧ b.hi.get c ≠ b'.hi.get c

/-- `std::sort`: a sorted permutation. -/
def LawfulSortE (srt : (EP O → K) → List (EP O) → List (EP O)) : Prop :=
  ∀ f l, (srt f l).Perm l ∧ (srt f l).Pairwise (fun a b => f a ≤ f b)

/-- The objects whose boxes a call reads again. -/
def PCall.Updates (c : PCall K O) (o : O) : Prop :=
  match c.op with
  | .update => True
  | .updateObj p => o = p
  | .updateObjs ps => o ∈ ps
  | _ => False

/-- Calls for which the code has defined behaviour and keeps its lists in order: nothing is registered
twice, and boxes are not empty when registered; only registered objects with boxes of positive extent are updated, and their boxes are translated;
only such objects are unregistered, and the memory freed in between is not overwritten; `setup` is not
called right after an object has been unregistered. -/
def PCall.Good (h : List (PCall K O)) (c : PCall K O) : Prop :=
  (match c.op with
  | .register o => ¬ InMgr o h ∧ (c.w o).Valid
  | .registerMany os => os.Nodup ∧ (∀ o ∈ os, ¬ InMgr o h ∧ (c.w o).Valid) ∧ LawfulSortE c.srt
  | .unregister o => (∃ b, lastBox o h = some b ∧ b.Solid) ∧ c.intact = true
  | .updateObj o => InMgr o h
  | .updateObjs os => ∀ o ∈ os, InMgr o h
  | .setup => removedLast h = false ∨ ∀ o, ¬ InMgr o h
  | _ => True) ∧
  ∀ o b, c.Updates o → lastBox o h = some b → b.Solid ∧ (c.w o).Solid ∧ b.Shifted (c.w o)

/-- Histories of such calls. -/
inductive PHistory : List (PCall K O) → Prop
  | nil : PHistory []
  | snoc {h : List (PCall K O)} {c : PCall K O} (hh : PHistory h) (hc : c.Good h) : PHistory (h ++ [c])

/-- Calls for which, in addition, the list of overlapping pairs stays exact: objects are only registered
while the manager is empty, as one batch of boxes of positive extent; and no two objects have ends at the
same coordinate, before, during and after the call. -/
def PCall.General (h : List (PCall K O)) (c : PCall K O) : Prop :=
  (match c.op with
  | .register o => (∀ p, ¬ InMgr p h) ∧ (c.w o).Solid
  | .registerMany os => (∀ p, ¬ InMgr p h) ∧ (∀ o ∈ os, (c.w o).Solid) ∧
      ∀ o ∈ os, ∀ p ∈ os, o ≠ p → (c.w o).Apart (c.w p)
  | _ => True) ∧
  ∀ o p b b', o ≠ p → (lastBox o h = some b ∨ c.Updates o ∧ InMgr o h ∧ b = c.w o) →
    (lastBox p h = some b' ∨ c.Updates p ∧ InMgr p h ∧ b' = c.w p) → b.Apart b'

/-- Histories of such calls. -/
inductive GenHistory : List (PCall K O) → Prop
  | nil : GenHistory []
  | snoc {h : List (PCall K O)} {c : PCall K O} (hh : GenHistory h) (hc : c.Good h) (hg : c.General h) :
      GenHistory (h ++ [c])

end Fcl
