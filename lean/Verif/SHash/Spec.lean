import Verif.SHash.Model
import Verif.AABB.Spec
import Verif.Base.Registered

/-! # Specification vocabulary for the spatial hash manager -/

namespace Fcl
variable {K O : Type*} [Field K] [LinearOrder K] [FloorRing K] [LinearOrder O]

/-- A call: the operation and the boxes at the time of the call. -/
structure WCall (K O : Type*) where
  op : MgrOp O
  w : O → AABB K

/-- The box of `o` the manager was last told about, after one more call. -/
def knownStep (o : O) (old : Option (AABB K)) (c : WCall K O) : Option (AABB K) :=
  match c.op with
  | .register p => if o = p then some (c.w o) else old
  | .registerMany ps => if o ∈ ps then some (c.w o) else old
  | .unregister p => if o = p then none else old
  | .setup => old
  | .update => old.map (fun _ => c.w o)
  | .updateObj p => if o = p then old.map (fun _ => c.w o) else old
  | .updateObjs ps => if o ∈ ps then old.map (fun _ => c.w o) else old
  | .clear => none

/-- The box of `o` the manager was last told about by registering or updating; `none` when `o` is not
registered. Earliest call first. -/
def knownBox (o : O) (h : List (WCall K O)) : Option (AABB K) := h.foldl (knownStep o) none

/-- The manager has seen the current box of every registered object. -/
def BoxesCurrent (h : List (WCall K O)) (w : O → AABB K) : Prop :=
  ∀ o b, knownBox o h = some b → b = w o

/-- Calls a correct client makes: nothing is registered twice, only registered objects are updated, and an
object whose box has changed is updated before it is unregistered. -/
def WCall.Correct (h : List (WCall K O)) (c : WCall K O) : Prop :=
  match c.op with
  | .register o => knownBox o h = none
  | .registerMany os => os.Nodup ∧ ∀ o ∈ os, knownBox o h = none
  | .unregister o => ∀ b, knownBox o h = some b → b = c.w o
  | .updateObj o => knownBox o h ≠ none
  | .updateObjs os => ∀ o ∈ os, knownBox o h ≠ none
  | _ => True

/-- Histories a correct client produces. -/
inductive GHistory : List (WCall K O) → Prop
  | nil : GHistory []
  | snoc {h : List (WCall K O)} {c : WCall K O} (hh : GHistory h) (hc : c.Correct h) : GHistory (h ++ [c])

/-- Execute a history. -/
def SHM.runFrom (g : Grid K) (big : K) : List (WCall K O) → SHM K O → Except Hash.Fault (SHM K O)
  | [], m => .ok m
  | c :: h, m =>
    match m.step g big c.w c.op with
    | .ok m' => SHM.runFrom g big h m'
    | .error e => .error e

/-- Execute a history from a new manager with a table of `n` bins. -/
def SHM.run (g : Grid K) (big : K) (n : ℕ) (h : List (WCall K O)) : Except Hash.Fault (SHM K O) :=
  match SHM.new n with
  | .ok m => SHM.runFrom g big h m
  | .error e => .error e

/-- The points common to two boxes and the scene limit. -/
def Grid.common (g : Grid K) (a b : AABB K) : Set (V3 K) := {p | p ∈ a.pts ∧ p ∈ b.pts ∧ p ∈ g.scene.pts}

/-- The boxes share a point, and what they share within the scene limit does not lie in a single plane
between two layers of cells. -/
def Grid.Meet (g : Grid K) (a b : AABB K) : Prop :=
  (∃ p, p ∈ a.pts ∧ p ∈ b.pts) ∧
  ∀ (i : Fin 3) (k : ℤ), (∃ p, p ∈ g.common a b) →
    ∃ p ∈ g.common a b, p.get i ≠ g.scene.lo.get i + k * g.cell

end Fcl
