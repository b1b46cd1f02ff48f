import Verif.TreeArray.Model
import Verif.Tree.Spec

/-!
# Which histories the tree in an array can take

The abstract state is the registry of `Tree/Spec.lean` together with a number `cap` of objects that fit into the array.
-/

namespace Fcl
namespace TArr
variable {K O : Type*} [LinearOrder K]

/-- What is required of the functions that choose: `std::nth_element` permutes, and the pair is one of two different
positions (boxes are smaller than the largest number). -/
structure ACfg.Lawful (cfg : ACfg K O) : Prop where
  nth : ∀ a k xs, (cfg.nthIds a k xs).Perm xs
  pair : ∀ bs : List (AABB K), 2 ≤ bs.length → (cfg.pair bs).1 < (cfg.pair bs).2 ∧ (cfg.pair bs).2 < bs.length

/-- How many objects fit after a call. -/
def nextCap (r : Reg K O) (cap : ℕ) : MgrOp O → ℕ
  | .registerMany os => if os ≠ [] ∧ r = [] then os.length else cap
  | .clear => 8
  | _ => cap

/-- No call of `setup` with at most `n` objects finds the tree too deep: `balanceTopdown` is not called. The test may
depend on the height, which is less than the number of leaves, and on the number of leaves. -/
def ACfg.Shallow (cfg : ACfg K O) (n : ℕ) : Prop := ∀ k l, k < l → l ≤ n → cfg.nearlyBalanced k l = true

/-- The box of `o` may be updated: it is not the only object, or the box that is known is kept. -/
def Movable (eqv : AABB K → AABB K → Bool) (w : O → AABB K) (r : Reg K O) (o : O) : Prop :=
  2 ≤ r.length ∨ ∀ b, (o, b) ∈ r → eqv b (w o) = true ∨ b.contain (w o) = true

/-- Calls that the code can take: the objects fit, the tree is not too deep, and a single object is not moved. -/
def Fits (r : Reg K O) (cap : ℕ) (c : ACall K O) : Prop :=
  match c.op with
  | .register _ => r.length < cap
  | .registerMany os => r = [] ∨ r.length + os.length ≤ cap
  | .unregister _ => True
  | .setup => c.cfg.Shallow r.length
  | .update => c.cfg.Shallow r.length
  | .updateObj o => c.cfg.Shallow r.length ∧ Movable c.cfg.eqv c.w r o
  | .updateObjs os => c.cfg.Shallow r.length ∧ ∀ o ∈ os, Movable c.cfg.eqv c.w r o
  | .clear => True

/-- The same call on the manager with pointers. -/
def ACall.toCall (c : ACall K O) : MgrCall K O := ⟨c.op, c.w, c.cfg.toCfg⟩

/-- Histories of correct calls that the code can take, with the registry and the capacity before and after. -/
inductive AHistory [DecidableEq O] : List (ACall K O) → Reg K O → ℕ → Reg K O → ℕ → Prop
  | nil (r cap) : AHistory [] r cap r cap
  | cons {c cs r cap r' cap'} (hok : c.op.Ok r) (hcfg : c.cfg.Lawful) (hfit : Fits r cap c)
      (h : AHistory cs (r.step c.toCall) (nextCap r cap c.op) r' cap') : AHistory (c :: cs) r cap r' cap'

end TArr
end Fcl
