import Verif.Tree.Manager
import Verif.AABB.Spec

/-!
# Specification of the dynamic tree manager, independent of the tree

The abstract state is the list of registered objects, each with the box the manager knows for it.
-/

namespace Fcl

/-- Abstract manager: registered objects with their known boxes (order irrelevant). -/
abbrev Reg (K O : Type*) := List (O × AABB K)

/-- When `update(obj)` is told about a new box it keeps the old known box if that is the same up to the
tolerance `eqv`, or if it contains the new one; otherwise it takes the new one. -/
def refreshBox {K : Type*} [LinearOrder K] (eqv : AABB K → AABB K → Bool) (old new : AABB K) : AABB K :=
  if eqv old new then old else if old.contain new then old else new

/-- `update(obj)` on the abstract state. -/
def Reg.refresh {K O : Type*} [LinearOrder K] [DecidableEq O] (eqv : AABB K → AABB K → Bool)
    (w : O → AABB K) (r : Reg K O) (o : O) : Reg K O :=
  r.map fun e => if e.1 = o then (e.1, refreshBox eqv e.2 (w o)) else e

/-- Abstract effect of an operation. -/
def Reg.step {K O : Type*} [LinearOrder K] [DecidableEq O] (r : Reg K O) (c : MgrCall K O) : Reg K O :=
  match c.op with
  | .register o => (o, c.w o) :: r
  | .registerMany os => os.map (fun o => (o, c.w o)) ++ r
  | .unregister o => r.filter (fun e => e.1 ≠ o)
  | .setup => r
  | .update => r.map (fun e => (e.1, c.w e.1))
  | .updateObj o => r.refresh c.cfg.eqv c.w o
  | .updateObjs os => os.foldl (Reg.refresh c.cfg.eqv c.w) r
  | .clear => []

/-- Calls a correct client makes: an object is registered only when it is not registered already, and
unregistered only when it is. -/
def MgrOp.Ok {K O : Type*} (r : Reg K O) : MgrOp O → Prop
  | .register o => o ∉ r.map (·.1)
  | .registerMany os => os.Nodup ∧ ∀ o ∈ os, o ∉ r.map (·.1)
  | .unregister o => o ∈ r.map (·.1)
  | _ => True

/-- What is required of library functions and settings: `std::nth_element` and `std::sort` permute
their range; box sizes stay below the largest finite number; `tree_topdown_level` is not 1 (see C11 for
that setting). Everything else is arbitrary. -/
structure HTree.Cfg.Lawful {K O : Type*} [LinearOrder K] (cfg : HTree.Cfg K O) : Prop where
  nth_perm : ∀ a k ts, (cfg.nth a k ts).Perm ts
  sort_perm : ∀ f ts, (cfg.sortM f ts).Perm ts
  size_ok : ∀ b, cfg.sizeOk b = true
  level : cfg.topdownLevel ≠ 1

/-- A history of correct calls and the abstract state it leads to. -/
inductive History {K O : Type*} [LinearOrder K] [DecidableEq O] : List (MgrCall K O) → Reg K O → Reg K O → Prop
  | nil (r) : History [] r r
  | cons {c cs r r'} (hok : c.op.Ok r) (hcfg : c.cfg.Lawful) (h : History cs (r.step c) r') :
      History (c :: cs) r r'

/-- Every node's box contains the boxes of all leaves below it. -/
def HTree.Encloses {K O : Type*} [LinearOrder K] : HTree K O → Prop
  | .leaf _ _ _ => True
  | .node b l r => (∀ x ∈ l.leaves ++ r.leaves, b.contain x.2.1 = true) ∧ l.Encloses ∧ r.Encloses

end Fcl
