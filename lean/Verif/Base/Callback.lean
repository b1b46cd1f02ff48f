import Mathlib.Data.List.Perm.Basic

/-!
# Broadphase callbacks

`CollisionCallBack` / `DistanceCallBack` (`include/fcl/broadphase/broadphase_collision_manager.h:54-64`)
are arbitrary user functions: they receive two objects and the user data `cdata` (here: a state `σ`),
may change the data, and return `true` to stop the query.
-/

namespace Fcl

/-- `CollisionCallBack`: new state and stop flag. -/
abbrev CB (σ O : Type*) := σ → O → O → σ × Bool

/-- `DistanceCallBack`: it also receives the distance bound by reference and may change it. -/
abbrev DCB (σ K O : Type*) := σ → K → O → O → σ × K × Bool

/-- Specification: call the callback on the listed pairs in order until it says stop. -/
def runUntil {σ O : Type*} (cb : CB σ O) (s : σ) : List (O × O) → σ × Bool
  | [] => (s, false)
  | p :: ps =>
    let r := cb s p.1 p.2
    if r.2 then (r.1, true) else runUntil cb r.1 ps

/-- Sequencing used by all recursive queries: `if(first) return true; return second;`. -/
def andThen {σ : Type*} (r : σ × Bool) (k : σ → σ × Bool) : σ × Bool :=
  if r.2 then (r.1, true) else k r.1

theorem runUntil_append {σ O : Type*} (cb : CB σ O) (s : σ) (ps qs : List (O × O)) :
    runUntil cb s (ps ++ qs) = andThen (runUntil cb s ps) (fun s => runUntil cb s qs) := by
  induction ps generalizing s with
  | nil => simp [runUntil, andThen]
  | cons p ps ih =>
    simp only [List.cons_append, runUntil]
    by_cases h : (cb s p.1 p.2).2
    · simp [h, andThen]
    · simp only [h, Bool.false_eq_true, if_false, ih]

@[simp] theorem runUntil_nil {σ O : Type*} (cb : CB σ O) (s : σ) : runUntil cb s [] = (s, false) := rfl

theorem runUntil_singleton {σ O : Type*} (cb : CB σ O) (s : σ) (p : O × O) :
    runUntil cb s [p] = cb s p.1 p.2 := by
  simp only [runUntil]
  split
  · rename_i h; rw [← h]
  · rename_i h
    rw [Bool.not_eq_true] at h
    rw [← h]

theorem andThen_false {σ : Type*} (r : σ × Bool) : andThen r (fun s => (s, false)) = r := by
  unfold andThen
  split
  · rename_i h; rw [← h]
  · rename_i h
    rw [Bool.not_eq_true] at h
    rw [← h]

end Fcl
