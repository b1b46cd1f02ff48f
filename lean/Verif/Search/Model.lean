import Verif.AABB.Model
import Verif.Base.DistCallback
import Mathlib.Algebra.Order.Field.Basic

/-!
# The distance search of the sweep-and-prune and the interval tree manager

`distance_(obj)` of `SaPCollisionManager` (`broadphase_SaP-inl.h:651-755`) and of `IntervalTreeCollisionManager`
(`broadphase_interval_tree-inl.h:428-512`) are the same loop around two ways to find the candidates near a box. The
candidates are the parameter `cands` here (`none`: undefined behaviour), the managers supply it.
-/

namespace Fcl
namespace Search

/-- Why a search has no result: not finished within the number of rounds given, or undefined behaviour. -/
inductive Halt where
  | fuel
  | ub
deriving DecidableEq

/-- What a search carries along: callback data, `min_dist`, `tested_set`. -/
structure State (σ K O : Type*) where
  s : σ
  md : K
  tested : List (O × O)

section
variable {K O σ : Type*} [LinearOrder K] [LinearOrder O]

/-- The key of a pair in `tested_set` (`broadphase_collision_manager-inl.h:96-111`): the smaller address first. -/
def testedKey (a b : O) : O × O := if a < b then (a, b) else (b, a)

/-- One pass over the candidates: `broadphase_SaP-inl.h:696-720`, `checkDist` in
`broadphase_interval_tree-inl.h:687-727`. `on` is `enable_tested_set_`, `bx o` the box used for a candidate, `bq`
the box of the query object `q`. -/
def scan (dist : AABB K → AABB K → K) (bx : O → AABB K) (bq : AABB K) (on : Bool) (cb : DCB σ K O) (q : O) :
    List O → State σ K O → State σ K O × Bool
  | [], t => (t, false)
  | o :: os, t =>
    if o = q then scan dist bx bq on cb q os t
    else if on && decide (testedKey o q ∈ t.tested) then scan dist bx bq on cb q os t
    else
      let after := if on then testedKey o q :: t.tested else t.tested
      if dist (bx o) bq < t.md then
        let r := cb t.s t.md o q
        if r.2.2 then (⟨r.1, r.2.1, t.tested⟩, true) else scan dist bx bq on cb q os ⟨r.1, r.2.1, after⟩
      else scan dist bx bq on cb q os { t with tested := after }
end

section
variable {K O σ : Type*} [Field K] [LinearOrder K] [LinearOrder O]

/-- `delta`: half the extents of the query box (line 653; 432). -/
def half (b : AABB K) : V3 K := ⟨(b.hi.x - b.lo.x) / 2, (b.hi.y - b.lo.y) / 2, (b.hi.z - b.lo.z) / 2⟩

/-- The loop of `distance_` (lines 669-752; 443-509); `last` is `status == 0`, `eqv` is `AABB::equal`. -/
def loop (dist : AABB K → AABB K → K) (eqv : AABB K → AABB K → Bool) (big : K) (cands : AABB K → Option (List O))
    (bx : O → AABB K) (bq : AABB K) (on : Bool) (cb : DCB σ K O) (q : O) :
    ℕ → Bool → AABB K → State σ K O → Except Halt (State σ K O × Bool)
  | 0, _, _, _ => .error .fuel
  | fuel + 1, last, b, t =>
    match cands b with
    | none => .error .ub
    | some l =>
      let r := scan dist bx bq on cb q l t
      if r.2 then .ok (r.1, true)
      else if last then .ok (r.1, false)
      else if t.md < big then .ok (r.1, false)
      else if r.1.md < t.md then
        loop dist eqv big cands bx bq on cb q fuel true (bq.expand ⟨r.1.md, r.1.md, r.1.md⟩) r.1
      else if eqv b bq then loop dist eqv big cands bx bq on cb q fuel false (b.expand (half bq)) r.1
      else loop dist eqv big cands bx bq on cb q fuel false (b.expandRatio bq 2) r.1

/-- `distance_(obj, ..., min_dist)`, lines 651-755; 428-512. -/
def search (dist : AABB K → AABB K → K) (eqv : AABB K → AABB K → Bool) (big : K) (cands : AABB K → Option (List O))
    (bx : O → AABB K) (bq : AABB K) (on : Bool) (cb : DCB σ K O) (q : O) (fuel : ℕ) (t : State σ K O) :
    Except Halt (State σ K O × Bool) :=
  loop dist eqv big cands bx bq on cb q fuel false (if t.md < big then bq.expand ⟨t.md, t.md, t.md⟩ else bq) t

/-- A loop of searches that ends when one says so (`broadphase_SaP-inl.h:795-799, 852-867`;
`broadphase_interval_tree-inl.h:583-584, 632-641`). -/
def each (f : O → State σ K O → Except Halt (State σ K O × Bool)) : List O → State σ K O → Except Halt (State σ K O)
  | [], t => .ok t
  | o :: os, t =>
    match f o t with
    | .error e => .error e
    | .ok r => if r.2 then .ok r.1 else each f os r.1

end
end Search
end Fcl
