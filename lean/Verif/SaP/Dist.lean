import Verif.SaP.Model
import Verif.Search.Model

/-! # Distance queries of `SaPCollisionManager` (`broadphase_SaP-inl.h`); the loop is in `Verif/Search/Model.lean`. -/

namespace Fcl
namespace SaP
open Search
variable {K O σ : Type*} [Field K] [LinearOrder K] [LinearOrder O]

/-- The objects considered for the box `b`, lines 670-700: lower end points before the first end point (on the chosen
axis) above the box, whose upper end point is not below it. Undefined when `velist` holds pointers to deleted
end points. -/
def cands (m : SaP K O) (b : AABB K) : Option (List O) :=
  if m.fresh then
    some (((upTo (val m.cached m.axis) (b.hi.get m.axis) (m.elist m.axis)).filter
      (fun e => !e.hi && decide (b.lo.get m.axis ≤ val m.cached m.axis ⟨e.obj, true⟩))).map (·.obj))
  else none

/-- `distance_(obj)`, lines 651-755: the cached box of a candidate, the current box of the query object. -/
def distQ (dist : AABB K → AABB K → K) (eqv : AABB K → AABB K → Bool) (big : K) (w : O → AABB K) (m : SaP K O)
    (on : Bool) (cb : DCB σ K O) (fuel : ℕ) (q : O) (t : State σ K O) : Except Halt (State σ K O × Bool) :=
  search dist eqv big m.cands m.cached (w q) on cb q fuel t

/-- `distance(obj, cdata, callback)`, lines 759-766: the callback data and, for the specification, the final
`min_dist`. -/
def distanceObj (dist : AABB K → AABB K → K) (eqv : AABB K → AABB K → Bool) (big : K) (w : O → AABB K) (m : SaP K O)
    (cb : DCB σ K O) (fuel : ℕ) (q : O) (s : σ) : Except Halt (σ × K) :=
  if m.size = 0 then .ok (s, big)
  else (distQ dist eqv big w m false cb fuel q ⟨s, big, []⟩).map (fun r => (r.1.s, r.1.md))

/-- `distance(cdata, callback)`, lines 786-803. -/
def distanceSelf (dist : AABB K → AABB K → K) (eqv : AABB K → AABB K → Bool) (big : K) (w : O → AABB K) (m : SaP K O)
    (cb : DCB σ K O) (fuel : ℕ) (s : σ) : Except Halt (σ × K) :=
  if m.size = 0 then .ok (s, big)
  else (each (distQ dist eqv big w m true cb fuel) m.arr ⟨s, big, []⟩).map (fun t => (t.s, t.md))

/-- `distance(other_manager, cdata, callback)` for a different manager object, lines 839-869. -/
def distanceOther (dist : AABB K → AABB K → K) (eqv : AABB K → AABB K → Bool) (big : K) (w : O → AABB K) (m m' : SaP K O)
    (cb : DCB σ K O) (fuel : ℕ) (s : σ) : Except Halt (σ × K) :=
  if m.size = 0 ∨ m'.size = 0 then .ok (s, big)
  else if m.size < m'.size then
    (each (distQ dist eqv big w m' false cb fuel) m.arr ⟨s, big, []⟩).map (fun t => (t.s, t.md))
  else (each (distQ dist eqv big w m false cb fuel) m'.arr ⟨s, big, []⟩).map (fun t => (t.s, t.md))

end SaP
end Fcl
