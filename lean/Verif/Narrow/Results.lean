import Verif.Base.DistCallback
import Verif.AABB.Model

/-!
# Model of the result and request records of the narrow phase, and of the default callbacks
-/

namespace Fcl

/-! ### `DistanceResult` -/

/-- `DistanceResult<S>`, fcl/narrowphase/distance_result.h 51-120.  `nearest` holds the two nearest
points; they are not initialised by the constructor, so their initial value is arbitrary. -/
structure DistResult (K V G : Type*) where
  minDist : K
  nearest : V × V
  o1 : Option G
  o2 : Option G
  b1 : ℤ
  b2 : ℤ

/-- What is offered to `update`: a distance, the two geometries and primitive ids, and in one of the
overloads the two nearest points. -/
structure Offer (K V G : Type*) where
  d : K
  o1 : Option G
  o2 : Option G
  b1 : ℤ
  b2 : ℤ
  pts : Option (V × V)

namespace DistResult
variable {K V G : Type*} [LinearOrder K]

/-- `DistanceResult(min_distance)`, distance_result-inl.h 52-60 (`NONE` is -1,
distance_result.h 96), with whatever the memory of the points holds. -/
def init (md : K) (junk : V × V) : DistResult K V G := ⟨md, junk, none, none, -1, -1⟩

/-- The two overloads of `update`, distance_result-inl.h 65-104. -/
def update (r : DistResult K V G) (o : Offer K V G) : DistResult K V G :=
  if r.minDist > o.d then
    match o.pts with
    | none => { r with minDist := o.d, o1 := o.o1, o2 := o.o2, b1 := o.b1, b2 := o.b2 }
    | some p => { minDist := o.d, o1 := o.o1, o2 := o.o2, b1 := o.b1, b2 := o.b2, nearest := p }
  else r

/-- `update(other_result)`, distance_result-inl.h 108-122. -/
def updateFrom (r other : DistResult K V G) : DistResult K V G :=
  if r.minDist > other.minDist then other else r

/-- `clear()`, distance_result-inl.h 127-134; `big` is `numeric_limits<S>::max()`. -/
def clear (big : K) (r : DistResult K V G) : DistResult K V G :=
  { r with minDist := big, o1 := none, o2 := none, b1 := -1, b2 := -1 }

end DistResult

/-- `DistanceRequest::isSatisfied`, distance_request-inl.h 73-77. -/
def distSatisfied {K V G : Type*} [LinearOrder K] [Zero K] (r : DistResult K V G) : Bool :=
  decide (r.minDist ≤ 0)

/-! ### `CostSource` and `CollisionResult` -/

/-- `CostSource<S>`, fcl/narrowphase/cost_source.h 47-70. -/
structure CostSource (K : Type*) where
  box : AABB K
  density : K
  total : K

namespace CostSource

/-- The constructors, cost_source-inl.h 52-76. -/
def ofBox {K : Type*} [Mul K] [Sub K] (b : AABB K) (density : K) : CostSource K :=
  ⟨b, density, density * (b.hi.x - b.lo.x) * (b.hi.y - b.lo.y) * (b.hi.z - b.lo.z)⟩

/-- `operator <`, cost_source-inl.h 86-103. -/
def lt {K : Type*} [LinearOrder K] (a b : CostSource K) : Bool :=
  if a.total < b.total then false
  else if a.total > b.total then true
  else if a.density < b.density then false
  else if a.density > b.density then true
  else if a.box.lo.x ≠ b.box.lo.x then decide (a.box.lo.x < b.box.lo.x)
  else if a.box.lo.y ≠ b.box.lo.y then decide (a.box.lo.y < b.box.lo.y)
  else if a.box.lo.z ≠ b.box.lo.z then decide (a.box.lo.z < b.box.lo.z)
  else false

end CostSource

/-- `std::set::insert` for the comparison `lt`: nothing happens if an equivalent element is
present; otherwise the element goes to its place in the order. -/
def setInsert {α : Type*} (lt : α → α → Bool) (c : α) : List α → List α
  | [] => [c]
  | a :: l => if lt c a then c :: a :: l else if lt a c then a :: setInsert lt c l else a :: l

/-- The loop `while(size() > k) erase(--end())`, collision_result-inl.h 70-71: the last element is
removed as many times as the size exceeds `k`. -/
def eraseDown {α : Type*} (k : ℕ) (l : List α) : List α := List.dropLast^[l.length - k] l

/-- `CollisionResult<S>`, fcl/narrowphase/collision_result.h 48-95.  `C` is the type of contacts;
`cost_sources` is the set in its iteration order. -/
structure CollResult (C K : Type*) where
  contacts : List C
  costs : List (CostSource K)

namespace CollResult
variable {C K : Type*}

/-- Default constructor, collision_result-inl.h 52-55. -/
def empty : CollResult C K := ⟨[], []⟩

/-- `addContact`, collision_result-inl.h 59-62. -/
def addContact (r : CollResult C K) (c : C) : CollResult C K := { r with contacts := r.contacts ++ [c] }

/-- `addCostSource`, collision_result-inl.h 66-72. -/
def addCostSource [LinearOrder K] (r : CollResult C K) (c : CostSource K) (k : ℕ) : CollResult C K :=
  { r with costs := eraseDown k (setInsert CostSource.lt c r.costs) }

/-- `isCollision`, collision_result-inl.h 76-79. -/
def isCollision (r : CollResult C K) : Bool := decide (r.contacts.length > 0)

/-- `numContacts`, collision_result-inl.h 83-86. -/
def numContacts (r : CollResult C K) : ℕ := r.contacts.length

/-- `numCostSources`, collision_result-inl.h 90-93. -/
def numCostSources (r : CollResult C K) : ℕ := r.costs.length

/-- `getContact`, collision_result-inl.h 97-104; `none` is the undefined behaviour of `back()` on an
empty vector. -/
def getContact (r : CollResult C K) (i : ℕ) : Option C :=
  if i < r.contacts.length then r.contacts[i]? else r.contacts.getLast?

/-- `clear`, collision_result-inl.h 125-130. -/
def clear (_ : CollResult C K) : CollResult C K := ⟨[], []⟩

/-- The calls that change a `CollisionResult`. -/
inductive ROp (C K : Type*) where
  | contact (c : C)
  | cost (c : CostSource K) (k : ℕ)
  | clear

/-- One call. -/
def step [LinearOrder K] (r : CollResult C K) : ROp C K → CollResult C K
  | .contact c => r.addContact c
  | .cost c k => r.addCostSource c k
  | .clear => r.clear

/-- A history of calls. -/
def run [LinearOrder K] (r : CollResult C K) (ops : List (ROp C K)) : CollResult C K := ops.foldl step r

end CollResult

/-- The fields of `CollisionRequest<S>` (fcl/narrowphase/collision_request.h 52-110) that decide when
a query is over. -/
structure CollRequest where
  numMax : ℕ
  enableCost : Bool

/-- `CollisionRequest::isSatisfied`, collision_request-inl.h 77-82. -/
def CollRequest.isSatisfied {C K : Type*} (q : CollRequest) (r : CollResult C K) : Bool :=
  !q.enableCost && r.isCollision && decide (q.numMax ≤ r.numContacts)

/-! ### Default callbacks -/

/-- `DefaultCollisionData<S>`, default_broadphase_callbacks.h 53-62; the request is constant. -/
structure CollData (C K : Type*) where
  result : CollResult C K
  done : Bool

/-- `DefaultCollisionFunction`, default_broadphase_callbacks.h 87-105.  `collide` is what
`fcl::collide(o1, o2, request, result)` does to the result. -/
def defaultCollide {O C K : Type*} (q : CollRequest) (collide : O → O → CollResult C K → CollResult C K) :
    CB (CollData C K) O := fun s a b =>
  if s.done then (s, true)
  else
    let r := collide a b s.result
    let d := if !q.enableCost && r.isCollision && decide (r.numContacts ≥ q.numMax) then true else s.done
    (⟨r, d⟩, d)

/-- `DefaultContinuousCollisionFunction`, default_broadphase_callbacks.h 143-157; `R` is the type of
`ContinuousCollisionResult`. -/
def defaultContinuous {O R : Type*} (collide : O → O → R → R) : CB (R × Bool) O := fun s a b =>
  if s.2 then (s, true) else ((collide a b s.1, s.2), s.2)

/-- `DefaultDistanceData<S>`, default_broadphase_callbacks.h 164-171; the request is constant. -/
structure DistData (K V G : Type*) where
  result : DistResult K V G
  done : Bool

/-- `DefaultDistanceFunction`, default_broadphase_callbacks.h 194-215.  `distance` is what
`fcl::distance(o1, o2, request, result)` does to the result. -/
def defaultDistance {O K V G : Type*} [LinearOrder K] [Zero K]
    (distance : O → O → DistResult K V G → DistResult K V G) : DCB (DistData K V G) K O :=
  fun s _ a b =>
  if s.done then (s, s.result.minDist, true)
  else
    let r := distance a b s.result
    if r.minDist ≤ 0 then (⟨r, s.done⟩, r.minDist, true)
    else (⟨r, s.done⟩, r.minDist, s.done)

end Fcl
