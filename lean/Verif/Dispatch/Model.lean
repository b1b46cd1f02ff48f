import Verif.Dispatch.Tables
import Mathlib.Algebra.Order.Field.Basic

/-!
# Model of `collide` and `distance` (`include/fcl/narrowphase/collision-inl.h`, `distance-inl.h`)

What the routines in the tables do with two objects of the right kind is a parameter (`Traverse`, `TraverseD`). `O` are the
geometries, `T` the transforms, `C` the contacts, `X` the rest of a collision result.
-/

namespace Fcl
namespace Dispatch

/-- `OBJECT_TYPE`, `collision_geometry.h:50`. -/
inductive Kind
  | unknown | bvh | geom | octree
  deriving DecidableEq, Repr

/-- `getObjectType()` by the node type: `BVH_model-inl.h:182-186`, `shape_base-inl.h:59-63`,
`octree-inl.h:223-227`, `collision_geometry-inl.h:71-75`. -/
def Node.kind : Node → Kind
  | .unknown => .unknown
  | .aabb | .obb | .rss | .kios | .obbrss | .kdop16 | .kdop18 | .kdop24 => .bvh
  | .octree => .octree
  | _ => .geom

/-- The last assignment to an element of a table, null if there is none. -/
def lookup (es : List (Node × Node × Routine)) (a b : Node) : Option Routine :=
  (es.reverse.find? (fun e => e.1 = a && e.2.1 = b)).map (·.2.2)

/-- The types to which a routine casts its two geometries. -/
def Routine.casts : Routine → Node × Node
  | .shapeShape a b => (a, b)
  | .bvhShape bv s => (bv, s)
  | .bvh bv => (bv, bv)
  | .octreeShape s => (.octree, s)
  | .shapeOctree s => (s, .octree)
  | .octree => (.octree, .octree)
  | .octreeBvh bv => (.octree, bv)
  | .bvhOctree bv => (bv, .octree)

section
variable {O T C X P : Type*}

/-- The part of `CollisionRequest` that is used here (`collision_request.h:54-107`). -/
structure CRequest where
  numMaxContacts : ℕ
  enableContact : Bool
  enableCost : Bool

/-- The default constructor, `collision_request.h:97-103`. -/
def CRequest.default : CRequest := ⟨1, false, false⟩

/-- `CollisionResult`. -/
structure CResult (C X : Type*) where
  contacts : List C
  rest : X

/-- `CollisionRequest::isSatisfied`, `collision_request-inl.h:76-82`. -/
def CRequest.isSatisfied (q : CRequest) (r : CResult C X) : Bool :=
  !q.enableCost && decide (r.contacts.length > 0) && decide (q.numMaxContacts ≤ r.contacts.length)

/-- What a routine's traversal does to the result. -/
abbrev Traverse (O T C X : Type*) := Routine → O → T → O → T → CRequest → CResult C X → CResult C X

/-- A routine of the collision table (`collision_func_matrix-inl.h`): return at once when the request is
satisfied, otherwise traverse; the value is the number of contacts. -/
def runC (trav : Traverse O T C X) (f : Routine) (o1 : O) (t1 : T) (o2 : O) (t2 : T) (q : CRequest) (r : CResult C X) :
    ℕ × CResult C X :=
  if q.isSatisfied r then (r.contacts.length, r)
  else
    let r' := trav f o1 t1 o2 t2 q r
    (r'.contacts.length, r')

/-- `collide(o1, tf1, o2, tf2, nsolver, request, result)`, `collision-inl.h:94-149`. -/
def collide (node : O → Node) (trav : Traverse O T C X) (o1 : O) (t1 : T) (o2 : O) (t2 : T) (q : CRequest) (r : CResult C X) :
    ℕ × CResult C X :=
  if q.numMaxContacts = 0 then (0, r)
  else if (node o1).kind = .geom ∧ (node o2).kind = .bvh then
    match lookup collisionEntries (node o2) (node o1) with
    | none => (0, r)
    | some f => runC trav f o2 t2 o1 t1 q r
  else
    match lookup collisionEntries (node o1) (node o2) with
    | none => (0, r)
    | some f => runC trav f o1 t1 o2 t2 q r

variable {K : Type*} [Field K] [LinearOrder K]

/-- The part of `DistanceRequest` that is used here. -/
structure DRequest where
  nearestPoints : Bool
  signedDistance : Bool

/-- `DistanceResult`: the distance, the pair of nearest points, and the rest. -/
structure DResult (K P X : Type*) where
  minDistance : K
  nearest : P × P
  rest : X

/-- `DistanceRequest::isSatisfied`, `distance_request-inl.h:72-77`. -/
def DResult.satisfied (r : DResult K P X) : Bool := decide (r.minDistance ≤ 0)

/-- What a routine's traversal does to the result. -/
abbrev TraverseD (O T K P X : Type*) := Routine → O → T → O → T → DRequest → DResult K P X → DResult K P X

/-- A routine of the distance table (`distance_func_matrix-inl.h`). -/
def runD (trav : TraverseD O T K P X) (f : Routine) (o1 : O) (t1 : T) (o2 : O) (t2 : T) (q : DRequest) (r : DResult K P X) :
    K × DResult K P X :=
  if r.satisfied then (r.minDistance, r)
  else
    let r' := trav f o1 t1 o2 t2 q r
    (r'.minDistance, r')

/-- The loop over the contacts, `distance-inl.h:165-175`: `max_pen_depth` and the contact at `index`. -/
def deepest (depth : C → K) : List C → K → Option C → K × Option C
  | [], m, best => (m, best)
  | c :: cs, m, best => if m < depth c then deepest depth cs (depth c) (some c) else deepest depth cs m best

/-- The look-up and call of the routine in `distance`, `distance-inl.h:108-138`: `big` is
`numeric_limits<S>::max()`. -/
def distanceBase (node : O → Node) (big : K) (trav : TraverseD O T K P X) (o1 : O) (t1 : T) (o2 : O) (t2 : T) (q : DRequest)
    (r : DResult K P X) : K × DResult K P X :=
  if (node o1).kind = .geom ∧ (node o2).kind = .bvh then
    match lookup distanceEntries (node o2) (node o1) with
    | none => (big, r)
    | some f => runD trav f o2 t2 o1 t1 q r
  else
    match lookup distanceEntries (node o1) (node o2) with
    | none => (big, r)
    | some f => runD trav f o1 t1 o2 t2 q r

/-- `distance(o1, tf1, o2, tf2, nsolver, request, result)`, `distance-inl.h:91-193`; `big` and `tiny` are
`numeric_limits<S>::max()` and `min()`, `libccd` tells whether the solver is `GJKSolver_libccd`. The
asserts are not there (release build); `getContact` of an empty result is undefined behaviour, `none`. For an index
out of range (-1) `getContact` returns the last contact (`collision_result-inl.h:96-103`). -/
def distance (node : O → Node) (big tiny : K) (libccd : Bool) (trav : TraverseD O T K P X) (travC : Traverse O T C X)
    (x0 : X) (depth : C → K) (pos : C → P) (o1 : O) (t1 : T) (o2 : O) (t2 : T) (q : DRequest) (r : DResult K P X) :
    Option (K × DResult K P X) :=
  let res := distanceBase node big trav o1 t1 o2 t2 q r
  if res.1 ≠ 0 ∧ res.2.minDistance < 0 ∧ q.signedDistance = true then
    if libccd = true ∧ (node o1).kind = .geom ∧ (node o2).kind = .geom then some res
    else
      let cr := (collide node travC o1 t1 o2 t2 { CRequest.default with enableContact := true } ⟨[], x0⟩).2
      let d := deepest depth cr.contacts tiny none
      let r1 : DResult K P X := { res.2 with minDistance := -d.1 }
      if q.nearestPoints then
        match d.2.orElse (fun _ => cr.contacts.getLast?) with
        | none => none
        | some c => some (res.1, { r1 with nearest := (pos c, pos c) })
      else some (res.1, r1)
  else some res

end
end Dispatch
end Fcl
