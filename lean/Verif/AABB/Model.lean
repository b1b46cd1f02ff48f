import Mathlib.Order.Lattice
import Mathlib.Order.Defs.LinearOrder
import Mathlib.Algebra.Order.Field.Basic

/-!
# Model of `fcl::AABB` (`include/fcl/math/bv/AABB-inl.h`)

Coordinates range over an arbitrary linear order `K` where the code only compares and selects;
where the code computes, over types with the operations used (`ArithOps`).
NaN is excluded (a `LinearOrder` has none).
-/

namespace Fcl

/-- `Vector3<S>` (`include/fcl/common/types.h:75`, an Eigen 3-vector): three coordinates. -/
structure V3 (K : Type*) where
  x : K
  y : K
  z : K
deriving DecidableEq, Repr

namespace V3
variable {K : Type*}

/-- Eigen `v[i]` for `i = 0, 1, 2`. -/
def get (v : V3 K) (i : Fin 3) : K :=
  match i with
  | 0 => v.x
  | 1 => v.y
  | 2 => v.z

/-- Eigen `cwiseMin`. -/
def cmin [LinearOrder K] (a b : V3 K) : V3 K := ⟨min a.x b.x, min a.y b.y, min a.z b.z⟩
/-- Eigen `cwiseMax`. -/
def cmax [LinearOrder K] (a b : V3 K) : V3 K := ⟨max a.x b.x, max a.y b.y, max a.z b.z⟩
/-- Eigen `(a.array() > b.array()).any()`. -/
def anyGt [LinearOrder K] (a b : V3 K) : Bool :=
  decide (a.x > b.x) || decide (a.y > b.y) || decide (a.z > b.z)
/-- Eigen `(a.array() < b.array()).any()`. -/
def anyLt [LinearOrder K] (a b : V3 K) : Bool :=
  decide (a.x < b.x) || decide (a.y < b.y) || decide (a.z < b.z)
end V3

/-- `class AABB` (`include/fcl/math/bv/AABB.h:50`): members `min_` and `max_`. -/
structure AABB (K : Type*) where
  lo : V3 K
  hi : V3 K
deriving DecidableEq, Repr

namespace AABB
section order
variable {K : Type*} [LinearOrder K]

/-- Default constructor, `AABB-inl.h:52-57`. `big` is `numeric_limits<S>::max()`, `nbig` its
negation. -/
def default (big nbig : K) : AABB K := ⟨⟨big, big, big⟩, ⟨nbig, nbig, nbig⟩⟩

/-- `AABB(v)`, `AABB-inl.h:61-64`. -/
def ofPoint (v : V3 K) : AABB K := ⟨v, v⟩

/-- `AABB(a, b)`, `AABB-inl.h:68-73`. -/
def ofTwo (a b : V3 K) : AABB K := ⟨a.cmin b, a.cmax b⟩

/-- `AABB(a, b, c)`, `AABB-inl.h:86-94`. -/
def ofThree (a b c : V3 K) : AABB K := ⟨(a.cmin b).cmin c, (a.cmax b).cmax c⟩

/-- `overlap(other)`, `AABB-inl.h:98-107`. -/
def overlap (a b : AABB K) : Bool :=
  if a.lo.anyGt b.hi then false
  else if a.hi.anyLt b.lo then false
  else true

/-- `contain(AABB)`, `AABB-inl.h:111-120`. -/
def contain (a b : AABB K) : Bool :=
  if a.lo.anyGt b.lo then false
  else if a.hi.anyLt b.hi then false
  else true

/-- `axisOverlap(other, axis_id)`, `AABB-inl.h:124-131`. -/
def axisOverlap (a b : AABB K) (i : Fin 3) : Bool :=
  if a.lo.get i > b.hi.get i then false
  else if a.hi.get i < b.lo.get i then false
  else true

/-- `overlap(other, overlap_part)`, `AABB-inl.h:135-145`: the returned flag and the value of
`overlap_part` afterwards (`part` is its value before). -/
def overlapPart (a b part : AABB K) : Bool × AABB K :=
  if !a.overlap b then (false, part)
  else (true, ⟨a.lo.cmax b.lo, a.hi.cmin b.hi⟩)

/-- `contain(p)`, `AABB-inl.h:149-158`. -/
def containPt (a : AABB K) (p : V3 K) : Bool :=
  if a.lo.anyGt p then false
  else if a.hi.anyLt p then false
  else true

/-- `operator+=(p)`, `AABB-inl.h:162-167`. -/
def addPt (a : AABB K) (p : V3 K) : AABB K := ⟨a.lo.cmin p, a.hi.cmax p⟩

/-- `operator+=(AABB)` and `operator+`, `AABB-inl.h:171-184`. -/
def merge (a b : AABB K) : AABB K := ⟨a.lo.cmin b.lo, a.hi.cmax b.hi⟩

end order

/-- The scalar operations used by `AABB::distance`. They are kept abstract so that both exact
arithmetic and arithmetic with rounding are instances. -/
class ArithOps (K : Type*) where
  zero : K
  add : K → K → K
  sub : K → K → K
  mul : K → K → K
  sqrt : K → K

section dist
variable {K : Type*} [LinearOrder K] [ArithOps K]
open ArithOps

/-- Loop body of `distance(other)`, `AABB-inl.h:297-311`, for one axis. -/
def distStep (result amin amax bmin bmax : K) : K :=
  if amin > bmax then
    let delta := sub bmax amin
    add result (mul delta delta)
  else if bmin > amax then
    let delta := sub amax bmin
    add result (mul delta delta)
  else result

/-- `distance(other)`, `AABB-inl.h:292-315`. -/
def distance (a b : AABB K) : K :=
  let r := distStep zero a.lo.x a.hi.x b.lo.x b.hi.x
  let r := distStep r a.lo.y a.hi.y b.lo.y b.hi.y
  let r := distStep r a.lo.z a.hi.z b.lo.z b.hi.z
  sqrt r

/-- The points written by `distance(other, P, Q)` on one axis, `AABB-inl.h:242-284`.
`half a b` is `0.5 * (a + b)`. The accumulated result is the same as in `distStep`. -/
def nearStep (half : K → K → K) (amin amax bmin bmax : K) : K × K :=
  if amin > bmax then (amin, bmax)
  else if bmin > amax then (amax, bmin)
  else if bmin ≥ amin then
    let t := half amax bmin
    (t, t)
  else
    let t := half amin bmax
    (t, t)

/-- `distance(other, P, Q)` with both output pointers given, `AABB-inl.h:237-288`:
returned distance, `*P`, `*Q`. -/
def distanceNear (half : K → K → K) (a b : AABB K) : K × V3 K × V3 K :=
  let nx := nearStep half a.lo.x a.hi.x b.lo.x b.hi.x
  let ny := nearStep half a.lo.y a.hi.y b.lo.y b.hi.y
  let nz := nearStep half a.lo.z a.hi.z b.lo.z b.hi.z
  (a.distance b, ⟨nx.1, ny.1, nz.1⟩, ⟨nx.2, ny.2, nz.2⟩)

end dist

section field
variable {K : Type*} [Field K]

/-- `width()`, `height()`, `depth()`, `AABB-inl.h:188-205`. -/
def width (a : AABB K) : K := a.hi.x - a.lo.x
@[inherit_doc width] def height (a : AABB K) : K := a.hi.y - a.lo.y
@[inherit_doc width] def depth (a : AABB K) : K := a.hi.z - a.lo.z
/-- `volume()`, `AABB-inl.h:209-212`. -/
def volume (a : AABB K) : K := a.width * a.height * a.depth
/-- `size()`, `AABB-inl.h:216-219`. -/
def size (a : AABB K) : K := a.width * a.width + a.height * a.height + a.depth * a.depth
/-- `center()`, `AABB-inl.h:230-233`. -/
def center (a : AABB K) : V3 K :=
  ⟨(a.lo.x + a.hi.x) * (1 / 2), (a.lo.y + a.hi.y) * (1 / 2), (a.lo.z + a.hi.z) * (1 / 2)⟩
/-- `expand(delta)` `AABB-inl.h:327-332` and `AABB(core, delta)` `AABB-inl.h:77-82`. -/
def expand (a : AABB K) (d : V3 K) : AABB K :=
  ⟨⟨a.lo.x - d.x, a.lo.y - d.y, a.lo.z - d.z⟩, ⟨a.hi.x + d.x, a.hi.y + d.y, a.hi.z + d.z⟩⟩
/-- `expand(core, ratio)`, `AABB-inl.h:336-341`. -/
def expandRatio (a core : AABB K) (r : K) : AABB K :=
  ⟨⟨a.lo.x * r - core.lo.x, a.lo.y * r - core.lo.y, a.lo.z * r - core.lo.z⟩,
   ⟨a.hi.x * r - core.hi.x, a.hi.y * r - core.hi.y, a.hi.z * r - core.hi.z⟩⟩
/-- Eigen `squaredNorm`. -/
def _root_.Fcl.V3.sqNorm (v : V3 K) : K := v.x * v.x + v.y * v.y + v.z * v.z
/-- Eigen `a.isApprox(b, prec)` for vectors: `(a - b).squaredNorm() <= prec * prec *
min(a.squaredNorm(), b.squaredNorm())`. -/
def _root_.Fcl.V3.isApprox [LinearOrder K] (prec : K) (a b : V3 K) : Bool :=
  decide (V3.sqNorm ⟨a.x - b.x, a.y - b.y, a.z - b.z⟩ ≤ prec * prec * min a.sqNorm b.sqNorm)
/-- `equal(other)`, `AABB-inl.h:319-323`, with `prec` for `epsilon() * 100`. -/
def equal [LinearOrder K] (prec : K) (a b : AABB K) : Bool :=
  V3.isApprox prec a.lo b.lo && V3.isApprox prec a.hi b.hi
/-- `translate(aabb, t)`, `AABB-inl.h:345-352`. -/
def translate (a : AABB K) (t : V3 K) : AABB K :=
  ⟨⟨a.lo.x + t.x, a.lo.y + t.y, a.lo.z + t.z⟩, ⟨a.hi.x + t.x, a.hi.y + t.y, a.hi.z + t.z⟩⟩
end field

end AABB
end Fcl
