import Verif.Base.Vec

/-!
# Model of `Interval`, `IVector3`, `IMatrix3` (include/fcl/math/motion/taylor_model/)

Exact arithmetic over an ordered field.
-/

namespace Fcl

/-- `Interval<S>`: `i_[0]`, `i_[1]` (interval.h 50-60). -/
structure Iv (K : Type*) where
  lo : K
  hi : K
deriving DecidableEq, Repr

namespace Iv
variable {K : Type*} [Field K] [LinearOrder K]

/-- `Interval(v)`, interval-inl.h 68-71, and `setValue(x)`, 89-92. -/
def pt (v : K) : Iv K := ⟨v, v⟩
/-- `operator +`, 119-122; `+=` (133-138) is the same. -/
def add (a b : Iv K) : Iv K := ⟨a.lo + b.lo, a.hi + b.hi⟩
/-- `operator -`, 126-129. -/
def sub (a b : Iv K) : Iv K := ⟨a.lo - b.hi, a.hi - b.lo⟩
/-- `operator -=`, 142-147. `oth` reads the other operand from the current value of this one: a constant
function for a different object, the identity for `a -= a`. -/
def subAssign (oth : Iv K → Iv K) (a : Iv K) : Iv K :=
  let a : Iv K := { a with lo := a.lo - (oth a).hi }
  { a with hi := a.hi - (oth a).lo }
/-- `operator *(Interval)`, 151-183. -/
def mul (a b : Iv K) : Iv K :=
  if b.lo ≥ 0 then
    if a.lo ≥ 0 then ⟨a.lo * b.lo, a.hi * b.hi⟩
    else if a.hi ≤ 0 then ⟨a.lo * b.hi, a.hi * b.lo⟩
    else ⟨a.lo * b.hi, a.hi * b.hi⟩
  else if b.hi ≤ 0 then
    if a.lo ≥ 0 then ⟨a.hi * b.lo, a.lo * b.hi⟩
    else if a.hi ≤ 0 then ⟨a.hi * b.hi, a.lo * b.lo⟩
    else ⟨a.hi * b.lo, a.lo * b.lo⟩
  else if a.lo ≥ 0 then ⟨a.hi * b.lo, a.hi * b.hi⟩
  else if a.hi ≤ 0 then ⟨a.lo * b.hi, a.lo * b.lo⟩
  else
    let v00 := a.lo * b.lo
    let v11 := a.hi * b.hi
    let v01 := a.lo * b.hi
    let v10 := a.hi * b.lo
    if v00 ≤ v11 then if v01 < v10 then ⟨v01, v11⟩ else ⟨v10, v11⟩
    else if v01 < v10 then ⟨v01, v00⟩ else ⟨v10, v00⟩
/-- `operator *=(Interval)`, 187-279, statement by statement; `oth` as in `subAssign`. -/
def mulAssign (oth : Iv K → Iv K) (a : Iv K) : Iv K :=
  if (oth a).lo ≥ 0 then
    if a.lo ≥ 0 then
      let a : Iv K := { a with lo := a.lo * (oth a).lo }
      { a with hi := a.hi * (oth a).hi }
    else if a.hi ≤ 0 then
      let a : Iv K := { a with lo := a.lo * (oth a).hi }
      { a with hi := a.hi * (oth a).lo }
    else
      let a : Iv K := { a with lo := a.lo * (oth a).hi }
      { a with hi := a.hi * (oth a).hi }
  else if (oth a).hi ≤ 0 then
    let tmp := a.lo
    if a.lo ≥ 0 then
      let a : Iv K := { a with lo := a.hi * (oth a).lo }
      { a with hi := tmp * (oth a).hi }
    else if a.hi ≤ 0 then
      let a : Iv K := { a with lo := a.hi * (oth a).hi }
      { a with hi := tmp * (oth a).lo }
    else
      let a : Iv K := { a with lo := a.hi * (oth a).lo }
      { a with hi := tmp * (oth a).lo }
  else if a.lo ≥ 0 then
    let a : Iv K := { a with lo := a.hi * (oth a).lo }
    { a with hi := a.hi * (oth a).hi }
  else if a.hi ≤ 0 then
    let a : Iv K := { a with hi := a.lo * (oth a).lo }
    { a with lo := a.lo * (oth a).hi }
  else
    let v00 := a.lo * (oth a).lo
    let v11 := a.hi * (oth a).hi
    let v01 := a.lo * (oth a).hi
    let v10 := a.hi * (oth a).lo
    if v00 ≤ v11 then if v01 < v10 then ⟨v01, v11⟩ else ⟨v10, v11⟩
    else if v01 < v10 then ⟨v01, v00⟩ else ⟨v10, v00⟩
/-- `operator *(S)`, 283-287; `*=(S)` (291-306) is the same. -/
def scale (a : Iv K) (d : K) : Iv K := if d ≥ 0 then ⟨a.lo * d, a.hi * d⟩ else ⟨a.hi * d, a.lo * d⟩
/-- `operator /`, 310-313; `/=` (317-321) is the same. -/
def div (a b : Iv K) : Iv K := a.mul ⟨1 / b.hi, 1 / b.lo⟩
/-- `overlap`, 325-330. -/
def overlap (a b : Iv K) : Bool := if a.hi < b.lo then false else if a.lo > b.hi then false else true
/-- `intersect`, 334-341: the answer and the new value of this interval. -/
def intersect (a b : Iv K) : Bool × Iv K :=
  if a.hi < b.lo then (false, a) else if a.lo > b.hi then (false, a)
  else (true, ⟨if a.lo < b.lo then b.lo else a.lo, if a.hi > b.hi then b.hi else a.hi⟩)
/-- `operator -()`, 345-348. -/
def neg (a : Iv K) : Iv K := ⟨-a.hi, -a.lo⟩
/-- `getAbsLower`, 352-357. -/
def absLower (a : Iv K) : K := if a.lo ≥ 0 then a.lo else if a.hi ≥ 0 then 0 else -a.hi
/-- `getAbsUpper`, 361-365. -/
def absUpper (a : Iv K) : K := if a.lo + a.hi ≥ 0 then a.hi else a.lo
/-- `contains`, 369-374. -/
def contains (a : Iv K) (v : K) : Bool := if v < a.lo then false else if v > a.hi then false else true
/-- `bound(v)`, 378-383 and 417-423. -/
def boundPt (a : Iv K) (v : K) : Iv K := ⟨if v < a.lo then v else a.lo, if v > a.hi then v else a.hi⟩
/-- `bound(Interval)`, 387-392 and 427-433. -/
def bound (a b : Iv K) : Iv K := ⟨if b.lo < a.lo then b.lo else a.lo, if b.hi > a.hi then b.hi else a.hi⟩
/-- `center`, 403-406. -/
def center (a : Iv K) : K := 1 / 2 * (a.lo + a.hi)
/-- `diameter`, 410-413. -/
def diameter (a : Iv K) : K := a.hi - a.lo

end Iv

/-- `IVector3<S>`: three intervals (interval_vector.h). -/
structure IVec (K : Type*) where
  x : Iv K
  y : Iv K
  z : Iv K
deriving DecidableEq, Repr

namespace IVec
variable {K : Type*} [Field K] [LinearOrder K]

/-- `operator []`, interval_vector-inl.h 252-262. -/
def get (v : IVec K) (i : Fin 3) : Iv K :=
  match i with
  | 0 => v.x
  | 1 => v.y
  | 2 => v.z
/-- `operator +`, 195-198; `+=` 202-208. -/
def add (a b : IVec K) : IVec K := ⟨a.x.add b.x, a.y.add b.y, a.z.add b.z⟩
/-- `operator -`, 212-215; `-=` 219-225. -/
def sub (a b : IVec K) : IVec K := ⟨a.x.sub b.x, a.y.sub b.y, a.z.sub b.z⟩
/-- `dot(IVector3)`, 229-232. -/
def dot (a b : IVec K) : Iv K := ((a.x.mul b.x).add (a.y.mul b.y)).add (a.z.mul b.z)
/-- `cross(IVector3)`, 236-241. -/
def cross (a b : IVec K) : IVec K :=
  ⟨(a.y.mul b.z).sub (a.z.mul b.y), (a.z.mul b.x).sub (a.x.mul b.z), (a.x.mul b.y).sub (a.y.mul b.x)⟩
/-- `dot(Vector3)`, 245-248. -/
def dotV (a : IVec K) (b : V3 K) : Iv K := ((a.x.scale b.x).add (a.y.scale b.y)).add (a.z.scale b.z)
/-- `cross(Vector3)`, 280-285. -/
def crossV (a : IVec K) (b : V3 K) : IVec K :=
  ⟨(a.y.scale b.z).sub (a.z.scale b.y), (a.z.scale b.x).sub (a.x.scale b.z), (a.x.scale b.y).sub (a.y.scale b.x)⟩
/-- `getLow`, 266-269. -/
def low (a : IVec K) : V3 K := ⟨a.x.lo, a.y.lo, a.z.lo⟩
/-- `getHigh`, 273-276. -/
def high (a : IVec K) : V3 K := ⟨a.x.hi, a.y.hi, a.z.hi⟩
/-- `volumn`, 289-292. -/
def volume (a : IVec K) : K := a.x.diameter * a.y.diameter * a.z.diameter
/-- `center`, 305-308. -/
def center (a : IVec K) : V3 K := ⟨a.x.center, a.y.center, a.z.center⟩
/-- `bound(IVector3)`, 312-321 and 339-352. -/
def bound (a b : IVec K) : IVec K := ⟨a.x.bound b.x, a.y.bound b.y, a.z.bound b.z⟩
/-- `bound(Vector3)`, 325-334 and 355-368. -/
def boundPt (a : IVec K) (v : V3 K) : IVec K := ⟨a.x.boundPt v.x, a.y.boundPt v.y, a.z.boundPt v.z⟩
/-- `overlap`, 370-381. -/
def overlap (a v : IVec K) : Bool :=
  if v.x.hi < a.x.lo then false else if v.y.hi < a.y.lo then false else if v.z.hi < a.z.lo then false
  else if v.x.lo > a.x.hi then false else if v.y.lo > a.y.hi then false else if v.z.lo > a.z.hi then false else true
/-- `contain`, 385-396. -/
def contain (a v : IVec K) : Bool :=
  if v.x.lo < a.x.lo then false else if v.y.lo < a.y.lo then false else if v.z.lo < a.z.lo then false
  else if v.x.hi > a.x.hi then false else if v.y.hi > a.y.hi then false else if v.z.hi > a.z.hi then false else true

end IVec

/-- `IMatrix3<S>`: three rows (interval_matrix.h). -/
structure IMat (K : Type*) where
  r0 : IVec K
  r1 : IVec K
  r2 : IVec K
deriving DecidableEq, Repr

namespace IMat
variable {K : Type*} [Field K] [LinearOrder K]

/-- `getRow`, interval_matrix-inl.h 130-133. -/
def row (m : IMat K) (i : Fin 3) : IVec K :=
  match i with
  | 0 => m.r0
  | 1 => m.r1
  | 2 => m.r2
/-- `getColumn`, 123-126. -/
def col (m : IMat K) (i : Fin 3) : IVec K := ⟨m.r0.get i, m.r1.get i, m.r2.get i⟩
/-- `operator ()`, 187-197. -/
def get (m : IMat K) (i j : Fin 3) : Iv K := (m.row i).get j
/-- `IMatrix3(Matrix3)`, 69-74. -/
def ofMat (m : M3 K) : IMat K :=
  ⟨⟨.pt m.r0.x, .pt m.r0.y, .pt m.r0.z⟩, ⟨.pt m.r1.x, .pt m.r1.y, .pt m.r1.z⟩, ⟨.pt m.r2.x, .pt m.r2.y, .pt m.r2.z⟩⟩
/-- `getLow`, 165-172, as written: it takes the upper ends. -/
def low (m : IMat K) : M3 K :=
  ⟨⟨m.r0.x.hi, m.r0.y.hi, m.r0.z.hi⟩, ⟨m.r1.x.hi, m.r1.y.hi, m.r1.z.hi⟩, ⟨m.r2.x.hi, m.r2.y.hi, m.r2.z.hi⟩⟩
/-- `getHigh`, 176-183. -/
def high (m : IMat K) : M3 K :=
  ⟨⟨m.r0.x.hi, m.r0.y.hi, m.r0.z.hi⟩, ⟨m.r1.x.hi, m.r1.y.hi, m.r1.z.hi⟩, ⟨m.r2.x.hi, m.r2.y.hi, m.r2.z.hi⟩⟩
/-- `getColumnLow`, 137-140. -/
def colLow (m : IMat K) (i : Fin 3) : V3 K := ⟨(m.r0.get i).lo, (m.r1.get i).lo, (m.r2.get i).lo⟩
/-- `getRowLow`, 144-147. -/
def rowLow (m : IMat K) (i : Fin 3) : V3 K := ⟨(m.row i).x.lo, (m.row i).y.lo, (m.row i).z.lo⟩
/-- `getColumnHigh`, 151-154. -/
def colHigh (m : IMat K) (i : Fin 3) : V3 K := ⟨(m.r0.get i).hi, (m.r1.get i).hi, (m.r2.get i).hi⟩
/-- `getRowHigh`, 158-161. -/
def rowHigh (m : IMat K) (i : Fin 3) : V3 K := ⟨(m.row i).x.hi, (m.row i).y.hi, (m.row i).z.hi⟩
/-- `operator *(Matrix3)`, 201-206; `*=` 237-243. -/
def mulMat (a : IMat K) (m : M3 K) : IMat K :=
  ⟨⟨a.r0.dotV (m.col 0), a.r0.dotV (m.col 1), a.r0.dotV (m.col 2)⟩,
   ⟨a.r1.dotV (m.col 0), a.r1.dotV (m.col 1), a.r1.dotV (m.col 2)⟩,
   ⟨a.r2.dotV (m.col 0), a.r2.dotV (m.col 1), a.r2.dotV (m.col 2)⟩⟩
/-- `operator *(Vector3)`, 210-213. -/
def mulVec (a : IMat K) (v : V3 K) : IVec K := ⟨a.r0.dotV v, a.r1.dotV v, a.r2.dotV v⟩
/-- `operator *(IVector3)`, 217-220. -/
def mulIVec (a : IMat K) (v : IVec K) : IVec K := ⟨a.r0.dot v, a.r1.dot v, a.r2.dot v⟩
/-- `operator *(IMatrix3)`, 224-233; `*=` 247-257 copies the columns first. -/
def mul (a m : IMat K) : IMat K :=
  ⟨⟨a.r0.dot (m.col 0), a.r0.dot (m.col 1), a.r0.dot (m.col 2)⟩,
   ⟨a.r1.dot (m.col 0), a.r1.dot (m.col 1), a.r1.dot (m.col 2)⟩,
   ⟨a.r2.dot (m.col 0), a.r2.dot (m.col 1), a.r2.dot (m.col 2)⟩⟩
/-- `operator +`, 261-264; `+=` 268-274. -/
def add (a b : IMat K) : IMat K := ⟨a.r0.add b.r0, a.r1.add b.r1, a.r2.add b.r2⟩
/-- `operator -`, 278-281; `-=` 285-291. -/
def sub (a b : IMat K) : IMat K := ⟨a.r0.sub b.r0, a.r1.sub b.r1, a.r2.sub b.r2⟩
/-- Lines 301-305: clamp one end to `[-1, 1]`. -/
def clampEnd (v : K) : K := if v < -1 then -1 else if v > 1 then 1 else v
@[inherit_doc clampEnd] def clampIv (a : Iv K) : Iv K := ⟨clampEnd a.lo, clampEnd a.hi⟩
@[inherit_doc clampEnd] def clampVec (a : IVec K) : IVec K := ⟨clampIv a.x, clampIv a.y, clampIv a.z⟩
/-- `rotationConstrain`, 295-310. -/
def rotationConstrain (m : IMat K) : IMat K := ⟨clampVec m.r0, clampVec m.r1, clampVec m.r2⟩

end IMat
end Fcl
