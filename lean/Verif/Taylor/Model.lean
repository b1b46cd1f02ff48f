import Verif.Taylor.Interval
import Mathlib.Analysis.SpecialFunctions.Trigonometric.Basic
import Mathlib.Analysis.SpecialFunctions.Trigonometric.Deriv
import Mathlib.Data.Real.Sqrt

/-!
# Model of `TimeInterval`, `TaylorModel`, `TVector3`, `TMatrix3` (include/fcl/math/motion/taylor_model/)

The shared pointer to the time interval is passed to each operation as an argument `T`. All the operands of one
operation share it (the code asserts so), and it is not changed between operations.
-/

namespace Fcl

/-- `TimeInterval<S>` (time_interval.h 50-65). -/
structure TimeIv (K : Type*) where
  t : Iv K
  t2 : Iv K
  t3 : Iv K
  t4 : Iv K
  t5 : Iv K
  t6 : Iv K
deriving DecidableEq, Repr

/-- `TimeInterval::setValue(l, r)`, time_interval-inl.h 66-74. -/
def TimeIv.of {K : Type*} [Field K] (l r : K) : TimeIv K :=
  let t : Iv K := ⟨l, r⟩
  let t2 : Iv K := ⟨l * t.lo, r * t.hi⟩
  let t3 : Iv K := ⟨l * t2.lo, r * t2.hi⟩
  let t4 : Iv K := ⟨l * t3.lo, r * t3.hi⟩
  let t5 : Iv K := ⟨l * t4.lo, r * t4.hi⟩
  let t6 : Iv K := ⟨l * t5.lo, r * t5.hi⟩
  ⟨t, t2, t3, t4, t5, t6⟩

/-- `TaylorModel<S>`: `coeffs_` and `r_` (taylor_model.h 55-70). -/
structure TM (K : Type*) where
  c0 : K
  c1 : K
  c2 : K
  c3 : K
  r : Iv K
deriving DecidableEq, Repr

namespace TM
section field
variable {K : Type*} [Field K] [LinearOrder K]

/-- `TaylorModel()`, taylor_model-inl.h 124-127, and `TaylorModel(time_interval)`, 131-134. -/
def empty : TM K := ⟨0, 0, 0, 0, ⟨0, 0⟩⟩
/-- `TaylorModel(coeff, time_interval)`, 138-142. -/
def const (c : K) : TM K := ⟨c, 0, 0, 0, ⟨0, 0⟩⟩
/-- `operator +(S)`, 174-177; `+=(S)` 181-185; `S + TaylorModel` 477-480. -/
def addS (f : TM K) (d : K) : TM K := ⟨f.c0 + d, f.c1, f.c2, f.c3, f.r⟩
/-- `operator -(S)`, 189-192; `-=(S)` 196-200. -/
def subS (f : TM K) (d : K) : TM K := ⟨f.c0 - d, f.c1, f.c2, f.c3, f.r⟩
/-- `operator +`, 204-208; `+=` 220-229. -/
def add (f g : TM K) : TM K := ⟨f.c0 + g.c0, f.c1 + g.c1, f.c2 + g.c2, f.c3 + g.c3, f.r.add g.r⟩
/-- `operator -`, 212-216; `-=` 233-242. -/
def sub (f g : TM K) : TM K := ⟨f.c0 - g.c0, f.c1 - g.c1, f.c2 - g.c2, f.c3 - g.c3, f.r.sub g.r⟩
/-- `operator *`, 259-264, through `*=`, 275-309. -/
def mul (T : TimeIv K) (f g : TM K) : TM K :=
  let c0 := f.c0 * g.c0
  let c1 := f.c0 * g.c1 + f.c1 * g.c0
  let c2 := f.c0 * g.c2 + f.c1 * g.c1 + f.c2 * g.c0
  let c3 := f.c0 * g.c3 + f.c1 * g.c2 + f.c2 * g.c1 + f.c3 * g.c0
  let rem := f.r.mul g.r
  let rem := rem.add (T.t4.scale (f.c1 * g.c3 + f.c2 * g.c2 + f.c3 * g.c1))
  let rem := rem.add (T.t5.scale (f.c2 * g.c3 + f.c3 * g.c2))
  let rem := rem.add (T.t6.scale (f.c3 * g.c3))
  let pf := (((Iv.pt f.c0).add (T.t.scale f.c1)).add (T.t2.scale f.c2)).add (T.t3.scale f.c3)
  let pg := (((Iv.pt g.c0).add (T.t.scale g.c1)).add (T.t2.scale g.c2)).add (T.t3.scale g.c3)
  let rem := rem.add ((pf.mul g.r).add (pg.mul f.r))
  ⟨c0, c1, c2, c3, rem⟩
/-- `operator *(S)`, 268-271; `*=(S)` 313-321; `S * TaylorModel` 464-473. -/
def scale (f : TM K) (d : K) : TM K := ⟨f.c0 * d, f.c1 * d, f.c2 * d, f.c3 * d, f.r.scale d⟩
/-- `operator -()`, 325-328. -/
def neg (f : TM K) : TM K := ⟨-f.c0, -f.c1, -f.c2, -f.c3, f.r.neg⟩
/-- `S - TaylorModel`, 484-487. -/
def rsubS (d : K) (f : TM K) : TM K := f.neg.addS d
/-- `getBound(t)`, 339-342. -/
def boundAt (f : TM K) (t : K) : Iv K := (Iv.pt (f.c0 + t * (f.c1 + t * (f.c2 + t * f.c3)))).add f.r
/-- `getBound(t0, t1)`, 346-353. -/
def boundOn (f : TM K) (t0 t1 : K) : Iv K :=
  let t : Iv K := ⟨t0, t1⟩
  let t2 : Iv K := ⟨t0 * t0, t1 * t1⟩
  let t3 : Iv K := ⟨t0 * t2.lo, t1 * t2.hi⟩
  ((((Iv.pt f.c0).add (t.scale f.c1)).add (t2.scale f.c2)).add (t3.scale f.c3)).add f.r
/-- `getBound()`, 357-360, as written: the upper end starts from `coeffs_[1]`. -/
def bound (T : TimeIv K) (f : TM K) : Iv K :=
  (((⟨f.c0 + f.r.lo, f.c1 + f.r.hi⟩ : Iv K).add (T.t.scale f.c1)).add (T.t2.scale f.c2)).add (T.t3.scale f.c3)
/-- `setZero`, 456-460. -/
def zero : TM K := ⟨0, 0, 0, 0, Iv.pt 0⟩
/-- `generateTaylorModelForLinearFunc(tm, p, v)`, 634-642. -/
def linear (p v : K) : TM K := ⟨p, v, 0, 0, ⟨0, 0⟩⟩

/-- The value of a quadratic, lines 375, 377, 379 (Horner form). -/
def quad (f : TM K) (t : K) : K := f.c0 + t * (f.c1 + t * f.c2)
/-- The value of the cubic, lines 407, 409, 432 (Horner form). -/
def cubic (f : TM K) (t : K) : K := f.c0 + t * (f.c1 + t * (f.c2 + t * f.c3))
/-- Lines 429-434 and 436-441: take one stationary point into account. -/
def widen (f : TM K) (t0 t1 s : K) (b : Iv K) : Iv K :=
  if s ≤ t1 ∧ s ≥ t0 then
    let q := f.cubic s
    if q < b.lo then { b with lo := q } else if q > b.hi then { b with hi := q } else b
  else b
end field

/-- `getTightBound(t0, t1)`, 364-445. In the quadratic case with `coeffs_[2] == 0` the code divides by zero: the
result is infinite or not a number, both comparisons on line 373 fail, and the second branch is taken. -/
noncomputable def tightOn (T : TimeIv ℝ) (f : TM ℝ) (t0 t1 : ℝ) : Iv ℝ :=
  let t0 := if t0 < T.t.lo then T.t.lo else t0
  let t1 := if t1 > T.t.hi then T.t.hi else t1
  if f.c3 = 0 then
    let a := -f.c1 / (2 * f.c2)
    let lq := f.quad t0
    let rq := f.quad t1
    if f.c2 ≠ 0 ∧ a ≤ t1 ∧ a ≥ t0 then
      let aq := f.quad a
      let minQ := if lq > rq then rq else lq
      let maxQ := if lq > rq then lq else rq
      let minQ := if minQ > aq then aq else minQ
      let maxQ := if maxQ < aq then aq else maxQ
      (⟨minQ, maxQ⟩ : Iv ℝ).add f.r
    else if lq > rq then (⟨rq, lq⟩ : Iv ℝ).add f.r
    else (⟨lq, rq⟩ : Iv ℝ).add f.r
  else
    let l := f.cubic t0
    let r := f.cubic t1
    let b : Iv ℝ := if l > r then ⟨r, l⟩ else ⟨l, r⟩
    let delta := f.c2 * f.c2 - 3 * f.c1 * f.c3
    if delta < 0 then b.add f.r
    else
      let r1 := (-f.c2 - √delta) / (3 * f.c3)
      let r2 := (-f.c2 + √delta) / (3 * f.c3)
      (f.widen t0 t1 r2 (f.widen t0 t1 r1 b)).add f.r

/-- `getTightBound()`, 449-452. -/
noncomputable def tight (T : TimeIv ℝ) (f : TM ℝ) : Iv ℝ := f.tightOn T T.t.lo T.t.hi

/-- Lines 493-504 and 564-575: the third order Taylor polynomial of a function with value `fa` and derivatives
`fda`, `fdda`, `fddda` at the centre `a`. The remainder is left alone. -/
noncomputable def expand (tm : TM ℝ) (a fa fda fdda fddda : ℝ) : TM ℝ :=
  { tm with
    c0 := fa - a * (fda - 0.5 * a * (fdda - 1.0 / 3.0 * a * fddda))
    c1 := fda - a * fdda + 0.5 * a * a * fddda
    c2 := 0.5 * (fdda - a * fddda)
    c3 := 1.0 / 6.0 * fddda }

/-- Lines 511-541 and 583-609: bounds of a function with period `2π` and values `ql`, `qr` at the two ends, which
has its maxima at the integer values of `k` and its minima half way between them. -/
noncomputable def waveBounds (w ql qr k1 k2 : ℝ) : Iv ℝ :=
  let b : Iv ℝ := if ql < qr then ⟨ql, qr⟩ else ⟨qr, ql⟩
  let b : Iv ℝ := ⟨b.lo - 1e-15, b.hi + 1e-15⟩
  if w > 0 then
    let b : Iv ℝ := if ⌈k2⌉ - ⌊k1⌋ > 1 then { b with hi := 1 } else b
    let k1 := k1 - 0.5
    let k2 := k2 - 0.5
    if ⌈k2⌉ - ⌊k1⌋ > 1 then { b with lo := -1 } else b
  else
    let b : Iv ℝ := if ⌈k1⌉ - ⌊k2⌋ > 1 then { b with hi := 1 } else b
    let k1 := k1 - 0.5
    let k2 := k2 - 0.5
    if ⌈k1⌉ - ⌊k2⌋ > 1 then { b with lo := -1 } else b

/-- Lines 544-557 and 611-625: the remainder from the bounds of the fourth derivative, as written. -/
noncomputable def remainderOf (T : TimeIv ℝ) (b : Iv ℝ) : Iv ℝ :=
  let mid := 0.5 * (T.t.hi - T.t.lo)
  let mid2 := mid * mid
  let mid4 := mid2 * mid2
  if b.lo > 0 then ⟨0, b.hi * mid4 * (1.0 / 24)⟩
  else if b.lo < 0 then ⟨b.lo * mid4 * (1.0 / 24), 0⟩
  else ⟨b.lo * mid4 * (1.0 / 24), b.hi * mid4 * (1.0 / 24)⟩

/-- `generateTaylorModelForCosFunc(tm, w, q0)`, 491-558. -/
noncomputable def genCos (T : TimeIv ℝ) (tm : TM ℝ) (w q0 : ℝ) : TM ℝ :=
  let a := T.t.center
  let t := w * a + q0
  let w2 := w * w
  let fa := Real.cos t
  let fda := -w * Real.sin t
  let fdda := -w2 * fa
  let fddda := -w2 * fda
  let tm := tm.expand a fa fda fdda fddda
  let b : Iv ℝ :=
    if w = 0 then Iv.pt 0
    else waveBounds w (Real.cos (T.t.lo * w + q0)) (Real.cos (T.t.hi * w + q0))
      ((T.t.lo * w + q0) / (2 * Real.pi)) ((T.t.hi * w + q0) / (2 * Real.pi))
  let w4 := w2 * w2
  let b := b.scale w4
  { tm with r := remainderOf T b }

/-- `generateTaylorModelForSinFunc(tm, w, q0)`, 562-630. For `w == 0` the remainder is not assigned. -/
noncomputable def genSin (T : TimeIv ℝ) (tm : TM ℝ) (w q0 : ℝ) : TM ℝ :=
  let a := T.t.center
  let t := w * a + q0
  let w2 := w * w
  let fa := Real.sin t
  let fda := w * Real.cos t
  let fdda := -w2 * fa
  let fddda := -w2 * fda
  let tm := tm.expand a fa fda fdda fddda
  if w = 0 then tm
  else
    let b := waveBounds w (Real.sin (w * T.t.lo + q0)) (Real.sin (w * T.t.hi + q0))
      ((T.t.lo * w + q0) / (2 * Real.pi) - 0.25) ((T.t.hi * w + q0) / (2 * Real.pi) - 0.25)
    let w4 := w2 * w2
    let b := b.scale w4
    { tm with r := remainderOf T b }

end TM

/-- `TVector3<S>` (taylor_vector.h). -/
structure TVec (K : Type*) where
  x : TM K
  y : TM K
  z : TM K
deriving DecidableEq, Repr

namespace TVec
variable {K : Type*} [Field K] [LinearOrder K]

/-- `operator []`, taylor_vector-inl.h 227-237. -/
def get (v : TVec K) (i : Fin 3) : TM K :=
  match i with
  | 0 => v.x
  | 1 => v.y
  | 2 => v.z
/-- `TVector3(Vector3, time_interval)`, 100-105. -/
def const (v : V3 K) : TVec K := ⟨.const v.x, .const v.y, .const v.z⟩
/-- `setZero`, 109-114. -/
def zero : TVec K := ⟨.zero, .zero, .zero⟩
/-- `operator +`, 118-121; `+=` 139-145. -/
def add (a b : TVec K) : TVec K := ⟨a.x.add b.x, a.y.add b.y, a.z.add b.z⟩
/-- `operator -`, 125-128; `-=` 149-155. -/
def sub (a b : TVec K) : TVec K := ⟨a.x.sub b.x, a.y.sub b.y, a.z.sub b.z⟩
/-- `operator -()`, 132-135. -/
def neg (a : TVec K) : TVec K := ⟨a.x.neg, a.y.neg, a.z.neg⟩
/-- `operator +(Vector3)`, 159-162; `+=` 166-172; `Vector3 + TVector3` 377-380. -/
def addV (a : TVec K) (v : V3 K) : TVec K := ⟨a.x.addS v.x, a.y.addS v.y, a.z.addS v.z⟩
/-- `operator -(Vector3)`, 176-179; `-=` 183-189. -/
def subV (a : TVec K) (v : V3 K) : TVec K := ⟨a.x.subS v.x, a.y.subS v.y, a.z.subS v.z⟩
/-- `Vector3 - TVector3`, 384-387. -/
def rsubV (v : V3 K) (a : TVec K) : TVec K := a.neg.addV v
/-- `operator *(TaylorModel)`, 193-196; `*=` 200-206 when `d` is not a component of the vector. -/
def mulT (T : TimeIv K) (a : TVec K) (d : TM K) : TVec K := ⟨a.x.mul T d, a.y.mul T d, a.z.mul T d⟩
/-- `operator *(S)`, 210-213; `*=` 217-223. -/
def scale (a : TVec K) (d : K) : TVec K := ⟨a.x.scale d, a.y.scale d, a.z.scale d⟩
/-- `dot(TVector3)`, 241-244. -/
def dot (T : TimeIv K) (a b : TVec K) : TM K := ((a.x.mul T b.x).add (a.y.mul T b.y)).add (a.z.mul T b.z)
/-- `cross(TVector3)`, 248-253. -/
def cross (T : TimeIv K) (a b : TVec K) : TVec K :=
  ⟨(a.y.mul T b.z).sub (a.z.mul T b.y), (a.z.mul T b.x).sub (a.x.mul T b.z), (a.x.mul T b.y).sub (a.y.mul T b.x)⟩
/-- `dot(Vector3)`, 257-260. -/
def dotV (a : TVec K) (v : V3 K) : TM K := ((a.x.scale v.x).add (a.y.scale v.y)).add (a.z.scale v.z)
/-- `cross(Vector3)`, 264-269. -/
def crossV (a : TVec K) (v : V3 K) : TVec K :=
  ⟨(a.y.scale v.z).sub (a.z.scale v.y), (a.z.scale v.x).sub (a.x.scale v.z), (a.x.scale v.y).sub (a.y.scale v.x)⟩
/-- `getBound(l, r)`, 287-290. -/
def boundOn (a : TVec K) (l r : K) : IVec K := ⟨a.x.boundOn l r, a.y.boundOn l r, a.z.boundOn l r⟩
/-- `getBound(t)`, 294-297. -/
def boundAt (a : TVec K) (t : K) : IVec K := ⟨a.x.boundAt t, a.y.boundAt t, a.z.boundAt t⟩
/-- `getTightBound(l, r)`, 308-311. -/
noncomputable def tightOn (T : TimeIv ℝ) (a : TVec ℝ) (l r : ℝ) : IVec ℝ :=
  ⟨a.x.tightOn T l r, a.y.tightOn T l r, a.z.tightOn T l r⟩
/-- `getTightBound()`, 301-304. -/
noncomputable def tight (T : TimeIv ℝ) (a : TVec ℝ) : IVec ℝ := ⟨a.x.tight T, a.y.tight T, a.z.tight T⟩
/-- `squareLength`, 324-327. -/
def squareLength (T : TimeIv K) (a : TVec K) : TM K := ((a.x.mul T a.x).add (a.y.mul T a.y)).add (a.z.mul T a.z)
/-- `generateTVector3ForLinearFunc(v, position, velocity)`, 356-361. -/
def linear (p v : V3 K) : TVec K := ⟨.linear p.x v.x, .linear p.y v.y, .linear p.z v.z⟩
/-- `Vector3 * TaylorModel`, 365-373. -/
def ofScalar (v : V3 K) (a : TM K) : TVec K := ⟨a.scale v.x, a.scale v.y, a.scale v.z⟩

end TVec

/-- `TMatrix3<S>`: three rows (taylor_matrix.h). -/
structure TMat (K : Type*) where
  r0 : TVec K
  r1 : TVec K
  r2 : TVec K
deriving DecidableEq, Repr

namespace TMat
variable {K : Type*} [Field K] [LinearOrder K]

/-- `getRow`, taylor_matrix-inl.h 148-151. -/
def row (m : TMat K) (i : Fin 3) : TVec K :=
  match i with
  | 0 => m.r0
  | 1 => m.r1
  | 2 => m.r2
/-- `getColumn`, 141-144. -/
def col (m : TMat K) (i : Fin 3) : TVec K := ⟨m.r0.get i, m.r1.get i, m.r2.get i⟩
/-- `operator ()`, 155-165. -/
def get (m : TMat K) (i j : Fin 3) : TM K := (m.row i).get j
/-- `TMatrix3(Matrix3, time_interval)`, 112-117. -/
def const (m : M3 K) : TMat K := ⟨.const m.r0, .const m.r1, .const m.r2⟩
/-- `setIdentity`, 121-128. -/
def identity : TMat K :=
  ⟨⟨.const 1, .zero, .zero⟩, ⟨.zero, .const 1, .zero⟩, ⟨.zero, .zero, .const 1⟩⟩
/-- `operator *(Matrix3)`, 169-178; `*=` 223-233. -/
def mulMat (a : TMat K) (m : M3 K) : TMat K :=
  ⟨⟨a.r0.dotV (m.col 0), a.r0.dotV (m.col 1), a.r0.dotV (m.col 2)⟩,
   ⟨a.r1.dotV (m.col 0), a.r1.dotV (m.col 1), a.r1.dotV (m.col 2)⟩,
   ⟨a.r2.dotV (m.col 0), a.r2.dotV (m.col 1), a.r2.dotV (m.col 2)⟩⟩
/-- `operator *(Vector3)`, 182-185. -/
def mulVec (a : TMat K) (v : V3 K) : TVec K := ⟨a.r0.dotV v, a.r1.dotV v, a.r2.dotV v⟩
/-- `operator *(TVector3)`, 189-192. -/
def mulTVec (T : TimeIv K) (a : TMat K) (v : TVec K) : TVec K := ⟨a.r0.dot T v, a.r1.dot T v, a.r2.dot T v⟩
/-- `operator *(TMatrix3)`, 196-205; `*=` 237-248 copies the columns first. -/
def mul (T : TimeIv K) (a m : TMat K) : TMat K :=
  ⟨⟨a.r0.dot T (m.col 0), a.r0.dot T (m.col 1), a.r0.dot T (m.col 2)⟩,
   ⟨a.r1.dot T (m.col 0), a.r1.dot T (m.col 1), a.r1.dot T (m.col 2)⟩,
   ⟨a.r2.dot T (m.col 0), a.r2.dot T (m.col 1), a.r2.dot T (m.col 2)⟩⟩
/-- `operator *(TaylorModel)`, 209-212; `TaylorModel * TMatrix3` 539-542. -/
def mulT (T : TimeIv K) (a : TMat K) (d : TM K) : TMat K := ⟨a.r0.mulT T d, a.r1.mulT T d, a.r2.mulT T d⟩
/-- `operator *(S)`, 216-219; `*=` 262-268; `S * TMatrix3` 546-549. -/
def scale (a : TMat K) (d : K) : TMat K := ⟨a.r0.scale d, a.r1.scale d, a.r2.scale d⟩
/-- `operator +`, 272-275; `+=` 279-285. -/
def add (a b : TMat K) : TMat K := ⟨a.r0.add b.r0, a.r1.add b.r1, a.r2.add b.r2⟩
/-- `operator +(Matrix3)`, 289-307; `Matrix3 + TMatrix3` 553-556. -/
def addM (a : TMat K) (m : M3 K) : TMat K := ⟨a.r0.addV m.r0, a.r1.addV m.r1, a.r2.addV m.r2⟩
/-- `operator -`, 311-314; `-=` 318-324. -/
def sub (a b : TMat K) : TMat K := ⟨a.r0.sub b.r0, a.r1.sub b.r1, a.r2.sub b.r2⟩
/-- `operator -(Matrix3)`, 328-346. -/
def subM (a : TMat K) (m : M3 K) : TMat K := ⟨a.r0.subV m.r0, a.r1.subV m.r1, a.r2.subV m.r2⟩
/-- `operator -()`, 350-353. -/
def neg (a : TMat K) : TMat K := ⟨a.r0.neg, a.r1.neg, a.r2.neg⟩
/-- `Matrix3 - TMatrix3`, 560-563. -/
def rsubM (m : M3 K) (a : TMat K) : TMat K := a.neg.addM m
/-- `getBound(l, r)`, 373-376. -/
def boundOn (a : TMat K) (l r : K) : IMat K := ⟨a.r0.boundOn l r, a.r1.boundOn l r, a.r2.boundOn l r⟩
/-- `getBound(t)`, 380-383. -/
def boundAt (a : TMat K) (t : K) : IMat K := ⟨a.r0.boundAt t, a.r1.boundAt t, a.r2.boundAt t⟩
/-- `getTightBound(l, r)`, 394-397. -/
noncomputable def tightOn (T : TimeIv ℝ) (a : TMat ℝ) (l r : ℝ) : IMat ℝ :=
  ⟨a.r0.tightOn T l r, a.r1.tightOn T l r, a.r2.tightOn T l r⟩
/-- `Matrix3 * TaylorModel`, 512-528, as written: the third column is stored over the second, and the third
column of the result stays empty. `TaylorModel * Matrix3` (532-535) calls it. -/
def ofScalar (m : M3 K) (a : TM K) : TMat K :=
  ⟨⟨a.scale m.r0.x, a.scale m.r0.z, .empty⟩, ⟨a.scale m.r1.x, a.scale m.r1.z, .empty⟩,
   ⟨a.scale m.r2.x, a.scale m.r2.z, .empty⟩⟩
/-- Lines 462-474: one entry of `TMatrix3::rotationConstrain()`. -/
def clamp (f : TM K) : TM K :=
  let r : Iv K := ⟨IMat.clampEnd f.r.lo, IMat.clampEnd f.r.hi⟩
  if r.lo = -1 ∧ r.hi = 1 then ⟨0, 0, 0, 0, r⟩ else { f with r := r }
@[inherit_doc clamp] def clampVec (v : TVec K) : TVec K := ⟨clamp v.x, clamp v.y, clamp v.z⟩
/-- `TMatrix3::rotationConstrain()`, 456-479. -/
def rotationConstrain (m : TMat K) : TMat K := ⟨clampVec m.r0, clampVec m.r1, clampVec m.r2⟩

end TMat
end Fcl
