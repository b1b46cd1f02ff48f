import Verif.AABB.Model
import Mathlib.Algebra.Order.Floor.Semiring
import Mathlib.Algebra.Order.Field.Basic

/-! # Model of the Morton codes (fcl/broadphase/detail/morton.h, morton-inl.h, morton.cpp) -/

namespace Fcl.Morton

/-- The four lines spreading the bits of one coordinate, src/broadphase/detail/morton.cpp 55-58 (and
60-63, 65-68). `uint32` is `BitVec 32`. -/
def spread (x : BitVec 32) : BitVec 32 :=
  let x := (x ||| (x <<< 16)) &&& 0x030000FF#32
  let x := (x ||| (x <<< 8)) &&& 0x0300F00F#32
  let x := (x ||| (x <<< 4)) &&& 0x030C30C3#32
  (x ||| (x <<< 2)) &&& 0x09249249#32

/-- `morton_code`, morton.cpp 53-71. -/
def code30 (x y z : BitVec 32) : BitVec 32 := spread x ||| (spread y <<< 1) ||| (spread z <<< 2)

/-- `morton_code60`, morton.cpp 74-85. -/
def code60 (x y z : BitVec 32) : BitVec 64 :=
  ((code30 (x >>> 10) (y >>> 10) (z >>> 10)).setWidth 64 <<< 30) |||
    (code30 (x &&& 1023#32) (y &&& 1023#32) (z &&& 1023#32)).setWidth 64

section
variable {K : Type*} [Field K] [LinearOrder K] [FloorSemiring K]

/-- `quantize`, morton-inl.h 61-65. The conversion to `uint32` truncates; it is undefined (`none`) unless
the truncated value fits. -/
def quantize (x : K) (n : BitVec 32) : Option (BitVec 32) :=
  let y := x * (n.toNat : K)
  if -1 < y ∧ y < 2 ^ 32 then
    let t := BitVec.ofNat 32 ⌊y⌋₊
    let m := if t.toNat ≤ (n - 1).toNat then t else n - 1      -- std::min(t, n - 1)
    some (if m.toNat < (0#32).toNat then 0 else m)             -- std::max(m, 0)
  else none

/-- A functor object: `base` and `inv`, morton.h 81-82. -/
structure Functor (K : Type*) where
  base : V3 K
  inv : V3 K

/-- The constructors, morton-inl.h 68-76, 90-98, 126-134. `none` when an extent is zero: the quotient is
infinite or NaN then, and a point of the box gives NaN, whose conversion is undefined. -/
def Functor.mk? (b : AABB K) : Option (Functor K) :=
  if b.hi.x - b.lo.x = 0 ∨ b.hi.y - b.lo.y = 0 ∨ b.hi.z - b.lo.z = 0 then none
  else some ⟨b.lo, ⟨1 / (b.hi.x - b.lo.x), 1 / (b.hi.y - b.lo.y), 1 / (b.hi.z - b.lo.z)⟩⟩

/-- `(point - base) * inv` per coordinate, morton-inl.h 82-84, 104-106, 141-143. -/
def Functor.scale (f : Functor K) (p : V3 K) : V3 K :=
  ⟨(p.x - f.base.x) * f.inv.x, (p.y - f.base.y) * f.inv.y, (p.z - f.base.z) * f.inv.z⟩

/-- `morton_functor<S, uint32>::operator()`, morton-inl.h 79-87. -/
def Functor.call30 (f : Functor K) (p : V3 K) : Option (BitVec 32) :=
  match quantize (f.scale p).x 1024#32, quantize (f.scale p).y 1024#32, quantize (f.scale p).z 1024#32 with
  | some x, some y, some z => some (code30 x y z)
  | _, _, _ => none

/-- `morton_functor<S, uint64>::operator()`, morton-inl.h 101-109. -/
def Functor.call60 (f : Functor K) (p : V3 K) : Option (BitVec 64) :=
  match quantize (f.scale p).x (1#32 <<< 20), quantize (f.scale p).y (1#32 <<< 20),
    quantize (f.scale p).z (1#32 <<< 20) with
  | some x, some y, some z => some (code60 x y z)
  | _, _, _ => none

/-- `x = ((x >= 1) ? 2*(x-1) : 2*x)`, morton-inl.h 156-158. -/
def next (x : K) : K := if x ≥ 1 then 2 * (x - 1) else 2 * x

/-- The loop, morton-inl.h 151-159: the bits in the order in which they are written, from `bits() - 1`
downwards. -/
def bitLoop : ℕ → K → K → K → List Bool
  | 0, _, _, _ => []
  | n + 1, x, y, z =>
    (if z < 1 then false else true) :: (if y < 1 then false else true) :: (if x < 1 then false else true) ::
      bitLoop n (next x) (next y) (next z)

/-- `morton_functor<S, std::bitset<N>>::operator()`, morton-inl.h 137-162, with `N = 3 * n`; most
significant bit first. -/
def Functor.callBits (n : ℕ) (f : Functor K) (p : V3 K) : List Bool :=
  bitLoop n ((f.scale p).x * 2) ((f.scale p).y * 2) ((f.scale p).z * 2)

end
end Fcl.Morton
