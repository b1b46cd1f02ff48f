import Verif.OBB.Model
import Mathlib.Analysis.SpecialFunctions.Pow.Real
import Mathlib.Analysis.SpecialFunctions.Trigonometric.Inverse
import Mathlib.Algebra.Order.Floor.Ring

/-!
# Model of the random numbers and samplers (include/fcl/math/rng-inl.h, include/fcl/math/sampler/*-inl.h)

A generator is the sequence of numbers which its uniform distribution on [0, 1) and its normal distribution will
produce. Every function gives its result and the generator that remains. The numbers are real numbers, and
`constants<S>::pi()` is π.
-/

namespace Fcl
namespace Rand
open Real

/-- The numbers that `uniDist_(generator_)` and `normalDist_(generator_)` will return. -/
structure Gen where
  uni : ℕ → ℝ
  nor : ℕ → ℝ

/-- `uniDist_(generator_)`; `uniform01`, rng-inl.h 59-62. -/
def uniform01 (g : Gen) : ℝ × Gen := (g.uni 0, { g with uni := fun k => g.uni (k + 1) })

/-- `normalDist_(generator_)`; `gaussian01`, 91-94. -/
def gaussian01 (g : Gen) : ℝ × Gen := (g.nor 0, { g with nor := fun k => g.nor (k + 1) })

/-- `uniformReal`, 66-71. -/
noncomputable def uniformReal (lower upper : ℝ) (g : Gen) : ℝ × Gen :=
  let (u, g) := uniform01 g
  ((upper - lower) * u + lower, g)

/-- `uniformInt`, 75-80. -/
noncomputable def uniformInt (lower upper : ℤ) (g : Gen) : ℤ × Gen :=
  let (x, g) := uniformReal lower (upper + 1) g
  let r := ⌊x⌋
  (if r > upper then upper else r, g)

/-- `uniformBool`, 84-87. -/
noncomputable def uniformBool (g : Gen) : Bool × Gen :=
  let (u, g) := uniform01 g
  (u ≤ 0.5, g)

/-- `gaussian`, 98-101. -/
noncomputable def gaussian (mean stddev : ℝ) (g : Gen) : ℝ × Gen :=
  let (u, g) := gaussian01 g
  (u * stddev + mean, g)

/-- `halfNormalReal`, 105-118. -/
noncomputable def halfNormalReal (rMin rMax focus : ℝ) (g : Gen) : ℝ × Gen :=
  let mean := rMax - rMin
  let (v, g) := gaussian mean (mean / focus) g
  let v := if v > mean then 2 * mean - v else v
  let r := if v ≥ 0 then v + rMin else rMin
  (if r > rMax then rMax else r, g)

/-- `halfNormalInt`, 122-128. -/
noncomputable def halfNormalInt (rMin rMax : ℤ) (focus : ℝ) (g : Gen) : ℤ × Gen :=
  let (x, g) := halfNormalReal rMin (rMax + 1) focus g
  let r := ⌊x⌋
  (if r > rMax then rMax else r, g)

/-- `quaternion`, 132-147: the four values. -/
noncomputable def quaternion (g : Gen) : (ℝ × ℝ × ℝ × ℝ) × Gen :=
  let (x0, g) := uniform01 g
  let r1 := √(1 - x0)
  let r2 := √x0
  let (u1, g) := uniform01 g
  let t1 := 2 * π * u1
  let (u2, g) := uniform01 g
  let t2 := 2 * π * u2
  let c1 := cos t1
  let s1 := sin t1
  let c2 := cos t2
  let s2 := sin t2
  ((s1 * r1, c1 * r1, s2 * r2, c2 * r2), g)

/-- `eulerRPY`, 150-155. -/
noncomputable def eulerRPY (g : Gen) : V3 ℝ × Gen :=
  let (u0, g) := uniform01 g
  let (u1, g) := uniform01 g
  let (u2, g) := uniform01 g
  (⟨π * (2 * u0 - 1), arccos (1 - 2 * u1) - π / 2, π * (2 * u2 - 1)⟩, g)

/-- `disk`, 159-167. -/
noncomputable def disk (rMin rMax : ℝ) (g : Gen) : (ℝ × ℝ) × Gen :=
  let (a, g) := uniform01 g
  let (b, g) := uniform01 g
  let r := √(a * rMax * rMax + (1 - a) * rMin * rMin)
  let theta := 2 * π * b
  ((r * cos theta, r * sin theta), g)

/-- `ball`, 171-189. -/
noncomputable def ball (rMin rMax : ℝ) (g : Gen) : V3 ℝ × Gen :=
  let (a, g) := uniform01 g
  let (b, g) := uniform01 g
  let (c, g) := uniform01 g
  let r := (a * rMax ^ 3 + (1 - a) * rMin ^ 3) ^ ((1 : ℝ) / 3)
  let theta := arccos (1 - 2 * b)
  let phi := 2 * π * c
  let costheta := cos theta
  let sintheta := sin theta
  let cosphi := cos phi
  let sinphi := sin phi
  (⟨r * costheta, r * sintheta * cosphi, r * sintheta * sinphi⟩, g)

/-- `SamplerR::sample`, sampler_r-inl.h 78-88: one number for each pair of bounds. -/
noncomputable def sampleR : List (ℝ × ℝ) → Gen → List ℝ × Gen
  | [], g => ([], g)
  | b :: bs, g =>
    let (x, g) := uniformReal b.1 b.2 g
    let (xs, g) := sampleR bs g
    (x :: xs, g)

/-- `SamplerSE2::sample`, sampler_se2-inl.h 91-99. `lower_bound` has two elements; `beyond` is what is read by
`lower_bound[2]`. -/
noncomputable def sampleSE2 (lower _upper : ℝ × ℝ) (beyond : ℝ) (g : Gen) : V3 ℝ × Gen :=
  let (x, g) := uniformReal lower.1 lower.2 g
  let (y, g) := uniformReal lower.2 beyond g
  let (a, g) := uniformReal (-π) π g
  (⟨x, y, a⟩, g)

/-- `SamplerSE2_disk`. -/
structure DiskBound where
  c : ℝ × ℝ
  cref : ℝ × ℝ
  rMin : ℝ
  rMax : ℝ

/-- `SamplerSE2_disk::setBound` and the constructor, sampler_se2_disk-inl.h 58-72. -/
def setDisk (cx cy r1 r2 crefx crefy : ℝ) : DiskBound := ⟨(cx, cy), (crefx, crefy), r1, r2⟩

/-- `SamplerSE2_disk::sample`, 76-86. -/
noncomputable def sampleSE2Disk (b : DiskBound) (g : Gen) : V3 ℝ × Gen :=
  let (p, g) := disk b.rMin b.rMax g
  let (a, g) := uniformReal (-π) π g
  (⟨p.1 + b.c.1 - b.cref.1, p.2 + b.c.2 - b.cref.2, a⟩, g)

/-- The three coordinates of a position, sampler_se3_euler-inl.h 70-72 and sampler_se3_quat-inl.h 87-89. -/
noncomputable def samplePos (lower upper : V3 ℝ) (g : Gen) : V3 ℝ × Gen :=
  let (x, g) := uniformReal lower.x upper.x g
  let (y, g) := uniformReal lower.y upper.y g
  let (z, g) := uniformReal lower.z upper.z g
  (⟨x, y, z⟩, g)

/-- `q[i] = x` on a vector of fixed size; `none` if there is no such element. -/
def put (v : List ℝ) (i : ℕ) (x : ℝ) : Option (List ℝ) := if i < v.length then some (v.set i x) else none

/-- The assignments of a sample to the vector, one after the other from the index `i`. -/
def putAll (v : List ℝ) (i : ℕ) : List ℝ → Option (List ℝ)
  | [] => some v
  | x :: xs => (put v i x).bind fun v => putAll v (i + 1) xs

/-- Eigen `eulerAngles(0, 1, 2)` is not modelled: any function of the rotation matrix. -/
abbrev Angles := M3 ℝ → V3 ℝ

/-- Position, and the angles of the rotation of the quaternion `Quaternion<S>(s[0], s[1], s[2], s[3])` with the first
value as `w`, sampler_se3_euler-inl.h 74-84 and sampler_se3_euler_ball-inl.h 88-97. -/
noncomputable def withAngles (f : Angles) (p : V3 ℝ) (g : Gen) : Option (List ℝ) × Gen :=
  let (s, g) := quaternion g
  let angles := f (OBB.Quat.toMat ⟨s.1, s.2.1, s.2.2.1, s.2.2.2⟩)
  (putAll (List.replicate 6 0) 0 [p.x, p.y, p.z, angles.x, angles.y, angles.z], g)

/-- `SamplerSE3Euler::sample`, sampler_se3_euler-inl.h 67-85. -/
noncomputable def sampleSE3Euler (f : Angles) (lower upper : V3 ℝ) (g : Gen) : Option (List ℝ) × Gen :=
  let (p, g) := samplePos lower upper g
  withAngles f p g

/-- `SamplerSE3Euler_ball::sample`, sampler_se3_euler_ball-inl.h 80-99. -/
noncomputable def sampleSE3EulerBall (f : Angles) (r : ℝ) (g : Gen) : Option (List ℝ) × Gen :=
  let (p, g) := ball 0 r g
  withAngles f p g

/-- `SamplerSE3Quat::sample`, sampler_se3_quat-inl.h 84-99. The vector has six elements. -/
noncomputable def sampleSE3Quat (lower upper : V3 ℝ) (g : Gen) : Option (List ℝ) × Gen :=
  let (p, g) := samplePos lower upper g
  let (s, g) := quaternion g
  (putAll (List.replicate 6 0) 0 [p.x, p.y, p.z, s.1, s.2.1, s.2.2.1, s.2.2.2], g)

/-- `SamplerSE3Quat_ball::sample`, sampler_se3_quat_ball-inl.h 80-97. The vector has seven elements. -/
noncomputable def sampleSE3QuatBall (r : ℝ) (g : Gen) : Option (List ℝ) × Gen :=
  let (p, g) := ball 0 r g
  let (s, g) := quaternion g
  (putAll (List.replicate 7 0) 0 [p.x, p.y, p.z, s.1, s.2.1, s.2.2.1, s.2.2.2], g)

end Rand
end Fcl
