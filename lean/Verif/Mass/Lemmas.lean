import Verif.Mass.Integrals
import Verif.Mass.Model
import Verif.Mass.Spec
import Mathlib.Tactic.LinearCombination
import Mathlib.Tactic.FieldSimp

/-! From the ten moments of a solid to its mass properties. -/

namespace Fcl
namespace Mass
open MeasureTheory Set Real

/-- The integrals of the monomials up to degree 2. -/
structure Moments (X : Set (V3 ℝ)) (v x y z xx yy zz xy xz yz : ℝ) : Prop where
  solid : Solid X
  v : (over X fun _ => 1) = v
  x : (over X fun p => p.x) = x
  y : (over X fun p => p.y) = y
  z : (over X fun p => p.z) = z
  xx : (over X fun p => p.x * p.x) = xx
  yy : (over X fun p => p.y * p.y) = yy
  zz : (over X fun p => p.z * p.z) = zz
  xy : (over X fun p => p.x * p.y) = xy
  xz : (over X fun p => p.x * p.z) = xz
  yz : (over X fun p => p.y * p.z) = yz

theorem over_add {X : Set (V3 ℝ)} (hX : Solid X) {f g : V3 ℝ → ℝ} (hf : Continuous fun p => f (toV p))
    (hg : Continuous fun p => g (toV p)) : (over X fun p => f p + g p) = over X f + over X g :=
  integral_add (ContinuousOn.integrableOn_compact hX hf.continuousOn) (ContinuousOn.integrableOn_compact hX hg.continuousOn)

theorem over_mul (X : Set (V3 ℝ)) (c : ℝ) (f : V3 ℝ → ℝ) : (over X fun p => c * f p) = c * over X f :=
  integral_const_mul _ _

theorem over_quad {X : Set (V3 ℝ)} {v x y z xx yy zz xy xz yz : ℝ} (h : Moments X v x y z xx yy zz xy xz yz)
    (c0 cx cy cz cxx cyy czz cxy cxz cyz : ℝ) :
    (over X fun p => c0 * 1 + cx * p.x + cy * p.y + cz * p.z + cxx * (p.x * p.x) + cyy * (p.y * p.y) + czz * (p.z * p.z) +
      cxy * (p.x * p.y) + cxz * (p.x * p.z) + cyz * (p.y * p.z)) =
    c0 * v + cx * x + cy * y + cz * z + cxx * xx + cyy * yy + czz * zz + cxy * xy + cxz * xz + cyz * yz := by
  have hX := h.solid
  have c1 : Continuous fun p : (ℝ × ℝ) × ℝ => (toV p).x := by simp only [toV]; fun_prop
  have c2 : Continuous fun p : (ℝ × ℝ) × ℝ => (toV p).y := by simp only [toV]; fun_prop
  have c3 : Continuous fun p : (ℝ × ℝ) × ℝ => (toV p).z := by simp only [toV]; fun_prop
  rw [over_add hX (by fun_prop) (by fun_prop), over_add hX (by fun_prop) (by fun_prop), over_add hX (by fun_prop) (by fun_prop),
    over_add hX (by fun_prop) (by fun_prop), over_add hX (by fun_prop) (by fun_prop), over_add hX (by fun_prop) (by fun_prop),
    over_add hX (by fun_prop) (by fun_prop), over_add hX (by fun_prop) (by fun_prop), over_add hX (by fun_prop) (by fun_prop)]
  simp only [over_mul]
  rw [h.v, h.x, h.y, h.z, h.xx, h.yy, h.zz, h.xy, h.xz, h.yz]

/-- The inertia about any point. -/
theorem Moments.inertia {X : Set (V3 ℝ)} {v x y z xx yy zz xy xz yz : ℝ} (h : Moments X v x y z xx yy zz xy xz yz)
    (c : V3 ℝ) (I : M3 ℝ)
    (e1 : I.r0.x = yy + zz - 2 * c.y * y - 2 * c.z * z + (c.y * c.y + c.z * c.z) * v)
    (e2 : I.r1.y = xx + zz - 2 * c.x * x - 2 * c.z * z + (c.x * c.x + c.z * c.z) * v)
    (e3 : I.r2.z = xx + yy - 2 * c.x * x - 2 * c.y * y + (c.x * c.x + c.y * c.y) * v)
    (e4 : I.r0.y = -(xy - c.x * y - c.y * x + c.x * c.y * v)) (e4' : I.r1.x = I.r0.y)
    (e5 : I.r0.z = -(xz - c.x * z - c.z * x + c.x * c.z * v)) (e5' : I.r2.x = I.r0.z)
    (e6 : I.r1.z = -(yz - c.y * z - c.z * y + c.y * c.z * v)) (e6' : I.r2.y = I.r1.z) : IsInertia X c I := by
  have q := over_quad h
  have key : ∀ (f : V3 ℝ → ℝ) (c0 cx cy cz cxx cyy czz cxy cxz cyz w : ℝ),
      (∀ p : V3 ℝ, f p = c0 * 1 + cx * p.x + cy * p.y + cz * p.z + cxx * (p.x * p.x) + cyy * (p.y * p.y) + czz * (p.z * p.z) +
      cxy * (p.x * p.y) + cxz * (p.x * p.z) + cyz * (p.y * p.z)) →
      w = c0 * v + cx * x + cy * y + cz * z + cxx * xx + cyy * yy + czz * zz + cxy * xy + cxz * xz + cyz * yz →
      w = over X f := by
    intro f c0 cx cy cz cxx cyy czz cxy cxz cyz w hf hw
    rw [hw, ← q]
    congr 1
    funext p
    exact (hf p).symm
  have kxy : ∀ f : V3 ℝ → ℝ, (∀ p, f p = (p.x - c.x) * (p.y - c.y)) → I.r0.y = -over X f := by
    intro f hf
    rw [← key f (c.x * c.y) (-c.y) (-c.x) 0 0 0 0 1 0 0 (-I.r0.y) (fun p => by rw [hf]; ring) (by rw [e4]; ring)]; ring
  have kxz : ∀ f : V3 ℝ → ℝ, (∀ p, f p = (p.x - c.x) * (p.z - c.z)) → I.r0.z = -over X f := by
    intro f hf
    rw [← key f (c.x * c.z) (-c.z) 0 (-c.x) 0 0 0 0 1 0 (-I.r0.z) (fun p => by rw [hf]; ring) (by rw [e5]; ring)]; ring
  have kyz : ∀ f : V3 ℝ → ℝ, (∀ p, f p = (p.y - c.y) * (p.z - c.z)) → I.r1.z = -over X f := by
    intro f hf
    rw [← key f (c.y * c.z) 0 (-c.z) (-c.y) 0 0 0 0 0 1 (-I.r1.z) (fun p => by rw [hf]; ring) (by rw [e6]; ring)]; ring
  refine ⟨?_, kxy _ fun p => rfl, kxz _ fun p => rfl, ?_, ?_, kyz _ fun p => rfl, ?_, ?_, ?_⟩
  · exact key _ (c.y * c.y + c.z * c.z) 0 (-2 * c.y) (-2 * c.z) 0 1 1 0 0 0 _ (fun p => by ring) (by rw [e1]; ring)
  · rw [e4']; exact kxy _ fun p => by ring
  · exact key _ (c.x * c.x + c.z * c.z) (-2 * c.x) 0 (-2 * c.z) 1 0 1 0 0 0 _ (fun p => by ring) (by rw [e2]; ring)
  · rw [e5']; exact kxz _ fun p => by ring
  · rw [e6']; exact kyz _ fun p => by ring
  · exact key _ (c.x * c.x + c.y * c.y) (-2 * c.x) (-2 * c.y) 0 1 1 0 0 0 0 _ (fun p => by ring) (by rw [e3]; ring)

/-- The parallel axis theorem as the code has it. -/
theorem Moments.aboutCOM {X : Set (V3 ℝ)} {v x y z xx yy zz xy xz yz : ℝ} (h : Moments X v x y z xx yy zz xy xz yz)
    {C : M3 ℝ} {c : V3 ℝ} (hC : IsInertia X ⟨0, 0, 0⟩ C) (hc : IsCOM X c) : IsInertia X c (aboutCOM C c v) := by
  obtain ⟨h1, h2, h3⟩ := hc
  rw [h.v, h.x] at h1
  rw [h.v, h.y] at h2
  rw [h.v, h.z] at h3
  obtain ⟨a1, a2, a3, a4, a5, a6, a7, a8, a9⟩ := hC
  have q := over_quad h
  have key : ∀ (f : V3 ℝ → ℝ) (cxx cyy czz cxy cxz cyz : ℝ),
      (∀ p : V3 ℝ, f p = 0 * 1 + 0 * p.x + 0 * p.y + 0 * p.z + cxx * (p.x * p.x) + cyy * (p.y * p.y) + czz * (p.z * p.z) +
      cxy * (p.x * p.y) + cxz * (p.x * p.z) + cyz * (p.y * p.z)) →
      over X f = cxx * xx + cyy * yy + czz * zz + cxy * xy + cxz * xz + cyz * yz := by
    intro f cxx cyy czz cxy cxz cyz hf
    have : f = fun p => _ := funext hf
    rw [this, q]; ring
  rw [key _ 0 1 1 0 0 0 (fun p => by ring)] at a1
  rw [key _ 0 0 0 1 0 0 (fun p => by ring)] at a2
  rw [key _ 0 0 0 0 1 0 (fun p => by ring)] at a3
  rw [key _ 0 0 0 1 0 0 (fun p => by ring)] at a4
  rw [key _ 1 0 1 0 0 0 (fun p => by ring)] at a5
  rw [key _ 0 0 0 0 0 1 (fun p => by ring)] at a6
  rw [key _ 0 0 0 0 1 0 (fun p => by ring)] at a7
  rw [key _ 0 0 0 0 0 1 (fun p => by ring)] at a8
  rw [key _ 1 1 0 0 0 0 (fun p => by ring)] at a9
  refine h.inertia c _ ?_ ?_ ?_ ?_ ?_ ?_ ?_ ?_ ?_ <;> simp only [Mass.aboutCOM, a1, a2, a3, a4, a5, a6, a7, a8, a9] <;>
    (try simp only [← h1, ← h2, ← h3]) <;> ring

/-! ### Solids whose slices are ellipses -/

theorem moments_solid {X : Set (V3 ℝ)} {a b z0 z1 : ℝ} (ha : 0 < a) (hb : 0 < b) (hz : z0 ≤ z1) {τ : ℝ → ℝ} (hτ : Continuous τ)
    (h0 : ∀ z ∈ Icc z0 z1, 0 ≤ τ z) (hX : toV ⁻¹' X = solid a b z0 z1 τ) :
    Moments X (π * a * b * ∫ z in z0..z1, τ z) 0 0 (π * a * b * ∫ z in z0..z1, z * τ z)
      (π * a ^ 3 * b / 4 * ∫ z in z0..z1, τ z ^ 2) (π * a * b ^ 3 / 4 * ∫ z in z0..z1, τ z ^ 2)
      (π * a * b * ∫ z in z0..z1, z ^ 2 * τ z) 0 0 0 := by
  have m := fun i j k => solid_mono ha hb hz hτ i j k
  have s2 : ∀ g : ℝ → ℝ, (∫ z in z0..z1, g z * √(τ z) ^ 2) = ∫ z in z0..z1, g z * τ z := by
    intro g
    refine intervalIntegral.integral_congr fun z hz' => ?_
    rw [uIcc_of_le hz] at hz'
    simp only [sq_sqrt (h0 z hz')]
  have s4 : (∫ z in z0..z1, √(τ z) ^ 4) = ∫ z in z0..z1, τ z ^ 2 := by
    refine intervalIntegral.integral_congr fun z hz' => ?_
    rw [uIcc_of_le hz] at hz'
    have := sq_sqrt (h0 z hz')
    calc √(τ z) ^ 4 = (√(τ z) ^ 2) ^ 2 := by ring
      _ = τ z ^ 2 := by rw [this]
  refine ⟨by rw [Solid, hX]; exact solid_compact ha hb z0 z1 hτ, ?_, ?_, ?_, ?_, ?_, ?_, ?_, ?_, ?_, ?_⟩ <;> simp only [over, hX, toV]
  · have := m 0 0 0
    simp only [pow_zero, mul_one, circ_00, Nat.cast_zero, zero_add, pow_one, one_mul] at this
    rw [this]
    have := s2 fun _ => 1
    simp only [one_mul] at this
    rw [this]; ring
  · simpa [circ_10] using m 1 0 0
  · simpa [circ_01] using m 0 1 0
  · have := m 0 0 1
    simp only [pow_zero, circ_00, Nat.cast_zero, zero_add, pow_one, one_mul] at this
    rw [this, s2 fun z => z]; ring
  · have := m 2 0 0
    simp only [pow_zero, mul_one, circ_20, Nat.cast_zero, add_zero, zero_add, pow_one, one_mul, Nat.cast_ofNat] at this
    simp only [← pow_two]
    rw [this]
    norm_num only
    rw [s4]; ring
  · have := m 0 2 0
    simp only [pow_zero, mul_one, circ_02, Nat.cast_zero, zero_add, pow_one, one_mul, Nat.cast_ofNat] at this
    simp only [← pow_two]
    rw [this]
    norm_num only
    rw [s4]; ring
  · have := m 0 0 2
    simp only [pow_zero, circ_00, Nat.cast_zero, zero_add, pow_one, one_mul] at this
    simp only [← pow_two]
    rw [this, s2 fun z => z ^ 2]; ring
  · simpa [circ_11] using m 1 1 0
  · simpa [circ_10] using m 1 0 1
  · simpa [circ_01] using m 0 1 1

/-- The integral of a polynomial. -/
theorem integral_poly (a b c0 c1 c2 c3 c4 : ℝ) : (∫ z in a..b, (c0 + c1 * z + c2 * z ^ 2 + c3 * z ^ 3 + c4 * z ^ 4)) =
    c0 * (b - a) + c1 * (b ^ 2 - a ^ 2) / 2 + c2 * (b ^ 3 - a ^ 3) / 3 + c3 * (b ^ 4 - a ^ 4) / 4 + c4 * (b ^ 5 - a ^ 5) / 5 := by
  have : ∀ z ∈ uIcc a b, HasDerivAt (fun z => c0 * z + c1 * z ^ 2 / 2 + c2 * z ^ 3 / 3 + c3 * z ^ 4 / 4 + c4 * z ^ 5 / 5)
      (c0 + c1 * z + c2 * z ^ 2 + c3 * z ^ 3 + c4 * z ^ 4) z := by
    intro z _
    have h1 := (hasDerivAt_id z).const_mul c0
    have h2 := ((hasDerivAt_pow 2 z).const_mul c1).div_const 2
    have h3 := ((hasDerivAt_pow 3 z).const_mul c2).div_const 3
    have h4 := ((hasDerivAt_pow 4 z).const_mul c3).div_const 4
    have h5 := ((hasDerivAt_pow 5 z).const_mul c4).div_const 5
    have := (((h1.add h2).add h3).add h4).add h5
    exact this.congr_deriv (by norm_num; ring)
  rw [intervalIntegral.integral_eq_sub_of_hasDerivAt this (Continuous.intervalIntegrable (by fun_prop) _ _)]
  ring

/-- The integral of a function that agrees with a polynomial. -/
theorem integral_agree {a b : ℝ} (hab : a ≤ b) {f : ℝ → ℝ} (c0 c1 c2 c3 c4 : ℝ)
    (h : ∀ z ∈ Icc a b, f z = c0 + c1 * z + c2 * z ^ 2 + c3 * z ^ 3 + c4 * z ^ 4) : (∫ z in a..b, f z) =
    c0 * (b - a) + c1 * (b ^ 2 - a ^ 2) / 2 + c2 * (b ^ 3 - a ^ 3) / 3 + c3 * (b ^ 4 - a ^ 4) / 4 + c4 * (b ^ 5 - a ^ 5) / 5 := by
  rw [← integral_poly]
  refine intervalIntegral.integral_congr fun z hz => ?_
  rw [uIcc_of_le hab] at hz
  exact h z hz

end Mass
end Fcl
