import Mathlib.Analysis.SpecialFunctions.PolarCoord
import Mathlib.Analysis.SpecialFunctions.Integrals.Basic
import Mathlib.MeasureTheory.Integral.Prod
import Mathlib.MeasureTheory.Function.Jacobian
import Mathlib.LinearAlgebra.Determinant
import Mathlib.Tactic.NormNum

/-! Integrals of monomials over ellipses and over solids whose slices are ellipses. -/

namespace Fcl
namespace Mass
open MeasureTheory Set Real

/-- The integral of a monomial in the cosine and the sine over the circle. -/
noncomputable def circ (i j : ℕ) : ℝ := ∫ θ in (-π)..π, cos θ ^ i * sin θ ^ j

theorem circ_00 : circ 0 0 = 2 * π := by simp [circ]; ring
theorem circ_10 : circ 1 0 = 0 := by simp [circ]
theorem circ_01 : circ 0 1 = 0 := by simp [circ]
theorem circ_11 : circ 1 1 = 0 := by
  have : circ 1 1 = ∫ θ in (-π)..π, sin θ * cos θ := by simp [circ, mul_comm]
  rw [this, integral_sin_mul_cos₁]; simp
theorem circ_20 : circ 2 0 = π := by
  have : circ 2 0 = ∫ θ in (-π)..π, cos θ ^ 2 := by simp [circ]
  rw [this, integral_cos_sq]; simp
theorem circ_02 : circ 0 2 = π := by
  have : circ 0 2 = ∫ θ in (-π)..π, sin θ ^ 2 := by simp [circ]
  rw [this, integral_sin_sq]; simp

theorem disc_mono (t : ℝ) (i j : ℕ) :
    ∫ p in {p : ℝ × ℝ | p.1 ^ 2 + p.2 ^ 2 ≤ t}, p.1 ^ i * p.2 ^ j = (√t) ^ (i + j + 2) / (i + j + 2) * circ i j := by
  have hm : MeasurableSet {p : ℝ × ℝ | p.1 ^ 2 + p.2 ^ 2 ≤ t} :=
    (isClosed_le (by fun_prop) continuous_const).measurableSet
  rw [← integral_indicator hm, ← integral_comp_polarCoord_symm]
  have h1 : ∀ p ∈ polarCoord.target, p.1 • ({p : ℝ × ℝ | p.1 ^ 2 + p.2 ^ 2 ≤ t}.indicator (fun p => p.1 ^ i * p.2 ^ j)
      (polarCoord.symm p)) = (Iic (√t)).indicator (fun ρ => ρ ^ (i + j + 1)) p.1 * (cos p.2 ^ i * sin p.2 ^ j) := by
    rintro ⟨ρ, θ⟩ hp
    have hρ : 0 < ρ := by
      have := hp
      simp only [polarCoord_target, mem_prod, mem_Ioi] at this
      exact this.1
    have e : (ρ * cos θ) ^ 2 + (ρ * sin θ) ^ 2 = ρ ^ 2 := by
      have := cos_sq_add_sin_sq θ
      linear_combination ρ ^ 2 * this
    simp only [polarCoord_symm_apply, smul_eq_mul]
    by_cases h : ρ ≤ √t
    · have : ρ ^ 2 ≤ t := (le_sqrt' hρ).1 h
      rw [indicator_of_mem (by simpa [e] using this), indicator_of_mem (by simpa using h)]
      ring
    · have : ¬ ρ ^ 2 ≤ t := fun h' => h ((le_sqrt' hρ).2 h')
      rw [indicator_of_notMem (by simpa [e] using this), indicator_of_notMem (by simpa using h)]
      ring
  rw [setIntegral_congr_fun polarCoord.open_target.measurableSet h1, polarCoord_target, Measure.volume_eq_prod,
    setIntegral_prod_mul (fun ρ => (Iic (√t)).indicator (fun ρ => ρ ^ (i + j + 1)) ρ) (fun θ => cos θ ^ i * sin θ ^ j)]
  congr 1
  · rw [setIntegral_indicator measurableSet_Iic, Ioi_inter_Iic, ← intervalIntegral.integral_of_le (sqrt_nonneg t), integral_pow]
    push_cast
    rw [zero_pow (by omega), sub_zero]
    ring_nf
  · rw [circ, intervalIntegral.integral_of_le (by linarith [pi_pos]), integral_Ioc_eq_integral_Ioo]

/-- Stretching the axes. -/
noncomputable def stretch (a b : ℝ) : ℝ × ℝ →L[ℝ] ℝ × ℝ :=
  (a • ContinuousLinearMap.id ℝ ℝ).prodMap (b • ContinuousLinearMap.id ℝ ℝ)

@[simp] theorem stretch_apply (a b : ℝ) (p : ℝ × ℝ) : stretch a b p = (a * p.1, b * p.2) := rfl

theorem stretch_det (a b : ℝ) : (stretch a b).det = a * b := by
  have : ((stretch a b : ℝ × ℝ →L[ℝ] ℝ × ℝ) : ℝ × ℝ →ₗ[ℝ] ℝ × ℝ) =
      (a • LinearMap.id : ℝ →ₗ[ℝ] ℝ).prodMap (b • LinearMap.id) := rfl
  rw [ContinuousLinearMap.det, this, LinearMap.det_prodMap]
  simp

theorem ellipse_mono {a b : ℝ} (ha : 0 < a) (hb : 0 < b) (t : ℝ) (i j : ℕ) :
    ∫ p in {p : ℝ × ℝ | (p.1 / a) ^ 2 + (p.2 / b) ^ 2 ≤ t}, p.1 ^ i * p.2 ^ j =
      a ^ (i + 1) * b ^ (j + 1) * ((√t) ^ (i + j + 2) / (i + j + 2) * circ i j) := by
  have hm : MeasurableSet {p : ℝ × ℝ | p.1 ^ 2 + p.2 ^ 2 ≤ t} :=
    (isClosed_le (by fun_prop) continuous_const).measurableSet
  have himg : {p : ℝ × ℝ | (p.1 / a) ^ 2 + (p.2 / b) ^ 2 ≤ t} = stretch a b '' {p : ℝ × ℝ | p.1 ^ 2 + p.2 ^ 2 ≤ t} := by
    ext ⟨x, y⟩
    constructor
    · intro h
      exact ⟨(x / a, y / b), h, by simp only [stretch_apply, Prod.mk.injEq]; constructor <;> field_simp⟩
    · rintro ⟨⟨u, v⟩, h, e⟩
      simp only [stretch_apply, Prod.mk.injEq] at e
      obtain ⟨rfl, rfl⟩ := e
      simp only [mem_ofPred_eq] at h ⊢
      simp [mul_div_cancel_left₀ _ ha.ne', mul_div_cancel_left₀ _ hb.ne', h]
  rw [himg, integral_image_eq_integral_abs_det_fderiv_smul volume hm
    (fun x _ => (stretch a b).hasFDerivAt.hasFDerivWithinAt) ?_]
  · simp only [stretch_det, abs_of_pos (mul_pos ha hb), smul_eq_mul]
    have : ∀ p : ℝ × ℝ, a * b * ((stretch a b p).1 ^ i * (stretch a b p).2 ^ j) =
        (a ^ (i + 1) * b ^ (j + 1)) * (p.1 ^ i * p.2 ^ j) := by
      intro p; simp only [stretch_apply]; ring
    simp only [this]
    rw [integral_const_mul, disc_mono]
  · rintro ⟨x, y⟩ - ⟨u, v⟩ - e
    simp only [stretch_apply, Prod.mk.injEq] at e
    simpa [ha.ne', hb.ne'] using e

/-- A solid between two heights whose slices are ellipses. -/
def solid (a b z0 z1 : ℝ) (τ : ℝ → ℝ) : Set ((ℝ × ℝ) × ℝ) :=
  {p | (p.1.1 / a) ^ 2 + (p.1.2 / b) ^ 2 ≤ τ p.2 ∧ p.2 ∈ Icc z0 z1}

theorem solid_closed (a b z0 z1 : ℝ) {τ : ℝ → ℝ} (hτ : Continuous τ) : IsClosed (solid a b z0 z1 τ) :=
  IsClosed.inter (isClosed_le (f := fun p : (ℝ × ℝ) × ℝ => (p.1.1 / a) ^ 2 + (p.1.2 / b) ^ 2) (g := fun p => τ p.2)
    (by fun_prop) (by fun_prop)) (isClosed_Icc.preimage continuous_snd)

theorem solid_compact {a b : ℝ} (ha : 0 < a) (hb : 0 < b) (z0 z1 : ℝ) {τ : ℝ → ℝ} (hτ : Continuous τ) :
    IsCompact (solid a b z0 z1 τ) := by
  obtain ⟨T, hT⟩ := (isCompact_Icc (a := z0) (b := z1)).bddAbove_image hτ.continuousOn
  have key : ∀ {a u : ℝ}, 0 < a → (u / a) ^ 2 ≤ T → u ∈ Icc (-(a * √T)) (a * √T) := by
    intro a u ha h
    have := abs_le_sqrt h
    rw [abs_le] at this
    constructor
    · have := mul_le_mul_of_nonneg_left this.1 ha.le
      rw [mul_div_cancel₀ _ ha.ne'] at this; linarith
    · have := mul_le_mul_of_nonneg_left this.2 ha.le
      rwa [mul_div_cancel₀ _ ha.ne'] at this
  have hbox : IsCompact ((Icc (-(a * √T)) (a * √T) ×ˢ Icc (-(b * √T)) (b * √T)) ×ˢ Icc z0 z1) :=
    (isCompact_Icc.prod isCompact_Icc).prod isCompact_Icc
  refine hbox.of_isClosed_subset (solid_closed a b z0 z1 hτ) ?_
  rintro ⟨⟨x, y⟩, z⟩ ⟨h1, h2⟩
  have : τ z ≤ T := hT ⟨z, h2, rfl⟩
  simp only at h1
  exact ⟨⟨key ha (by nlinarith [sq_nonneg (y / b)]), key hb (by nlinarith [sq_nonneg (x / a)])⟩, h2⟩

theorem solid_mono {a b : ℝ} (ha : 0 < a) (hb : 0 < b) {z0 z1 : ℝ} (hz : z0 ≤ z1) {τ : ℝ → ℝ} (hτ : Continuous τ) (i j k : ℕ) :
    ∫ p in solid a b z0 z1 τ, p.1.1 ^ i * p.1.2 ^ j * p.2 ^ k =
      a ^ (i + 1) * b ^ (j + 1) * (circ i j / (i + j + 2)) * ∫ z in z0..z1, z ^ k * (√(τ z)) ^ (i + j + 2) := by
  have hc := solid_compact ha hb z0 z1 hτ
  have hi : IntegrableOn (fun p : (ℝ × ℝ) × ℝ => p.1.1 ^ i * p.1.2 ^ j * p.2 ^ k) (solid a b z0 z1 τ) volume :=
    ContinuousOn.integrableOn_compact hc (by fun_prop)
  have hm := (solid_closed a b z0 z1 hτ).measurableSet
  rw [← integral_indicator hm, Measure.volume_eq_prod, integral_prod_symm _ ((integrable_indicator_iff hm).2 hi)]
  have h1 : ∀ z, (∫ p : ℝ × ℝ, (solid a b z0 z1 τ).indicator (fun p : (ℝ × ℝ) × ℝ => p.1.1 ^ i * p.1.2 ^ j * p.2 ^ k) (p, z)) =
      (Icc z0 z1).indicator (fun z => z ^ k * (a ^ (i + 1) * b ^ (j + 1) * ((√(τ z)) ^ (i + j + 2) / (i + j + 2) * circ i j))) z := by
    intro z
    have hs : MeasurableSet {p : ℝ × ℝ | (p.1 / a) ^ 2 + (p.2 / b) ^ 2 ≤ τ z} :=
      (isClosed_le (by fun_prop) continuous_const).measurableSet
    by_cases h : z ∈ Icc z0 z1
    · rw [indicator_of_mem h, ← ellipse_mono ha hb, ← integral_const_mul, ← integral_indicator hs]
      congr 1
      funext p
      by_cases hp : (p.1 / a) ^ 2 + (p.2 / b) ^ 2 ≤ τ z
      · rw [indicator_of_mem (show (p, z) ∈ solid a b z0 z1 τ from ⟨hp, h⟩),
          indicator_of_mem (show p ∈ {p : ℝ × ℝ | (p.1 / a) ^ 2 + (p.2 / b) ^ 2 ≤ τ z} from hp)]; ring
      · rw [indicator_of_notMem (fun h' => hp h'.1),
          indicator_of_notMem (show p ∉ {p : ℝ × ℝ | (p.1 / a) ^ 2 + (p.2 / b) ^ 2 ≤ τ z} from hp)]
    · rw [indicator_of_notMem h]
      have : ∀ p : ℝ × ℝ, (solid a b z0 z1 τ).indicator (fun p : (ℝ × ℝ) × ℝ => p.1.1 ^ i * p.1.2 ^ j * p.2 ^ k) (p, z) = 0 :=
        fun p => indicator_of_notMem (fun h' => h h'.2) _
      simp [this]
  simp only [h1]
  rw [integral_indicator measurableSet_Icc, integral_Icc_eq_integral_Ioc, ← intervalIntegral.integral_of_le hz,
    ← intervalIntegral.integral_const_mul]
  congr 1
  funext z
  ring

end Mass
end Fcl
