import Verif.Mass.Lemmas
import Mathlib.MeasureTheory.Integral.Prod

/-! The moments of the primitive shapes. -/

namespace Fcl
namespace Mass
open MeasureTheory Set Real

theorem sq_div_le {x y r t : ℝ} (hr : 0 < r) : (x / r) ^ 2 + (y / r) ^ 2 ≤ t ↔ x * x + y * y ≤ t * (r * r) := by
  have : (x / r) ^ 2 + (y / r) ^ 2 = (x * x + y * y) / (r * r) := by field_simp
  rw [this, div_le_iff₀ (by positivity)]

theorem cylinder_solid {r lz : ℝ} (hr : 0 < r) : toV ⁻¹' Shape.cylinder r lz = solid r r (-(lz / 2)) (lz / 2) fun _ => 1 := by
  ext p
  simp only [mem_preimage, Shape.cylinder, solid, toV, mem_ofPred_eq, mem_Icc, sq_div_le hr, one_mul]

theorem cone_solid {r lz : ℝ} (hr : 0 < r) (hl : 0 < lz) :
    toV ⁻¹' Shape.cone r lz = solid r r (-(lz / 2)) (lz / 2) fun z => ((lz / 2 - z) / lz) ^ 2 := by
  ext p
  simp only [mem_preimage, Shape.cone, solid, toV, mem_ofPred_eq, mem_Icc, sq_div_le hr]
  constructor
  · rintro ⟨s, x, y, h0, h1, hd, he⟩
    obtain ⟨e1, e2, e3⟩ := V3.mk.inj he
    have : (lz / 2 - p.2) / lz = s := by rw [e3]; field_simp; ring
    rw [this, e1, e2, e3]
    refine ⟨?_, ?_, ?_⟩
    · nlinarith [mul_le_mul_of_nonneg_left hd (sq_nonneg s)]
    · nlinarith
    · nlinarith
  · rintro ⟨h, h0, h1⟩
    set s := (lz / 2 - p.2) / lz with hs
    have hs0 : 0 ≤ s := div_nonneg (by linarith) hl.le
    have hs1 : s ≤ 1 := by rw [hs, div_le_one hl]; linarith
    have e3 : p.2 = lz / 2 - s * lz := by rw [hs]; field_simp; ring
    rcases eq_or_lt_of_le hs0 with h' | h'
    · refine ⟨0, 0, 0, le_refl _, zero_le_one, by nlinarith, ?_⟩
      rw [← h'] at h
      have : p.1.1 = 0 ∧ p.1.2 = 0 := by constructor <;> nlinarith [mul_self_nonneg p.1.1, mul_self_nonneg p.1.2]
      rw [this.1, this.2, e3, ← h']; simp
    · refine ⟨s, p.1.1 / s, p.1.2 / s, hs0, hs1, ?_, ?_⟩
      · have := (sq_div_le (x := p.1.1) (y := p.1.2) (t := r * r) h').2 (by nlinarith)
        nlinarith
      · rw [mul_div_cancel₀ _ h'.ne', mul_div_cancel₀ _ h'.ne', ← e3]

theorem ellipsoid_iff {s : V3 ℝ} (h1 : 0 < s.x) (h2 : 0 < s.y) (h3 : 0 < s.z) (p : V3 ℝ) :
    p ∈ Shape.ellipsoid s ↔ (p.x / s.x) ^ 2 + (p.y / s.y) ^ 2 + (p.z / s.z) ^ 2 ≤ 1 := by
  simp only [Shape.ellipsoid, mem_ofPred_eq]
  constructor
  · rintro ⟨q, hq, rfl⟩
    simp only [mul_div_cancel_left₀ _ h1.ne', mul_div_cancel_left₀ _ h2.ne', mul_div_cancel_left₀ _ h3.ne']
    nlinarith
  · intro h
    refine ⟨⟨p.x / s.x, p.y / s.y, p.z / s.z⟩, by simp only; nlinarith, ?_⟩
    simp only [mul_div_cancel₀ _ h1.ne', mul_div_cancel₀ _ h2.ne', mul_div_cancel₀ _ h3.ne']

theorem ellipsoid_solid {s : V3 ℝ} (h1 : 0 < s.x) (h2 : 0 < s.y) (h3 : 0 < s.z) :
    toV ⁻¹' Shape.ellipsoid s = solid s.x s.y (-s.z) s.z fun z => 1 - (z / s.z) ^ 2 := by
  ext p
  rw [mem_preimage, ellipsoid_iff h1 h2 h3]
  simp only [solid, toV, mem_ofPred_eq, mem_Icc]
  constructor
  · intro h
    refine ⟨by linarith, ?_⟩
    have : (p.2 / s.z) ^ 2 ≤ 1 := by nlinarith [sq_nonneg (p.1.1 / s.x), sq_nonneg (p.1.2 / s.y)]
    have := abs_le.1 ((sq_le_one_iff_abs_le_one _).1 this)
    rw [le_div_iff₀ h3, div_le_iff₀ h3] at this
    constructor <;> linarith [this.1, this.2]
  · rintro ⟨h, _⟩
    linarith

theorem ball_eq_ellipsoid {r : ℝ} (hr : 0 < r) : Shape.ball r = Shape.ellipsoid ⟨r, r, r⟩ := by
  ext p
  rw [ellipsoid_iff hr hr hr]
  simp only [Shape.ball, mem_ofPred_eq]
  have : (p.x / r) ^ 2 + (p.y / r) ^ 2 + (p.z / r) ^ 2 = (p.x * p.x + p.y * p.y + p.z * p.z) / (r * r) := by field_simp
  rw [this, div_le_one (by positivity)]

/-- How far `z` is outside `[-h, h]`. -/
noncomputable def beyond (h z : ℝ) : ℝ := max (|z| - h) 0

theorem capsule_solid {r lz : ℝ} (hr : 0 < r) (hl : 0 < lz) :
    toV ⁻¹' Shape.capsule r lz = solid 1 1 (-(lz / 2) - r) (lz / 2 + r) fun z => r ^ 2 - beyond (lz / 2) z ^ 2 := by
  ext p
  simp only [mem_preimage, Shape.capsule, solid, toV, mem_ofPred_eq, mem_Icc, div_one, beyond]
  set h := lz / 2 with hh
  have h0 : 0 < h := by positivity
  constructor
  · rintro ⟨c, hc1, hc2, hd⟩
    have hcz : |p.2| - h ≤ |p.2 - c| := by
      have := abs_sub_abs_le_abs_sub p.2 c
      have : |c| ≤ h := abs_le.2 ⟨hc1, hc2⟩
      linarith
    have hm : max (|p.2| - h) 0 ≤ |p.2 - c| := max_le hcz (abs_nonneg _)
    have hm2 := pow_le_pow_left₀ (le_max_right (|p.2| - h) 0) hm 2
    rw [sq_abs] at hm2
    have hr2 : |p.2 - c| ≤ r := abs_le_of_sq_le_sq (by nlinarith [mul_self_nonneg p.1.1, mul_self_nonneg p.1.2]) hr.le
    have := abs_le.1 hr2
    exact ⟨by nlinarith, by linarith [this.1], by linarith [this.2]⟩
  · rintro ⟨hd, h1, h2⟩
    refine ⟨max (-h) (min p.2 h), le_max_left _ _, max_le (by linarith) (min_le_right _ _), ?_⟩
    have : (p.2 - max (-h) (min p.2 h)) ^ 2 = (max (|p.2| - h) 0) ^ 2 := by
      rcases le_total p.2 h with a | a
      · rw [min_eq_left a]
        rcases le_total p.2 (-h) with b | b
        · rw [max_eq_left b, abs_of_nonpos (by linarith), max_eq_left (by linarith)]; ring
        · rw [max_eq_right b, max_eq_right (by linarith [abs_le.2 ⟨b, a⟩])]; ring
      · rw [min_eq_right a, max_eq_right (by linarith), abs_of_nonneg (by linarith), max_eq_left (by linarith)]
    nlinarith

/-! ### The values -/

theorem cylinder_moments {r lz : ℝ} (hr : 0 < r) (hl : 0 < lz) :
    Moments (Shape.cylinder r lz) (π * r ^ 2 * lz) 0 0 0 (π * r ^ 4 * lz / 4) (π * r ^ 4 * lz / 4) (π * r ^ 2 * lz ^ 3 / 12) 0 0 0 := by
  have := moments_solid hr hr (by linarith : -(lz / 2) ≤ lz / 2) (continuous_const : Continuous fun _ : ℝ => (1 : ℝ))
    (fun _ _ => zero_le_one) (cylinder_solid hr)
  rw [integral_agree (by linarith) 1 0 0 0 0 (fun z _ => by ring), integral_agree (by linarith) 0 1 0 0 0 (fun z _ => by ring),
    integral_agree (by linarith) 1 0 0 0 0 (fun z _ => by ring), integral_agree (by linarith) 0 0 1 0 0 (fun z _ => by ring)] at this
  convert this using 1 <;> ring

theorem cone_moments {r lz : ℝ} (hr : 0 < r) (hl : 0 < lz) :
    Moments (Shape.cone r lz) (π * r ^ 2 * lz / 3) 0 0 (-(π * r ^ 2 * lz ^ 2 / 12)) (π * r ^ 4 * lz / 20) (π * r ^ 4 * lz / 20)
      (π * r ^ 2 * lz ^ 3 / 30) 0 0 0 := by
  have := moments_solid hr hr (by linarith : -(lz / 2) ≤ lz / 2) (by fun_prop : Continuous fun z : ℝ => ((lz / 2 - z) / lz) ^ 2)
    (fun _ _ => sq_nonneg _) (cone_solid hr hl)
  rw [integral_agree (by linarith) (1 / 4) (-1 / lz) (1 / lz ^ 2) 0 0 (fun z _ => by field_simp; ring),
    integral_agree (by linarith) 0 (1 / 4) (-1 / lz) (1 / lz ^ 2) 0 (fun z _ => by field_simp; ring),
    integral_agree (by linarith) (1 / 16) (-1 / (2 * lz)) (3 / (2 * lz ^ 2)) (-2 / lz ^ 3) (1 / lz ^ 4) (fun z _ => by field_simp; ring),
    integral_agree (by linarith) 0 0 (1 / 4) (-1 / lz) (1 / lz ^ 2) (fun z _ => by field_simp; ring)] at this
  convert this using 1 <;> field_simp <;> ring

theorem ellipsoid_moments {s : V3 ℝ} (h1 : 0 < s.x) (h2 : 0 < s.y) (h3 : 0 < s.z) :
    Moments (Shape.ellipsoid s) (4 * π * s.x * s.y * s.z / 3) 0 0 0 (4 * π * s.x ^ 3 * s.y * s.z / 15) (4 * π * s.x * s.y ^ 3 * s.z / 15)
      (4 * π * s.x * s.y * s.z ^ 3 / 15) 0 0 0 := by
  have := moments_solid h1 h2 (by linarith : -s.z ≤ s.z) (by fun_prop : Continuous fun z : ℝ => 1 - (z / s.z) ^ 2)
    (fun z hz => by
      have : |z / s.z| ≤ 1 := by rw [abs_le, le_div_iff₀ h3, div_le_iff₀ h3]; constructor <;> linarith [hz.1, hz.2]
      linarith [(sq_le_one_iff_abs_le_one _).2 this]) (ellipsoid_solid h1 h2 h3)
  rw [integral_agree (by linarith) 1 0 (-1 / s.z ^ 2) 0 0 (fun z _ => by field_simp; ring),
    integral_agree (by linarith) 0 1 0 (-1 / s.z ^ 2) 0 (fun z _ => by field_simp; ring),
    integral_agree (by linarith) 1 0 (-2 / s.z ^ 2) 0 (1 / s.z ^ 4) (fun z _ => by field_simp; ring),
    integral_agree (by linarith) 0 0 1 0 (-1 / s.z ^ 2) (fun z _ => by field_simp; ring)] at this
  convert this using 1 <;> field_simp <;> ring

theorem continuous_beyond (h : ℝ) : Continuous (beyond h) := by unfold beyond; fun_prop

/-- An integral over the height of a capsule, cut at the ends of the segment. -/
theorem integral_capsule {h r : ℝ} (hh : 0 ≤ h) (hr : 0 ≤ r) {f : ℝ → ℝ} (hf : Continuous f) :
    (∫ z in (-h - r)..(h + r), f z) = (∫ z in (-h - r)..(-h), f z) + (∫ z in (-h)..h, f z) + ∫ z in h..(h + r), f z := by
  rw [intervalIntegral.integral_add_adjacent_intervals (hf.intervalIntegrable _ _) (hf.intervalIntegrable _ _),
    intervalIntegral.integral_add_adjacent_intervals (hf.intervalIntegrable _ _) (hf.intervalIntegrable _ _)]

theorem beyond_low {h z : ℝ} (hh : 0 ≤ h) (hz : z ≤ -h) : beyond h z = -z - h := by
  rw [beyond, abs_of_nonpos (by linarith), max_eq_left (by linarith)]

theorem beyond_mid {h z : ℝ} (h1 : -h ≤ z) (h2 : z ≤ h) : beyond h z = 0 := by
  rw [beyond, max_eq_right (by linarith [abs_le.2 ⟨h1, h2⟩])]

theorem beyond_high {h z : ℝ} (hh : 0 ≤ h) (hz : h ≤ z) : beyond h z = z - h := by
  rw [beyond, abs_of_nonneg (by linarith), max_eq_left (by linarith)]

theorem capsule_moments {r lz : ℝ} (hr : 0 < r) (hl : 0 < lz) :
    Moments (Shape.capsule r lz) (π * r ^ 2 * (lz + 4 * r / 3)) 0 0 0 (π * r ^ 4 * (lz / 4 + 4 * r / 15)) (π * r ^ 4 * (lz / 4 + 4 * r / 15))
      (π * r ^ 2 * (lz ^ 3 / 12 + r * lz ^ 2 / 3 + r ^ 2 * lz / 2 + 4 * r ^ 3 / 15)) 0 0 0 := by
  have cb := continuous_beyond (lz / 2)
  obtain ⟨h, hh⟩ : ∃ h, h = lz / 2 := ⟨_, rfl⟩
  have h0 : 0 < h := by rw [hh]; positivity
  have := moments_solid one_pos one_pos (by linarith : -(lz / 2) - r ≤ lz / 2 + r)
    (by fun_prop : Continuous fun z : ℝ => r ^ 2 - beyond (lz / 2) z ^ 2)
    (fun z hz => by
      have h1 : beyond (lz / 2) z ≤ r := max_le (by linarith [abs_le.2 ⟨by linarith [hz.1], hz.2⟩]) hr.le
      have h2 : 0 ≤ beyond (lz / 2) z := le_max_right _ _
      nlinarith [pow_le_pow_left₀ h2 h1 2]) (capsule_solid hr hl)
  rw [← hh] at this cb
  have lo : ∀ z ∈ Icc (-h - r) (-h), beyond h z = -z - h := fun z hz => beyond_low h0.le hz.2
  have mi : ∀ z ∈ Icc (-h) h, beyond h z = 0 := fun z hz => beyond_mid hz.1 hz.2
  have hi : ∀ z ∈ Icc h (h + r), beyond h z = z - h := fun z hz => beyond_high h0.le hz.1
  rw [integral_capsule h0.le hr.le (by fun_prop), integral_capsule h0.le hr.le (by fun_prop),
    integral_capsule h0.le hr.le (by fun_prop), integral_capsule h0.le hr.le (by fun_prop)] at this
  rw [integral_agree (by linarith) (r ^ 2 - h ^ 2) (-2 * h) (-1) 0 0 (fun z hz => by rw [lo z hz]; ring),
    integral_agree (by linarith) (r ^ 2) 0 0 0 0 (fun z hz => by rw [mi z hz]; ring),
    integral_agree (by linarith) (r ^ 2 - h ^ 2) (2 * h) (-1) 0 0 (fun z hz => by rw [hi z hz]; ring),
    integral_agree (by linarith) 0 (r ^ 2 - h ^ 2) (-2 * h) (-1) 0 (fun z hz => by rw [lo z hz]; ring),
    integral_agree (by linarith) 0 (r ^ 2) 0 0 0 (fun z hz => by rw [mi z hz]; ring),
    integral_agree (by linarith) 0 (r ^ 2 - h ^ 2) (2 * h) (-1) 0 (fun z hz => by rw [hi z hz]; ring),
    integral_agree (by linarith) ((r ^ 2 - h ^ 2) ^ 2) (-4 * h * (r ^ 2 - h ^ 2)) (4 * h ^ 2 - 2 * (r ^ 2 - h ^ 2)) (4 * h) 1
      (fun z hz => by rw [lo z hz]; ring),
    integral_agree (by linarith) (r ^ 4) 0 0 0 0 (fun z hz => by rw [mi z hz]; ring),
    integral_agree (by linarith) ((r ^ 2 - h ^ 2) ^ 2) (4 * h * (r ^ 2 - h ^ 2)) (4 * h ^ 2 - 2 * (r ^ 2 - h ^ 2)) (-4 * h) 1
      (fun z hz => by rw [hi z hz]; ring),
    integral_agree (by linarith) 0 0 (r ^ 2 - h ^ 2) (-2 * h) (-1) (fun z hz => by rw [lo z hz]; ring),
    integral_agree (by linarith) 0 0 (r ^ 2) 0 0 (fun z hz => by rw [mi z hz]; ring),
    integral_agree (by linarith) 0 0 (r ^ 2 - h ^ 2) (2 * h) (-1) (fun z hz => by rw [hi z hz]; ring)] at this
  have hl' : lz = 2 * h := by rw [hh]; ring
  rw [hl']
  rw [hl'] at this
  convert this using 1 <;> ring

/-! ### The box -/

theorem box_set (s : V3 ℝ) : toV ⁻¹' Shape.box s =
    (Icc (-(s.x / 2)) (s.x / 2) ×ˢ Icc (-(s.y / 2)) (s.y / 2)) ×ˢ Icc (-(s.z / 2)) (s.z / 2) := by
  ext p
  simp only [mem_preimage, Shape.box, toV, mem_ofPred_eq, mem_prod, mem_Icc]
  tauto

theorem box_mono {s : V3 ℝ} (h1 : 0 < s.x) (h2 : 0 < s.y) (h3 : 0 < s.z) (f g k : ℝ → ℝ) :
    (over (Shape.box s) fun p => f p.x * g p.y * k p.z) =
      (∫ z in (-(s.x / 2))..(s.x / 2), f z) * (∫ z in (-(s.y / 2))..(s.y / 2), g z) * ∫ z in (-(s.z / 2))..(s.z / 2), k z := by
  have e := fun (a : ℝ) (ha : 0 < a) (f : ℝ → ℝ) => (intervalIntegral.integral_of_le (f := f) (μ := MeasureTheory.volume) (by linarith : -(a / 2) ≤ a / 2)).trans
    (integral_Icc_eq_integral_Ioc).symm
  rw [e _ h1, e _ h2, e _ h3, over, box_set]
  simp only [toV]
  rw [Measure.volume_eq_prod, setIntegral_prod_mul (fun q : ℝ × ℝ => f q.1 * g q.2) k, Measure.volume_eq_prod, setIntegral_prod_mul f g]

theorem box_moments {s : V3 ℝ} (h1 : 0 < s.x) (h2 : 0 < s.y) (h3 : 0 < s.z) :
    Moments (Shape.box s) (s.x * s.y * s.z) 0 0 0 (s.x ^ 3 * s.y * s.z / 12) (s.x * s.y ^ 3 * s.z / 12) (s.x * s.y * s.z ^ 3 / 12) 0 0 0 := by
  have p0 : ∀ a : ℝ, 0 < a → (∫ _ in (-(a / 2))..(a / 2), (1 : ℝ)) = a := fun a ha => by
    rw [integral_agree (by linarith) 1 0 0 0 0 (fun z _ => by ring)]; ring
  have p1 : ∀ a : ℝ, 0 < a → (∫ z in (-(a / 2))..(a / 2), z) = 0 := fun a ha => by
    rw [integral_agree (by linarith) 0 1 0 0 0 (fun z _ => by ring)]; ring
  have p2 : ∀ a : ℝ, 0 < a → (∫ z in (-(a / 2))..(a / 2), z * z) = a ^ 3 / 12 := fun a ha => by
    rw [integral_agree (by linarith) 0 0 1 0 0 (fun z _ => by ring)]; ring
  have m := fun f g k => box_mono h1 h2 h3 f g k
  refine ⟨?_, ?_, ?_, ?_, ?_, ?_, ?_, ?_, ?_, ?_, ?_⟩
  · rw [Solid, box_set]
    exact (isCompact_Icc.prod isCompact_Icc).prod isCompact_Icc
  · have := m (fun _ => 1) (fun _ => 1) (fun _ => 1)
    simp only [mul_one] at this
    rw [this, p0 _ h1, p0 _ h2, p0 _ h3]
  · have := m (fun x => x) (fun _ => 1) (fun _ => 1)
    simp only [mul_one] at this
    rw [this, p1 _ h1]; ring
  · have := m (fun _ => 1) (fun x => x) (fun _ => 1)
    simp only [mul_one, one_mul] at this
    rw [this, p1 _ h2]; ring
  · have := m (fun _ => 1) (fun _ => 1) (fun x => x)
    simp only [mul_one, one_mul] at this
    rw [this, p1 _ h3]; ring
  · have := m (fun x => x * x) (fun _ => 1) (fun _ => 1)
    simp only [mul_one] at this
    rw [this, p2 _ h1, p0 _ h2, p0 _ h3]; ring
  · have := m (fun _ => 1) (fun x => x * x) (fun _ => 1)
    simp only [mul_one, one_mul] at this
    rw [this, p0 _ h1, p2 _ h2, p0 _ h3]; ring
  · have := m (fun _ => 1) (fun _ => 1) (fun x => x * x)
    simp only [mul_one, one_mul] at this
    rw [this, p0 _ h1, p0 _ h2, p2 _ h3]; ring
  · have := m (fun x => x) (fun x => x) (fun _ => 1)
    simp only [mul_one] at this
    rw [this, p1 _ h1]; ring
  · have := m (fun x => x) (fun _ => 1) (fun x => x)
    simp only [mul_one] at this
    rw [this, p1 _ h1]; ring
  · have := m (fun _ => 1) (fun x => x) (fun x => x)
    simp only [one_mul] at this
    rw [this, p1 _ h2]; ring

end Mass
end Fcl
