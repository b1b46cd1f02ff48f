import Verif.Mass.Lemmas

/-! The moments of the standard simplex. -/

namespace Fcl
namespace Mass
open MeasureTheory Set

/-- The standard simplex. -/
def stdTet : Set (V3 ℝ) := {p | 0 ≤ p.x ∧ 0 ≤ p.y ∧ 0 ≤ p.z ∧ p.x + p.y + p.z ≤ 1}

theorem stdTet_compact : Solid stdTet := by
  have hc : IsClosed (toV ⁻¹' stdTet) := by
    have : toV ⁻¹' stdTet = {p : (ℝ × ℝ) × ℝ | 0 ≤ p.1.1} ∩ ({p | 0 ≤ p.1.2} ∩ ({p | 0 ≤ p.2} ∩ {p | p.1.1 + p.1.2 + p.2 ≤ 1})) := by
      ext p; simp [stdTet, toV]
    rw [this]
    refine (isClosed_le (f := fun _ => (0 : ℝ)) (g := fun p : (ℝ × ℝ) × ℝ => p.1.1) (by fun_prop) (by fun_prop)).inter
      ((isClosed_le (f := fun _ => (0 : ℝ)) (g := fun p : (ℝ × ℝ) × ℝ => p.1.2) (by fun_prop) (by fun_prop)).inter
      ((isClosed_le (f := fun _ => (0 : ℝ)) (g := fun p : (ℝ × ℝ) × ℝ => p.2) (by fun_prop) (by fun_prop)).inter
      (isClosed_le (f := fun p : (ℝ × ℝ) × ℝ => p.1.1 + p.1.2 + p.2) (g := fun _ => (1 : ℝ)) (by fun_prop) (by fun_prop))))
  refine IsCompact.of_isClosed_subset ((isCompact_Icc.prod isCompact_Icc).prod isCompact_Icc :
    IsCompact ((Icc (0 : ℝ) 1 ×ˢ Icc (0 : ℝ) 1) ×ˢ Icc (0 : ℝ) 1)) hc ?_
  rintro p ⟨h1, h2, h3, h4⟩
  simp only [toV] at h1 h2 h3 h4
  simp only [mem_prod, mem_Icc]
  refine ⟨⟨⟨h1, ?_⟩, h2, ?_⟩, h3, ?_⟩ <;> linarith

/-- An integral over a half-open condition. -/
theorem integral_upto (c : ℝ) (g : ℝ → ℝ) : (∫ w, {w : ℝ | 0 ≤ w ∧ w ≤ c}.indicator g w) = if 0 ≤ c then ∫ w in 0..c, g w else 0 := by
  have : {w : ℝ | 0 ≤ w ∧ w ≤ c} = Icc 0 c := rfl
  rw [this, integral_indicator measurableSet_Icc]
  split
  · next h => rw [intervalIntegral.integral_of_le h, integral_Icc_eq_integral_Ioc]
  · next h => rw [Icc_eq_empty h]; simp

/-- Integrating over the standard simplex one coordinate after the other. -/
theorem over_stdTet {f : ℝ → ℝ → ℝ → ℝ} (hf : Continuous fun p : (ℝ × ℝ) × ℝ => f p.1.1 p.1.2 p.2) {g : ℝ → ℝ → ℝ} {h : ℝ → ℝ}
    (hg : ∀ u v : ℝ, 0 ≤ 1 - u - v → (∫ w in (0 : ℝ)..(1 - u - v), f u v w) = g u v)
    (hh : ∀ u : ℝ, 0 ≤ 1 - u → (∫ v in (0 : ℝ)..(1 - u), g u v) = h u) :
    (over stdTet fun p => f p.x p.y p.z) = ∫ u in (0 : ℝ)..1, h u := by
  have hm : MeasurableSet (toV ⁻¹' stdTet) := IsCompact.measurableSet stdTet_compact
  have hi : IntegrableOn (fun p : (ℝ × ℝ) × ℝ => f p.1.1 p.1.2 p.2) (toV ⁻¹' stdTet) :=
    ContinuousOn.integrableOn_compact stdTet_compact hf.continuousOn
  have hi' := (integrable_indicator_iff hm).2 hi
  have e1 : ∀ u v : ℝ, (∫ w, (toV ⁻¹' stdTet).indicator (fun p : (ℝ × ℝ) × ℝ => f p.1.1 p.1.2 p.2) ((u, v), w)) =
      {u : ℝ | 0 ≤ u ∧ u ≤ 1}.indicator (fun u => {v : ℝ | 0 ≤ v ∧ v ≤ 1 - u}.indicator (fun v => g u v) v) u := by
    intro u v
    have : (fun w => (toV ⁻¹' stdTet).indicator (fun p : (ℝ × ℝ) × ℝ => f p.1.1 p.1.2 p.2) ((u, v), w)) = fun w =>
        if 0 ≤ u ∧ 0 ≤ v then {w : ℝ | 0 ≤ w ∧ w ≤ 1 - u - v}.indicator (fun w => f u v w) w else 0 := by
      funext w
      simp only [indicator, mem_preimage, toV, stdTet, mem_ofPred_eq]
      by_cases h : 0 ≤ u ∧ 0 ≤ v
      · rw [if_pos h]
        have : (0 ≤ u ∧ 0 ≤ v ∧ 0 ≤ w ∧ u + v + w ≤ 1) ↔ (0 ≤ w ∧ w ≤ 1 - u - v) :=
          ⟨fun a => ⟨a.2.2.1, by linarith [a.2.2.2]⟩, fun a => ⟨h.1, h.2, a.1, by linarith [a.2]⟩⟩
        simp only [this]
      · rw [if_neg h, if_neg fun a => h ⟨a.1, a.2.1⟩]
    rw [this]
    simp only [indicator, mem_ofPred_eq]
    by_cases h : 0 ≤ u ∧ 0 ≤ v
    · simp only [if_pos h]
      have := integral_upto (1 - u - v) (f u v)
      simp only [indicator, mem_ofPred_eq] at this
      refine Eq.trans (b := if 0 ≤ 1 - u - v then ∫ w in (0 : ℝ)..(1 - u - v), f u v w else 0) (by convert this) ?_
      by_cases hc : 0 ≤ 1 - u - v
      · rw [if_pos hc, if_pos ⟨h.1, by linarith [h.2]⟩, if_pos ⟨h.2, by linarith⟩, hg u v hc]
      · rw [if_neg hc]
        split
        · rw [if_neg fun a => hc (by linarith [a.2])]
        · rfl
    · simp only [if_neg h, integral_zero]
      split
      · next h1 => rw [if_neg fun a => h ⟨h1.1, a.1⟩]
      · rfl
  have e0 : (over stdTet fun p => f p.x p.y p.z) =
      ∫ p, (toV ⁻¹' stdTet).indicator (fun p : (ℝ × ℝ) × ℝ => f p.1.1 p.1.2 p.2) p := by
    rw [integral_indicator hm]; rfl
  rw [e0, Measure.volume_eq_prod, integral_prod _ hi']
  have hi2 := hi'.integral_prod_left
  rw [Measure.volume_eq_prod, integral_prod _ hi2]
  simp only [e1]
  have e2 : ∀ u : ℝ, (∫ v, {u : ℝ | 0 ≤ u ∧ u ≤ 1}.indicator (fun u => {v : ℝ | 0 ≤ v ∧ v ≤ 1 - u}.indicator (fun v => g u v) v) u) =
      {u : ℝ | 0 ≤ u ∧ u ≤ 1}.indicator h u := by
    intro u
    simp only [indicator, mem_ofPred_eq]
    by_cases hu : 0 ≤ u ∧ u ≤ 1
    · simp only [if_pos hu]
      have := integral_upto (1 - u) (g u)
      simp only [indicator, mem_ofPred_eq] at this
      refine Eq.trans (b := if 0 ≤ 1 - u then ∫ v in (0 : ℝ)..(1 - u), g u v else 0) (by convert this) ?_
      rw [if_pos (by linarith [hu.2]), hh u (by linarith [hu.2])]
    · simp only [if_neg hu, integral_zero]
  simp only [e2]
  rw [integral_upto, if_pos zero_le_one]

theorem stdTet_moments : Moments stdTet (1 / 6) (1 / 24) (1 / 24) (1 / 24) (1 / 60) (1 / 60) (1 / 60) (1 / 120) (1 / 120) (1 / 120) := by
  refine ⟨stdTet_compact, ?_, ?_, ?_, ?_, ?_, ?_, ?_, ?_, ?_, ?_⟩
  · rw [over_stdTet (f := fun _ _ _ => 1) (g := fun u v => 1 - u - v) (h := fun u => (1 - u) ^ 2 / 2) (by fun_prop)
      (fun u v hc => by rw [integral_agree hc 1 0 0 0 0 (fun z _ => by ring)]; ring)
      (fun u hc => by rw [integral_agree hc (1 - u) (-1) 0 0 0 (fun z _ => by ring)]; ring),
      integral_agree zero_le_one (1 / 2) (-1) (1 / 2) 0 0 (fun z _ => by ring)]
    norm_num
  · rw [over_stdTet (f := fun u _ _ => u) (g := fun u v => u * (1 - u - v)) (h := fun u => u * (1 - u) ^ 2 / 2) (by fun_prop)
      (fun u v hc => by rw [integral_agree hc u 0 0 0 0 (fun z _ => by ring)]; ring)
      (fun u hc => by rw [integral_agree hc (u * (1 - u)) (-u) 0 0 0 (fun z _ => by ring)]; ring),
      integral_agree zero_le_one 0 (1 / 2) (-1) (1 / 2) 0 (fun z _ => by ring)]
    norm_num
  · rw [over_stdTet (f := fun _ v _ => v) (g := fun u v => v * (1 - u - v)) (h := fun u => (1 - u) ^ 3 / 6) (by fun_prop)
      (fun u v hc => by rw [integral_agree hc v 0 0 0 0 (fun z _ => by ring)]; ring)
      (fun u hc => by rw [integral_agree hc 0 (1 - u) (-1) 0 0 (fun z _ => by ring)]; ring),
      integral_agree zero_le_one (1 / 6) (-1 / 2) (1 / 2) (-1 / 6) 0 (fun z _ => by ring)]
    norm_num
  · rw [over_stdTet (f := fun _ _ w => w) (g := fun u v => (1 - u - v) ^ 2 / 2) (h := fun u => (1 - u) ^ 3 / 6) (by fun_prop)
      (fun u v hc => by rw [integral_agree hc 0 1 0 0 0 (fun z _ => by ring)]; ring)
      (fun u hc => by rw [integral_agree hc ((1 - u) ^ 2 / 2) (-(1 - u)) (1 / 2) 0 0 (fun z _ => by ring)]; ring),
      integral_agree zero_le_one (1 / 6) (-1 / 2) (1 / 2) (-1 / 6) 0 (fun z _ => by ring)]
    norm_num
  · rw [over_stdTet (f := fun u _ _ => u * u) (g := fun u v => u * u * (1 - u - v)) (h := fun u => u * u * (1 - u) ^ 2 / 2) (by fun_prop)
      (fun u v hc => by rw [integral_agree hc (u * u) 0 0 0 0 (fun z _ => by ring)]; ring)
      (fun u hc => by rw [integral_agree hc (u * u * (1 - u)) (-(u * u)) 0 0 0 (fun z _ => by ring)]; ring),
      integral_agree zero_le_one 0 0 (1 / 2) (-1) (1 / 2) (fun z _ => by ring)]
    norm_num
  · rw [over_stdTet (f := fun _ v _ => v * v) (g := fun u v => v * v * (1 - u - v)) (h := fun u => (1 - u) ^ 4 / 12) (by fun_prop)
      (fun u v hc => by rw [integral_agree hc (v * v) 0 0 0 0 (fun z _ => by ring)]; ring)
      (fun u hc => by rw [integral_agree hc 0 0 (1 - u) (-1) 0 (fun z _ => by ring)]; ring),
      integral_agree zero_le_one (1 / 12) (-4 / 12) (6 / 12) (-4 / 12) (1 / 12) (fun z _ => by ring)]
    norm_num
  · rw [over_stdTet (f := fun _ _ w => w * w) (g := fun u v => (1 - u - v) ^ 3 / 3) (h := fun u => (1 - u) ^ 4 / 12) (by fun_prop)
      (fun u v hc => by rw [integral_agree hc 0 0 1 0 0 (fun z _ => by ring)]; ring)
      (fun u hc => by
        rw [integral_agree hc ((1 - u) ^ 3 / 3) (-(1 - u) ^ 2) (1 - u) (-1 / 3) 0 (fun z _ => by ring)]; ring),
      integral_agree zero_le_one (1 / 12) (-4 / 12) (6 / 12) (-4 / 12) (1 / 12) (fun z _ => by ring)]
    norm_num
  · rw [over_stdTet (f := fun u v _ => u * v) (g := fun u v => u * v * (1 - u - v)) (h := fun u => u * (1 - u) ^ 3 / 6) (by fun_prop)
      (fun u v hc => by rw [integral_agree hc (u * v) 0 0 0 0 (fun z _ => by ring)]; ring)
      (fun u hc => by rw [integral_agree hc 0 (u * (1 - u)) (-u) 0 0 (fun z _ => by ring)]; ring),
      integral_agree zero_le_one 0 (1 / 6) (-1 / 2) (1 / 2) (-1 / 6) (fun z _ => by ring)]
    norm_num
  · rw [over_stdTet (f := fun u _ w => u * w) (g := fun u v => u * (1 - u - v) ^ 2 / 2) (h := fun u => u * (1 - u) ^ 3 / 6) (by fun_prop)
      (fun u v hc => by rw [integral_agree hc 0 u 0 0 0 (fun z _ => by ring)]; ring)
      (fun u hc => by rw [integral_agree hc (u * (1 - u) ^ 2 / 2) (-u * (1 - u)) (u / 2) 0 0 (fun z _ => by ring)]; ring),
      integral_agree zero_le_one 0 (1 / 6) (-1 / 2) (1 / 2) (-1 / 6) (fun z _ => by ring)]
    norm_num
  · rw [over_stdTet (f := fun _ v w => v * w) (g := fun u v => v * (1 - u - v) ^ 2 / 2) (h := fun u => (1 - u) ^ 4 / 24) (by fun_prop)
      (fun u v hc => by rw [integral_agree hc 0 v 0 0 0 (fun z _ => by ring)]; ring)
      (fun u hc => by rw [integral_agree hc 0 ((1 - u) ^ 2 / 2) (-(1 - u)) (1 / 2) 0 (fun z _ => by ring)]; ring),
      integral_agree zero_le_one (1 / 24) (-4 / 24) (6 / 24) (-4 / 24) (1 / 24) (fun z _ => by ring)]
    norm_num

end Mass
end Fcl
