import Verif.Props.Taylor
import Mathlib.Analysis.Calculus.LocalExtr.Basic
import Mathlib.Topology.Order.Compact
import Mathlib.Analysis.Calculus.Deriv.Pow

/-!
# C38: `getTightBound` returns the exact range of the polynomial, widened by the remainder
-/

set_option linter.unusedSectionVars false
set_option linter.unusedSimpArgs false

namespace Fcl
open Iv TM

theorem TM.cubic_eq (f : TM ℝ) (t : ℝ) : f.cubic t = f.poly t := by simp only [TM.cubic, TM.poly]; ring
theorem TM.quad_eq (f : TM ℝ) (h : f.c3 = 0) (t : ℝ) : f.quad t = f.poly t := by
  simp only [TM.quad, TM.poly, h]; ring

theorem TM.hasDerivAt_poly (f : TM ℝ) (t : ℝ) :
    HasDerivAt f.poly (f.c1 + 2 * f.c2 * t + 3 * f.c3 * t ^ 2) t := by
  have h1 := (hasDerivAt_id t).const_mul f.c1
  have h2 := (hasDerivAt_pow 2 t).const_mul f.c2
  have h3 := (hasDerivAt_pow 3 t).const_mul f.c3
  have := ((h1.const_add f.c0).add h2).add h3
  refine HasDerivAt.congr_deriv (f := f.poly) this ?_
  norm_num
  ring

/-- Every value of the polynomial on `[a, b]` lies between its values at the ends and at the stationary points
inside. -/
theorem TM.poly_le_extremum (f : TM ℝ) {a b t : ℝ} (ht : t ∈ Set.Icc a b) :
    ∃ c ∈ Set.Icc a b, (c = a ∨ c = b ∨ f.c1 + 2 * f.c2 * c + 3 * f.c3 * c ^ 2 = 0) ∧ f.poly t ≤ f.poly c := by
  have hc : Continuous f.poly := by
    unfold TM.poly
    fun_prop
  obtain ⟨c, hcm, hmax⟩ := (isCompact_Icc (a := a) (b := b)).exists_isMaxOn ⟨t, ht⟩ hc.continuousOn
  refine ⟨c, hcm, ?_, hmax ht⟩
  by_cases ha : c = a
  · exact Or.inl ha
  by_cases hb : c = b
  · exact Or.inr (Or.inl hb)
  refine Or.inr (Or.inr ?_)
  have hlt : a < c ∧ c < b := ⟨lt_of_le_of_ne hcm.1 (Ne.symm ha), lt_of_le_of_ne hcm.2 hb⟩
  have hloc : IsLocalMax f.poly c := hmax.isLocalMax (Icc_mem_nhds hlt.1 hlt.2)
  exact hloc.hasDerivAt_eq_zero (f.hasDerivAt_poly c)

theorem TM.extremum_le_poly (f : TM ℝ) {a b t : ℝ} (ht : t ∈ Set.Icc a b) :
    ∃ c ∈ Set.Icc a b, (c = a ∨ c = b ∨ f.c1 + 2 * f.c2 * c + 3 * f.c3 * c ^ 2 = 0) ∧ f.poly c ≤ f.poly t := by
  obtain ⟨c, hc, hs, hle⟩ := f.neg.poly_le_extremum ht
  refine ⟨c, hc, ?_, ?_⟩
  · rcases hs with h | h | h
    · exact Or.inl h
    · exact Or.inr (Or.inl h)
    · refine Or.inr (Or.inr ?_)
      simp only [TM.neg] at h
      linarith
  · simp only [TM.neg, TM.poly] at hle ⊢
    linarith

/-- A bound that has the values at the ends and at the stationary points inside `[a, b]`, and has values of the
polynomial as its own ends, is the range of the polynomial. -/
theorem TM.hull_of (f : TM ℝ) {a b : ℝ} (hab : a ≤ b) (c : Iv ℝ) (ha : f.poly a ∈ c.set) (hb : f.poly b ∈ c.set)
    (hs : ∀ s ∈ Set.Icc a b, f.c1 + 2 * f.c2 * s + 3 * f.c3 * s ^ 2 = 0 → f.poly s ∈ c.set)
    (hlo : ∃ s ∈ Set.Icc a b, f.poly s = c.lo) (hhi : ∃ s ∈ Set.Icc a b, f.poly s = c.hi) :
    Hull {z | ∃ t ∈ Set.Icc a b, z = f.poly t} c := by
  have key : ∀ s ∈ Set.Icc a b, (s = a ∨ s = b ∨ f.c1 + 2 * f.c2 * s + 3 * f.c3 * s ^ 2 = 0) → f.poly s ∈ c.set := by
    rintro s hsm (rfl | rfl | h)
    · exact ha
    · exact hb
    · exact hs s hsm h
  obtain ⟨s, hsm, hse⟩ := hlo
  obtain ⟨s', hsm', hse'⟩ := hhi
  refine ⟨⟨⟨s, hsm, hse.symm⟩, ?_⟩, ⟨s', hsm', hse'.symm⟩, ?_⟩
  · rintro z ⟨t, ht, rfl⟩
    obtain ⟨e, he, hx, hle⟩ := f.extremum_le_poly ht
    exact (key e he hx).1.trans hle
  · rintro z ⟨t, ht, rfl⟩
    obtain ⟨e, he, hx, hle⟩ := f.poly_le_extremum ht
    exact hle.trans (key e he hx).2

/-- What `widen` does: the bound still has the old values, has the value at the stationary point, and its ends are
still values of the polynomial. -/
theorem TM.widen_spec (f : TM ℝ) {a b s : ℝ} {c : Iv ℝ} (hv : c.Valid)
    (hlo : ∃ s ∈ Set.Icc a b, f.poly s = c.lo) (hhi : ∃ s ∈ Set.Icc a b, f.poly s = c.hi) :
    (f.widen a b s c).Valid ∧ c.set ⊆ (f.widen a b s c).set ∧ (s ∈ Set.Icc a b → f.poly s ∈ (f.widen a b s c).set) ∧
      (∃ s' ∈ Set.Icc a b, f.poly s' = (f.widen a b s c).lo) ∧
      (∃ s' ∈ Set.Icc a b, f.poly s' = (f.widen a b s c).hi) := by
  simp only [Iv.Valid] at *
  unfold TM.widen
  simp only [TM.cubic_eq, ge_iff_le]
  split
  · next h =>
    split
    · next h1 =>
      refine ⟨(h1.le.trans hv), fun x hx => ⟨h1.le.trans hx.1, hx.2⟩, fun _ => ⟨le_rfl, h1.le.trans hv⟩,
        ⟨s, ⟨h.2, h.1⟩, rfl⟩, hhi⟩
    · next h1 =>
      split
      · next h2 =>
        refine ⟨hv.trans h2.le, fun x hx => ⟨hx.1, hx.2.trans h2.le⟩, fun _ => ⟨hv.trans h2.le, le_rfl⟩, hlo,
          ⟨s, ⟨h.2, h.1⟩, rfl⟩⟩
      · next h2 =>
        exact ⟨hv, fun x hx => hx, fun _ => ⟨not_lt.1 h1, not_lt.1 h2⟩, hlo, hhi⟩
  · next h =>
    exact ⟨hv, fun x hx => hx, fun hs => absurd ⟨hs.2, hs.1⟩ h, hlo, hhi⟩

/-- C38, `getTightBound(t0, t1)`: the exact range of the polynomial over the part of `[t0, t1]` that lies in the
time interval, plus the remainder. -/
theorem C38_tightOn_exact (f : TM ℝ) {l r t0 t1 : ℝ} (h : max t0 l ≤ min t1 r) :
    ∃ c : Iv ℝ, Hull {z | ∃ t ∈ Set.Icc (max t0 l) (min t1 r), z = f.poly t} c ∧
      f.tightOn (TimeIv.of l r) t0 t1 = ⟨c.lo + f.r.lo, c.hi + f.r.hi⟩ := by
  have e0 : (if t0 < (TimeIv.of l r).t.lo then (TimeIv.of l r).t.lo else t0) = max t0 l := by
    rcases lt_or_ge t0 l with h | h
    · change (if t0 < l then l else t0) = _
      rw [if_pos h, max_eq_right h.le]
    · change (if t0 < l then l else t0) = _
      rw [if_neg (not_lt.2 h), max_eq_left h]
  have e1 : (if t1 > (TimeIv.of l r).t.hi then (TimeIv.of l r).t.hi else t1) = min t1 r := by
    rcases lt_or_ge r t1 with h | h
    · change (if r < t1 then r else t1) = _
      rw [if_pos h, min_eq_right h.le]
    · change (if r < t1 then r else t1) = _
      rw [if_neg (not_lt.2 h), min_eq_left h]
  unfold TM.tightOn
  simp only [e0, e1]
  generalize max t0 l = a at *
  generalize min t1 r = b at *
  have ma : a ∈ Set.Icc a b := ⟨le_rfl, h⟩
  have mb : b ∈ Set.Icc a b := ⟨h, le_rfl⟩
  by_cases h3 : f.c3 = 0
  · rw [if_pos h3]
    simp only [f.quad_eq h3, gt_iff_lt, ge_iff_le]
    by_cases hq : f.c2 ≠ 0 ∧ -f.c1 / (2 * f.c2) ≤ b ∧ a ≤ -f.c1 / (2 * f.c2)
    · rw [if_pos hq]
      obtain ⟨h2, hs1, hs0⟩ := hq
      generalize hs : -f.c1 / (2 * f.c2) = s at *
      have ms : s ∈ Set.Icc a b := ⟨hs0, hs1⟩
      refine ⟨_, ?_, rfl⟩
      refine f.hull_of h _ ?_ ?_ ?_ ?_ ?_
      · simp only [Iv.set, Set.mem_Icc]; constructor <;> repeat' split
        all_goals linarith
      · simp only [Iv.set, Set.mem_Icc]; constructor <;> repeat' split
        all_goals linarith
      · intro s' _ hz
        have : s' = s := by
          rw [← hs]
          field_simp
          rw [h3] at hz
          linarith
        subst this
        simp only [Iv.set, Set.mem_Icc]; constructor <;> repeat' split
        all_goals linarith
      · repeat' split
        all_goals first
          | exact ⟨s, ms, rfl⟩
          | exact ⟨a, ma, rfl⟩
          | exact ⟨b, mb, rfl⟩
      · repeat' split
        all_goals first
          | exact ⟨s, ms, rfl⟩
          | exact ⟨a, ma, rfl⟩
          | exact ⟨b, mb, rfl⟩
    · rw [if_neg hq]
      have hstat : ∀ s ∈ Set.Icc a b, f.c1 + 2 * f.c2 * s + 3 * f.c3 * s ^ 2 = 0 →
          f.c2 = 0 ∧ f.c1 = 0 := by
        intro s hs hz
        rw [h3] at hz
        by_cases h2 : f.c2 = 0
        · refine ⟨h2, ?_⟩
          rw [h2] at hz
          linarith
        · exfalso
          have : -f.c1 / (2 * f.c2) = s := by
            field_simp
            linarith
          exact hq ⟨h2, by rw [this]; exact hs.2, by rw [this]; exact hs.1⟩
      have hflat : f.c2 = 0 ∧ f.c1 = 0 → ∀ s, f.poly s = f.poly a := by
        rintro ⟨h2, h1⟩ s
        simp only [TM.poly, h1, h2, h3]; ring
      split
      · next hlt =>
        refine ⟨⟨f.poly b, f.poly a⟩, f.hull_of h _ ⟨hlt.le, le_rfl⟩ ⟨le_rfl, hlt.le⟩ ?_ ⟨b, mb, rfl⟩ ⟨a, ma, rfl⟩, rfl⟩
        intro s hs hz
        rw [hflat (hstat s hs hz) s]
        exact ⟨hlt.le, le_rfl⟩
      · next hlt =>
        refine ⟨⟨f.poly a, f.poly b⟩, f.hull_of h _ ⟨le_rfl, not_lt.1 hlt⟩ ⟨not_lt.1 hlt, le_rfl⟩ ?_ ⟨a, ma, rfl⟩
          ⟨b, mb, rfl⟩, rfl⟩
        intro s hs hz
        rw [hflat (hstat s hs hz) s]
        exact ⟨le_rfl, not_lt.1 hlt⟩
  · rw [if_neg h3]
    simp only [TM.cubic_eq, gt_iff_lt, ge_iff_le]
    generalize hb : (if f.poly b < f.poly a then (⟨f.poly b, f.poly a⟩ : Iv ℝ) else ⟨f.poly a, f.poly b⟩) = c
    have hc : c.Valid ∧ f.poly a ∈ c.set ∧ f.poly b ∈ c.set ∧ (∃ s ∈ Set.Icc a b, f.poly s = c.lo) ∧
        (∃ s ∈ Set.Icc a b, f.poly s = c.hi) := by
      rw [← hb]
      split
      · next hlt => exact ⟨hlt.le, ⟨hlt.le, le_rfl⟩, ⟨le_rfl, hlt.le⟩, ⟨b, mb, rfl⟩, ⟨a, ma, rfl⟩⟩
      · next hlt =>
        have := not_lt.1 hlt
        exact ⟨this, ⟨le_rfl, this⟩, ⟨this, le_rfl⟩, ⟨a, ma, rfl⟩, ⟨b, mb, rfl⟩⟩
    obtain ⟨hv, hca, hcb, hlo, hhi⟩ := hc
    by_cases hd : f.c2 * f.c2 - 3 * f.c1 * f.c3 < 0
    · rw [if_pos hd]
      refine ⟨c, f.hull_of h c hca hcb ?_ hlo hhi, rfl⟩
      intro s _ hz
      exfalso
      have : (3 * f.c3 * s + f.c2) ^ 2 = f.c2 * f.c2 - 3 * f.c1 * f.c3 := by linear_combination 3 * f.c3 * hz
      nlinarith [sq_nonneg (3 * f.c3 * s + f.c2)]
    · rw [if_neg hd]
      have hd := not_lt.1 hd
      have hsq := Real.mul_self_sqrt hd
      generalize hw : √(f.c2 * f.c2 - 3 * f.c1 * f.c3) = w at *
      obtain ⟨v1, s1, p1, l1, u1⟩ := f.widen_spec (s := (-f.c2 - w) / (3 * f.c3)) hv hlo hhi
      obtain ⟨v2, s2, p2, l2, u2⟩ := f.widen_spec (s := (-f.c2 + w) / (3 * f.c3)) v1 l1 u1
      refine ⟨_, f.hull_of h _ (s2 (s1 hca)) (s2 (s1 hcb)) ?_ l2 u2, rfl⟩
      intro s hs hz
      have : (3 * f.c3 * s + f.c2 - w) * (3 * f.c3 * s + f.c2 + w) = 0 := by linear_combination 3 * f.c3 * hz - hsq
      rcases mul_eq_zero.1 this with e | e
      · have e : (-f.c2 + w) / (3 * f.c3) = s := by
          field_simp
          linarith
        have hp : f.poly s = f.poly ((-f.c2 + w) / (3 * f.c3)) := by rw [e]
        rw [hp]
        exact p2 (e ▸ hs)
      · have e : (-f.c2 - w) / (3 * f.c3) = s := by
          field_simp
          linarith
        have hp : f.poly s = f.poly ((-f.c2 - w) / (3 * f.c3)) := by rw [e]
        rw [hp]
        exact s2 (p1 (e ▸ hs))

/-- C38, `getTightBound(t0, t1)` contains every value at times in both intervals. -/
theorem C38_tightOn {a : TM ℝ} {f : ℝ → ℝ} {l r t0 t1 t : ℝ} (hf : Encl l r a f) (ht : t ∈ Set.Icc l r)
    (h : t ∈ Set.Icc t0 t1) : f t ∈ (a.tightOn (TimeIv.of l r) t0 t1).set := by
  have hm : t ∈ Set.Icc (max t0 l) (min t1 r) := ⟨max_le h.1 ht.1, le_min h.2 ht.2⟩
  obtain ⟨c, ⟨⟨_, h1⟩, _, h2⟩, e⟩ := C38_tightOn_exact a (hm.1.trans hm.2)
  rw [e]
  have p1 := h1 ⟨t, hm, rfl⟩
  have p2 := h2 ⟨t, hm, rfl⟩
  obtain ⟨q1, q2⟩ := hf t ht
  constructor <;> dsimp only <;> linarith

/-- C38, `getTightBound()` contains every value. -/
theorem C38_tight {a : TM ℝ} {f : ℝ → ℝ} {l r t : ℝ} (hf : Encl l r a f) (ht : t ∈ Set.Icc l r) :
    f t ∈ (a.tight (TimeIv.of l r)).set := C38_tightOn hf ht ht

/-- C59, tight bounds of vectors and matrices. -/
theorem C59_tight {l r : ℝ} {a : TVec ℝ} {f : ℝ → V3 ℝ} {m : TMat ℝ} {g : ℝ → M3 ℝ} (hf : EnclV l r a f)
    (hg : EnclM l r m g) {t : ℝ} (ht : t ∈ Set.Icc l r) {t0 t1 : ℝ} (h : t ∈ Set.Icc t0 t1) :
    f t ∈ (a.tightOn (TimeIv.of l r) t0 t1).set ∧ f t ∈ (a.tight (TimeIv.of l r)).set ∧
      g t ∈ (m.tightOn (TimeIv.of l r) t0 t1).set := by
  obtain ⟨⟨g00, g01, g02⟩, ⟨g10, g11, g12⟩, g20, g21, g22⟩ := hg
  exact ⟨⟨C38_tightOn hf.1 ht h, C38_tightOn hf.2.1 ht h, C38_tightOn hf.2.2 ht h⟩,
    ⟨C38_tight hf.1 ht, C38_tight hf.2.1 ht, C38_tight hf.2.2 ht⟩,
    ⟨⟨C38_tightOn g00 ht h, C38_tightOn g01 ht h, C38_tightOn g02 ht h⟩,
      ⟨C38_tightOn g10 ht h, C38_tightOn g11 ht h, C38_tightOn g12 ht h⟩,
      ⟨C38_tightOn g20 ht h, C38_tightOn g21 ht h, C38_tightOn g22 ht h⟩⟩⟩

/-- A cubic with both stationary points inside the time interval `[0, 4]`. -/
example : Encl (0 : ℝ) 4 ⟨0, 9, -6, 1, ⟨0, 1⟩⟩ (fun t => t * (t - 3) ^ 2 + 1 / 2) ∧
    max (0 : ℝ) 0 ≤ min 4 4 := by
  refine ⟨fun t _ => ?_, by norm_num⟩
  have : t * (t - 3) ^ 2 + 1 / 2 - (⟨0, 9, -6, 1, ⟨0, 1⟩⟩ : TM ℝ).poly t = 1 / 2 := by simp only [TM.poly]; ring
  simp only [this, Iv.set, Set.mem_Icc]
  norm_num

end Fcl
