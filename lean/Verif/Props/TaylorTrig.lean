import Verif.Props.Taylor
import Mathlib.Analysis.Calculus.Deriv.MeanValue
import Mathlib.Analysis.Calculus.Deriv.Pow
import Mathlib.Analysis.Real.Pi.Bounds

/-!
# C39: Taylor models of sine and cosine
-/

set_option linter.unusedSectionVars false
set_option linter.unusedSimpArgs false

namespace Fcl
open Iv TM Real

/-- A function with non-negative derivative on `[l, r]` that vanishes at `a` is non-negative after it and
non-positive before it. -/
theorem sign_of_deriv_nonneg {H H' : ℝ → ℝ} (hd : ∀ t, HasDerivAt H (H' t) t) {l r a : ℝ} (ha : a ∈ Set.Icc l r)
    (h0 : H a = 0) (hn : ∀ t ∈ Set.Icc l r, 0 ≤ H' t) :
    (∀ t ∈ Set.Icc a r, 0 ≤ H t) ∧ (∀ t ∈ Set.Icc l a, H t ≤ 0) := by
  have hc : ContinuousOn H (Set.Icc l r) := fun t _ => (hd t).continuousAt.continuousWithinAt
  have hm : MonotoneOn H (Set.Icc l r) := by
    refine monotoneOn_of_deriv_nonneg (convex_Icc l r) hc (fun t _ => (hd t).differentiableAt.differentiableWithinAt) ?_
    intro t ht
    rw [(hd t).deriv]
    exact hn t (interior_subset ht)
  constructor
  · intro t ht
    rw [← h0]
    exact hm ha ⟨ha.1.trans ht.1, ht.2⟩ ht.1
  · intro t ht
    rw [← h0]
    exact hm ⟨ht.1, ht.2.trans ha.2⟩ ha ht.2

/-- Positive after `a`, negative before: the primitive that vanishes at `a` is non-negative. -/
theorem nonneg_of_deriv_sign {H H' : ℝ → ℝ} (hd : ∀ t, HasDerivAt H (H' t) t) {l r a : ℝ} (ha : a ∈ Set.Icc l r)
    (h0 : H a = 0) (hp : ∀ t ∈ Set.Icc a r, 0 ≤ H' t) (hn : ∀ t ∈ Set.Icc l a, H' t ≤ 0) :
    ∀ t ∈ Set.Icc l r, 0 ≤ H t := by
  intro t ht
  rcases le_total a t with h | h
  · exact (sign_of_deriv_nonneg hd (l := a) (r := r) ⟨le_rfl, ha.2⟩ h0 hp).1 t ⟨h, ht.2⟩
  · have := (sign_of_deriv_nonneg (H := fun t => -H t) (H' := fun t => -H' t) (fun t => (hd t).neg) (l := l) (r := a)
      ⟨ha.1, le_rfl⟩ (by simp [h0]) (fun t ht => by simpa using hn t ht)).2 t ⟨ht.1, h⟩
    simpa using this

/-- Taylor's bound of order four from below. -/
theorem taylor4_lower {g g1 g2 g3 g4 : ℝ → ℝ} (d1 : ∀ t, HasDerivAt g (g1 t) t) (d2 : ∀ t, HasDerivAt g1 (g2 t) t)
    (d3 : ∀ t, HasDerivAt g2 (g3 t) t) (d4 : ∀ t, HasDerivAt g3 (g4 t) t) {l r a m : ℝ} (ha : a ∈ Set.Icc l r)
    (hm : ∀ t ∈ Set.Icc l r, m ≤ g4 t) {t : ℝ} (ht : t ∈ Set.Icc l r) :
    m / 24 * (t - a) ^ 4 ≤ g t - (g a + g1 a * (t - a) + g2 a / 2 * (t - a) ^ 2 + g3 a / 6 * (t - a) ^ 3) := by
  have ds : ∀ t : ℝ, HasDerivAt (fun t => t - a) 1 t := fun t => (hasDerivAt_id t).sub_const a
  have p2 : ∀ t : ℝ, HasDerivAt (fun t => (t - a) ^ 2) (2 * (t - a)) t := fun t => by
    have := (ds t).fun_pow 2; norm_num at this; exact this
  have p3 : ∀ t : ℝ, HasDerivAt (fun t => (t - a) ^ 3) (3 * (t - a) ^ 2) t := fun t => by
    have := (ds t).fun_pow 3; norm_num at this; exact this
  have p4 : ∀ t : ℝ, HasDerivAt (fun t => (t - a) ^ 4) (4 * (t - a) ^ 3) t := fun t => by
    have := (ds t).fun_pow 4; norm_num at this; exact this
  have D3 : ∀ t, HasDerivAt (fun t => g3 t - g3 a - m * (t - a)) (g4 t - m) t := fun t =>
    ((((d4 t).sub_const (g3 a)).sub ((ds t).const_mul m))).congr_deriv (by ring)
  have D2 : ∀ t, HasDerivAt (fun t => g2 t - g2 a - g3 a * (t - a) - m / 2 * (t - a) ^ 2)
      (g3 t - g3 a - m * (t - a)) t := fun t =>
    ((((d3 t).sub_const (g2 a)).sub ((ds t).const_mul (g3 a))).sub ((p2 t).const_mul (m / 2))).congr_deriv (by ring)
  have D1 : ∀ t, HasDerivAt (fun t => g1 t - g1 a - g2 a * (t - a) - g3 a / 2 * (t - a) ^ 2 - m / 6 * (t - a) ^ 3)
      (g2 t - g2 a - g3 a * (t - a) - m / 2 * (t - a) ^ 2) t := fun t =>
    (((((d2 t).sub_const (g1 a)).sub ((ds t).const_mul (g2 a))).sub ((p2 t).const_mul (g3 a / 2))).sub
      ((p3 t).const_mul (m / 6))).congr_deriv (by ring)
  have D0 : ∀ t, HasDerivAt (fun t => g t - g a - g1 a * (t - a) - g2 a / 2 * (t - a) ^ 2 - g3 a / 6 * (t - a) ^ 3 -
        m / 24 * (t - a) ^ 4)
      (g1 t - g1 a - g2 a * (t - a) - g3 a / 2 * (t - a) ^ 2 - m / 6 * (t - a) ^ 3) t := fun t =>
    ((((((d1 t).sub_const (g a)).sub ((ds t).const_mul (g1 a))).sub ((p2 t).const_mul (g2 a / 2))).sub
      ((p3 t).const_mul (g3 a / 6))).sub ((p4 t).const_mul (m / 24))).congr_deriv (by ring)
  have s3 := sign_of_deriv_nonneg D3 ha (by simp) (fun t ht => sub_nonneg.2 (hm t ht))
  have s2 := nonneg_of_deriv_sign D2 ha (by simp) s3.1 s3.2
  have s1 := sign_of_deriv_nonneg D1 ha (by simp) s2
  have s0 := nonneg_of_deriv_sign D0 ha (by simp) s1.1 s1.2 t ht
  linarith

/-- Taylor's bound of order four from above. -/
theorem taylor4_upper {g g1 g2 g3 g4 : ℝ → ℝ} (d1 : ∀ t, HasDerivAt g (g1 t) t) (d2 : ∀ t, HasDerivAt g1 (g2 t) t)
    (d3 : ∀ t, HasDerivAt g2 (g3 t) t) (d4 : ∀ t, HasDerivAt g3 (g4 t) t) {l r a M : ℝ} (ha : a ∈ Set.Icc l r)
    (hm : ∀ t ∈ Set.Icc l r, g4 t ≤ M) {t : ℝ} (ht : t ∈ Set.Icc l r) :
    g t - (g a + g1 a * (t - a) + g2 a / 2 * (t - a) ^ 2 + g3 a / 6 * (t - a) ^ 3) ≤ M / 24 * (t - a) ^ 4 := by
  have := taylor4_lower (m := -M) (fun t => (d1 t).fun_neg) (fun t => (d2 t).fun_neg) (fun t => (d3 t).fun_neg)
    (fun t => (d4 t).fun_neg) ha (fun t ht => neg_le_neg (hm t ht)) ht
  linarith

/-- Between two points with no integer strictly between them, the cosine of `2πk` is largest at an end. -/
theorem cos_le_of_no_max {k1 k2 k : ℝ} (h1 : k1 ≤ k) (h2 : k ≤ k2) (hn : ¬ ⌈k2⌉ - ⌊k1⌋ > 1) :
    cos (2 * π * k) ≤ max (cos (2 * π * k1)) (cos (2 * π * k2)) := by
  obtain ⟨n, hn1⟩ : ∃ n, n = ⌊k1⌋ := ⟨_, rfl⟩
  have hlo : (n : ℝ) ≤ k1 := hn1 ▸ Int.floor_le k1
  have hhi : k2 ≤ n + 1 := by
    have h : ⌈k2⌉ ≤ n + 1 := by omega
    have : (⌈k2⌉ : ℝ) ≤ n + 1 := by exact_mod_cast h
    exact (Int.le_ceil k2).trans this
  have key : ∀ x : ℝ, cos (2 * π * x) = -cos (2 * π * |x - n - 1 / 2|) := by
    intro x
    have e : cos (2 * π * |x - n - 1 / 2|) = cos (2 * π * (x - n - 1 / 2)) := by
      rcases abs_cases (x - n - 1 / 2) with ⟨h, _⟩ | ⟨h, _⟩ <;> rw [h]
      rw [← cos_neg]; congr 1; ring
    rw [e]
    have e2 : 2 * π * (x - n - 1 / 2) = 2 * π * x - n * (2 * π) - π := by ring
    rw [e2, cos_sub_pi, neg_neg, cos_sub_int_mul_two_pi]
  have hmono : ∀ u v : ℝ, 0 ≤ u → u ≤ v → v ≤ 1 / 2 → cos (2 * π * v) ≤ cos (2 * π * u) := by
    intro u v h0 h1 h2
    refine cos_le_cos_of_nonneg_of_le_pi ?_ ?_ ?_
    · have := pi_pos; positivity
    · nlinarith [pi_pos]
    · nlinarith [pi_pos]
  rw [key k, key k1, key k2]
  have b1 : |k1 - n - 1 / 2| ≤ 1 / 2 := by rw [abs_le]; constructor <;> linarith
  have b2 : |k2 - n - 1 / 2| ≤ 1 / 2 := by rw [abs_le]; constructor <;> linarith
  rcases le_total 0 (k - n - 1 / 2) with h | h
  · refine le_max_of_le_right (neg_le_neg ?_)
    refine hmono _ _ (abs_nonneg _) ?_ b2
    rw [abs_of_nonneg h, abs_of_nonneg (by linarith)]
    linarith
  · refine le_max_of_le_left (neg_le_neg ?_)
    refine hmono _ _ (abs_nonneg _) ?_ b1
    rw [abs_of_nonpos h, abs_of_nonpos (by linarith)]
    linarith

/-- The code's test for a maximum: an integer strictly between. -/
theorem exists_int_between {k1 k2 : ℝ} (h : ⌈k2⌉ - ⌊k1⌋ > 1) : ∃ n : ℤ, k1 < n ∧ (n : ℝ) < k2 := by
  refine ⟨⌊k1⌋ + 1, ?_, ?_⟩
  · push_cast; exact Int.lt_floor_add_one k1
  · exact Int.lt_ceil.1 (by omega)

theorem cos_shift (k : ℝ) : cos (2 * π * (k - 0.5)) = -cos (2 * π * k) := by
  have : 2 * π * (k - 0.5) = 2 * π * k - π := by norm_num; ring
  rw [this, cos_sub_pi]

/-- `waveBounds` contains every value between the two ends. -/
theorem TM.waveBounds_mem {w k1 k2 k : ℝ} (hk : (0 < w ∧ k1 ≤ k ∧ k ≤ k2) ∨ (¬ 0 < w ∧ k2 ≤ k ∧ k ≤ k1)) :
    cos (2 * π * k) ∈ (waveBounds w (cos (2 * π * k1)) (cos (2 * π * k2)) k1 k2).set := by
  have hle := cos_le_one (2 * π * k)
  have hge := neg_one_le_cos (2 * π * k)
  have main : ∀ p q : ℝ, p ≤ k → k ≤ q →
      (¬ ⌈q⌉ - ⌊p⌋ > 1 → cos (2 * π * k) ≤ max (cos (2 * π * p)) (cos (2 * π * q))) ∧
      (¬ ⌈q - 0.5⌉ - ⌊p - 0.5⌋ > 1 → min (cos (2 * π * p)) (cos (2 * π * q)) ≤ cos (2 * π * k)) := by
    intro p q h1 h2
    refine ⟨cos_le_of_no_max h1 h2, fun h => ?_⟩
    have := cos_le_of_no_max (k1 := p - 0.5) (k2 := q - 0.5) (k := k - 0.5) (by linarith) (by linarith) h
    rw [cos_shift, cos_shift, cos_shift, max_neg_neg] at this
    linarith
  have eb : (if cos (2 * π * k1) < cos (2 * π * k2) then (⟨cos (2 * π * k1), cos (2 * π * k2)⟩ : Iv ℝ)
      else ⟨cos (2 * π * k2), cos (2 * π * k1)⟩) =
      ⟨min (cos (2 * π * k1)) (cos (2 * π * k2)), max (cos (2 * π * k1)) (cos (2 * π * k2))⟩ := by
    split
    · next h => rw [min_eq_left h.le, max_eq_right h.le]
    · next h => rw [min_eq_right (not_lt.1 h), max_eq_left (not_lt.1 h)]
  unfold waveBounds
  simp only [eb]
  have ε : (0 : ℝ) < 1e-15 := by norm_num
  rcases hk with ⟨hw, h1, h2⟩ | ⟨hw, h2, h1⟩
  · rw [if_pos hw]
    obtain ⟨m1, m2⟩ := main k1 k2 h1 h2
    split <;> split <;> simp only [Iv.set, Set.mem_Icc] <;> constructor <;>
      first
        | linarith
        | linarith [m1 ‹_›]
        | linarith [m2 ‹_›]
  · rw [if_neg hw]
    obtain ⟨m1, m2⟩ := main k2 k1 h2 h1
    rw [max_comm] at m1
    rw [min_comm] at m2
    split <;> split <;> simp only [Iv.set, Set.mem_Icc] <;> constructor <;>
      first
        | linarith
        | linarith [m1 ‹_›]
        | linarith [m2 ‹_›]

/-- When every value between the ends is above the round-off margin, so is the lower bound; when every value is
below its negative, so is the upper bound. -/
theorem TM.waveBounds_sign {w k1 k2 : ℝ} (hw : (0 < w ∧ k1 ≤ k2) ∨ (¬ 0 < w ∧ k2 ≤ k1)) :
    ((∀ k, k ∈ Set.Icc k1 k2 ∨ k ∈ Set.Icc k2 k1 → 1e-15 < cos (2 * π * k)) →
      0 < (waveBounds w (cos (2 * π * k1)) (cos (2 * π * k2)) k1 k2).lo) ∧
    ((∀ k, k ∈ Set.Icc k1 k2 ∨ k ∈ Set.Icc k2 k1 → cos (2 * π * k) ≤ -1e-15) →
      (waveBounds w (cos (2 * π * k1)) (cos (2 * π * k2)) k1 k2).hi ≤ 0) := by
  have ε : (0 : ℝ) < 1e-15 := by norm_num
  have c1 : ∀ n : ℤ, cos (2 * π * n) = 1 := by
    intro n
    have : 2 * π * (n : ℝ) = n * (2 * π) := by ring
    rw [this]; exact cos_int_mul_two_pi n
  have c2 : ∀ n : ℤ, cos (2 * π * (n + 0.5)) = -1 := by
    intro n
    have := cos_shift ((n : ℝ) + 0.5)
    have e : ((n : ℝ) + 0.5 - 0.5) = n := by ring
    rw [e, c1] at this
    linarith
  have main : ∀ p q : ℝ, p ≤ q →
      ((∀ k ∈ Set.Icc p q, 1e-15 < cos (2 * π * k)) → ¬ ⌈q - 0.5⌉ - ⌊p - 0.5⌋ > 1) ∧
      ((∀ k ∈ Set.Icc p q, cos (2 * π * k) ≤ -1e-15) → ¬ ⌈q⌉ - ⌊p⌋ > 1) := by
    intro p q _
    constructor
    · intro h hc
      obtain ⟨n, h1, h2⟩ := exists_int_between hc
      have := h (n + 0.5) ⟨by linarith, by linarith⟩
      rw [c2] at this
      linarith
    · intro h hc
      obtain ⟨n, h1, h2⟩ := exists_int_between hc
      have := h n ⟨by linarith, by linarith⟩
      rw [c1] at this
      linarith
  have ends : ∀ k, k = k1 ∨ k = k2 → k ∈ Set.Icc k1 k2 ∨ k ∈ Set.Icc k2 k1 := by
    rintro k (rfl | rfl) <;> rcases hw with ⟨_, h⟩ | ⟨_, h⟩
    · exact Or.inl ⟨le_rfl, h⟩
    · exact Or.inr ⟨h, le_rfl⟩
    · exact Or.inl ⟨h, le_rfl⟩
    · exact Or.inr ⟨le_rfl, h⟩
  unfold waveBounds
  simp only
  constructor
  · intro h
    have e1 := h k1 (ends k1 (Or.inl rfl))
    have e2 := h k2 (ends k2 (Or.inr rfl))
    rcases hw with ⟨hw, hk⟩ | ⟨hw, hk⟩
    · have := (main k1 k2 hk).1 (fun k hk => h k (Or.inl hk))
      rw [if_pos hw, if_neg this]
      split <;> split <;> dsimp only <;> linarith
    · have := (main k2 k1 hk).1 (fun k hk => h k (Or.inr hk))
      rw [if_neg hw, if_neg this]
      split <;> split <;> dsimp only <;> linarith
  · intro h
    have e1 := h k1 (ends k1 (Or.inl rfl))
    have e2 := h k2 (ends k2 (Or.inr rfl))
    rcases hw with ⟨hw, hk⟩ | ⟨hw, hk⟩
    · have := (main k1 k2 hk).2 (fun k hk => h k (Or.inl hk))
      rw [if_pos hw, if_neg this]
      split <;> split <;> dsimp only <;> linarith
    · have := (main k2 k1 hk).2 (fun k hk => h k (Or.inr hk))
      rw [if_neg hw, if_neg this]
      split <;> split <;> dsimp only <;> linarith

/-- The remainder computed from bounds of the fourth derivative: the lower end is always right, the upper end when
the bounds do not straddle zero. -/
theorem TM.remainderOf_spec {l r t : ℝ} (ht : t ∈ Set.Icc l r) {b : Iv ℝ} {R : ℝ}
    (h1 : b.lo / 24 * (t - (TimeIv.of l r).t.center) ^ 4 ≤ R) (h2 : R ≤ b.hi / 24 * (t - (TimeIv.of l r).t.center) ^ 4)
    (hb : b.Valid) :
    (remainderOf (TimeIv.of l r) b).lo ≤ R ∧
      (0 < b.lo ∨ b.hi ≤ 0 → R ≤ (remainderOf (TimeIv.of l r) b).hi) := by
  simp only [Iv.Valid] at hb
  simp only [Iv.center, TimeIv.of] at h1 h2
  obtain ⟨s1, s2⟩ := ht
  have q : (t - 1 / 2 * (l + r)) ^ 4 ≤ (0.5 * (r - l)) * (0.5 * (r - l)) * ((0.5 * (r - l)) * (0.5 * (r - l))) := by
    have : (t - 1 / 2 * (l + r)) ^ 2 ≤ (0.5 * (r - l)) ^ 2 := by
      apply sq_le_sq'
      · norm_num; linarith
      · norm_num; linarith
    calc (t - 1 / 2 * (l + r)) ^ 4 = ((t - 1 / 2 * (l + r)) ^ 2) ^ 2 := by ring
      _ ≤ ((0.5 * (r - l)) ^ 2) ^ 2 := pow_le_pow_left₀ (sq_nonneg _) this 2
      _ = _ := by ring
  have q0 : 0 ≤ (t - 1 / 2 * (l + r)) ^ 4 := by positivity
  unfold remainderOf
  simp only [TimeIv.of]
  generalize (t - 1 / 2 * (l + r)) ^ 4 = x at *
  generalize (0.5 * (r - l)) * (0.5 * (r - l)) * ((0.5 * (r - l)) * (0.5 * (r - l))) = y at *
  have y0 := q0.trans q
  constructor
  · split
    · dsimp only; nlinarith
    · split
      · dsimp only; norm_num; nlinarith
      · dsimp only
        have : b.lo = 0 := le_antisymm (not_lt.1 ‹_›) (not_lt.1 ‹_›)
        rw [this] at h1 ⊢; linarith
  · intro hs
    split
    · dsimp only; norm_num; nlinarith
    · split
      · dsimp only
        rcases hs with hs | hs
        · exact absurd hs ‹_›
        · nlinarith
      · dsimp only
        have hz : b.lo = 0 := le_antisymm (not_lt.1 ‹_›) (not_lt.1 ‹_›)
        rcases hs with hs | hs
        · exact absurd hs ‹_›
        · have : b.hi = 0 := le_antisymm hs (hz ▸ hb)
          rw [this] at h2 ⊢; linarith

theorem TM.poly_expand (tm : TM ℝ) (a fa fda fdda fddda : ℝ) (t : ℝ) :
    (tm.expand a fa fda fdda fddda).poly t =
      fa + fda * (t - a) + fdda / 2 * (t - a) ^ 2 + fddda / 6 * (t - a) ^ 3 := by
  simp only [TM.poly, TM.expand]; norm_num; ring

theorem center_mem {l r : ℝ} (h : l ≤ r) : (TimeIv.of l r).t.center ∈ Set.Icc l r := by
  simp only [Iv.center, TimeIv.of]; constructor <;> linarith

theorem two_pi_mul_div (x : ℝ) : 2 * π * (x / (2 * π)) = x := by
  have := pi_pos
  field_simp

/-- The common part of the two generators. -/
theorem TM.trig_spec {l r w q0 : ℝ} (hlr : l ≤ r) (hw : w ≠ 0) (φ : ℝ) (tm : TM ℝ) {g g1 g2 g3 : ℝ → ℝ}
    (hg : ∀ t, g t = cos (w * t + q0 - φ))
    (d1 : ∀ t, HasDerivAt g (g1 t) t) (d2 : ∀ t, HasDerivAt g1 (g2 t) t) (d3 : ∀ t, HasDerivAt g2 (g3 t) t)
    (d4 : ∀ t, HasDerivAt g3 (w * w * (w * w) * g t) t) (b : Iv ℝ)
    (hb : b = waveBounds w (cos (2 * π * ((l * w + q0 - φ) / (2 * π)))) (cos (2 * π * ((r * w + q0 - φ) / (2 * π))))
      ((l * w + q0 - φ) / (2 * π)) ((r * w + q0 - φ) / (2 * π))) {t : ℝ} (ht : t ∈ Set.Icc l r) :
    let a := (TimeIv.of l r).t.center
    let R := g t - (tm.expand a (g a) (g1 a) (g2 a) (g3 a)).poly t
    (remainderOf (TimeIv.of l r) (b.scale (w * w * (w * w)))).lo ≤ R ∧
      ((∀ s ∈ Set.Icc l r, 1e-15 < g s) ∨ (∀ s ∈ Set.Icc l r, g s ≤ -1e-15) →
        R ≤ (remainderOf (TimeIv.of l r) (b.scale (w * w * (w * w)))).hi) := by
  intro a R
  have hpi : 0 < 2 * π := by have := pi_pos; positivity
  have hw4 : 0 < w * w * (w * w) := mul_pos (mul_self_pos.2 hw) (mul_self_pos.2 hw)
  have between : ∀ s ∈ Set.Icc l r,
      (0 < w ∧ (l * w + q0 - φ) / (2 * π) ≤ (s * w + q0 - φ) / (2 * π) ∧
        (s * w + q0 - φ) / (2 * π) ≤ (r * w + q0 - φ) / (2 * π)) ∨
      (¬ 0 < w ∧ (r * w + q0 - φ) / (2 * π) ≤ (s * w + q0 - φ) / (2 * π) ∧
        (s * w + q0 - φ) / (2 * π) ≤ (l * w + q0 - φ) / (2 * π)) := by
    rintro s ⟨h1, h2⟩
    rcases lt_or_gt_of_ne hw with h | h
    · right
      refine ⟨not_lt.2 h.le, ?_, ?_⟩ <;> gcongr ?_ / _
      · nlinarith
      · nlinarith
    · left
      refine ⟨h, ?_, ?_⟩ <;> gcongr ?_ / _
      · nlinarith
      · nlinarith
  have hgk : ∀ s, g s = cos (2 * π * ((s * w + q0 - φ) / (2 * π))) := by
    intro s; rw [two_pi_mul_div, hg]; congr 1; ring
  have hmem : ∀ s ∈ Set.Icc l r, g s ∈ b.set := by
    intro s hs
    rw [hgk, hb]
    exact waveBounds_mem (between s hs)
  have hbv : b.Valid := (hmem l ⟨le_rfl, hlr⟩).1.trans (hmem l ⟨le_rfl, hlr⟩).2
  have hsc : b.scale (w * w * (w * w)) = ⟨b.lo * (w * w * (w * w)), b.hi * (w * w * (w * w))⟩ := by
    unfold Iv.scale; rw [if_pos hw4.le]
  have hsv : (b.scale (w * w * (w * w))).Valid := by
    rw [hsc]; exact mul_le_mul_of_nonneg_right hbv hw4.le
  have ca := center_mem hlr
  have L := taylor4_lower d1 d2 d3 d4 ca (m := b.lo * (w * w * (w * w)))
    (fun s hs => by have := (hmem s hs).1; nlinarith) ht
  have U := taylor4_upper d1 d2 d3 d4 ca (M := b.hi * (w * w * (w * w)))
    (fun s hs => by have := (hmem s hs).2; nlinarith) ht
  have hR : R = g t - (g a + g1 a * (t - a) + g2 a / 2 * (t - a) ^ 2 + g3 a / 6 * (t - a) ^ 3) := by
    simp only [R, poly_expand]
  have S := remainderOf_spec ht (b := b.scale (w * w * (w * w))) (R := R) (by rw [hR, hsc]; exact L)
    (by rw [hR, hsc]; exact U) hsv
  refine ⟨S.1, fun h => S.2 ?_⟩
  have hw' : (0 < w ∧ (l * w + q0 - φ) / (2 * π) ≤ (r * w + q0 - φ) / (2 * π)) ∨
      (¬ 0 < w ∧ (r * w + q0 - φ) / (2 * π) ≤ (l * w + q0 - φ) / (2 * π)) := by
    rcases between l ⟨le_rfl, hlr⟩ with h | h
    · exact Or.inl ⟨h.1, h.2.2⟩
    · exact Or.inr ⟨h.1, h.2.1⟩
  have back : ∀ k, k ∈ Set.Icc ((l * w + q0 - φ) / (2 * π)) ((r * w + q0 - φ) / (2 * π)) ∨
      k ∈ Set.Icc ((r * w + q0 - φ) / (2 * π)) ((l * w + q0 - φ) / (2 * π)) →
      ∃ s ∈ Set.Icc l r, g s = cos (2 * π * k) := by
    intro k hk
    refine ⟨(2 * π * k - q0 + φ) / w, ?_, ?_⟩
    · rcases hk with ⟨h1, h2⟩ | ⟨h1, h2⟩
      · rw [div_le_iff₀ hpi] at h1
        rw [le_div_iff₀ hpi] at h2
        rcases lt_or_gt_of_ne hw with hn | hp
        · have : l = r := by nlinarith
          subst this
          constructor
          · rw [le_div_iff_of_neg hn]; linarith
          · rw [div_le_iff_of_neg hn]; linarith
        · constructor
          · rw [le_div_iff₀ hp]; linarith
          · rw [div_le_iff₀ hp]; linarith
      · rw [div_le_iff₀ hpi] at h1
        rw [le_div_iff₀ hpi] at h2
        rcases lt_or_gt_of_ne hw with hn | hp
        · constructor
          · rw [le_div_iff_of_neg hn]; linarith
          · rw [div_le_iff_of_neg hn]; linarith
        · have : l = r := by nlinarith
          subst this
          constructor
          · rw [le_div_iff₀ hp]; linarith
          · rw [div_le_iff₀ hp]; linarith
    · rw [hg]
      congr 1
      field_simp
      ring
  have W := waveBounds_sign hw'
  rw [hsc]
  dsimp only
  rcases h with h | h
  · left
    have := W.1 (fun k hk => by obtain ⟨s, hs, e⟩ := back k hk; rw [← e]; exact h s hs)
    rw [← hb] at this
    positivity
  · right
    have := W.2 (fun k hk => by obtain ⟨s, hs, e⟩ := back k hk; rw [← e]; exact h s hs)
    rw [← hb] at this
    nlinarith

theorem hasDerivAt_arg (w q0 t : ℝ) : HasDerivAt (fun t => w * t + q0) w t := by
  simpa using ((hasDerivAt_id t).const_mul w).add_const q0

theorem hasDerivAt_cos_arg (w q0 t : ℝ) : HasDerivAt (fun t => cos (w * t + q0)) (-w * sin (w * t + q0)) t :=
  ((hasDerivAt_arg w q0 t).cos).congr_deriv (by ring)
theorem hasDerivAt_sin_arg (w q0 t : ℝ) : HasDerivAt (fun t => sin (w * t + q0)) (w * cos (w * t + q0)) t :=
  ((hasDerivAt_arg w q0 t).sin).congr_deriv (by ring)

/-- The whole of the cosine generator. -/
theorem TM.genCos_spec {l r w q0 : ℝ} (hlr : l ≤ r) (hw : w ≠ 0) (tm : TM ℝ) {t : ℝ} (ht : t ∈ Set.Icc l r) :
    (tm.genCos (TimeIv.of l r) w q0).r.lo ≤ cos (w * t + q0) - (tm.genCos (TimeIv.of l r) w q0).poly t ∧
      ((∀ s ∈ Set.Icc l r, 1e-15 < cos (w * s + q0)) ∨ (∀ s ∈ Set.Icc l r, cos (w * s + q0) ≤ -1e-15) →
        cos (w * t + q0) - (tm.genCos (TimeIv.of l r) w q0).poly t ≤ (tm.genCos (TimeIv.of l r) w q0).r.hi) := by
  have := trig_spec (g := fun t => cos (w * t + q0)) (g1 := fun t => -w * sin (w * t + q0))
    (g2 := fun t => -(w * w) * cos (w * t + q0)) (g3 := fun t => -(w * w) * (-w * sin (w * t + q0))) (q0 := q0) hlr hw 0 tm
    (fun t => by simp) (hasDerivAt_cos_arg w q0)
    (fun t => ((hasDerivAt_sin_arg w q0 t).const_mul (-w)).congr_deriv (by ring))
    (fun t => ((hasDerivAt_cos_arg w q0 t).const_mul (-(w * w))).congr_deriv (by ring))
    (fun t => (((hasDerivAt_sin_arg w q0 t).const_mul (-w)).const_mul (-(w * w))).congr_deriv (by ring))
    _ rfl ht
  have e : tm.genCos (TimeIv.of l r) w q0 =
      { tm.expand (TimeIv.of l r).t.center (cos (w * (TimeIv.of l r).t.center + q0))
          (-w * sin (w * (TimeIv.of l r).t.center + q0)) (-(w * w) * cos (w * (TimeIv.of l r).t.center + q0))
          (-(w * w) * (-w * sin (w * (TimeIv.of l r).t.center + q0))) with
        r := remainderOf (TimeIv.of l r) ((waveBounds w (cos (2 * π * ((l * w + q0 - 0) / (2 * π))))
          (cos (2 * π * ((r * w + q0 - 0) / (2 * π)))) ((l * w + q0 - 0) / (2 * π))
          ((r * w + q0 - 0) / (2 * π))).scale (w * w * (w * w))) } := by
    unfold genCos
    simp only [if_neg hw, two_pi_mul_div, sub_zero, TimeIv.of]
  rw [e]
  exact this

/-- The whole of the sine generator. -/
theorem TM.genSin_spec {l r w q0 : ℝ} (hlr : l ≤ r) (hw : w ≠ 0) (tm : TM ℝ) {t : ℝ} (ht : t ∈ Set.Icc l r) :
    (tm.genSin (TimeIv.of l r) w q0).r.lo ≤ sin (w * t + q0) - (tm.genSin (TimeIv.of l r) w q0).poly t ∧
      ((∀ s ∈ Set.Icc l r, 1e-15 < sin (w * s + q0)) ∨ (∀ s ∈ Set.Icc l r, sin (w * s + q0) ≤ -1e-15) →
        sin (w * t + q0) - (tm.genSin (TimeIv.of l r) w q0).poly t ≤ (tm.genSin (TimeIv.of l r) w q0).r.hi) := by
  have := trig_spec (g := fun t => sin (w * t + q0)) (g1 := fun t => w * cos (w * t + q0))
    (g2 := fun t => -(w * w) * sin (w * t + q0)) (g3 := fun t => -(w * w) * (w * cos (w * t + q0))) hlr hw (π / 2) tm
    (fun t => by rw [cos_sub_pi_div_two]) (hasDerivAt_sin_arg w q0)
    (fun t => ((hasDerivAt_cos_arg w q0 t).const_mul w).congr_deriv (by ring))
    (fun t => ((hasDerivAt_sin_arg w q0 t).const_mul (-(w * w))).congr_deriv (by ring))
    (fun t => (((hasDerivAt_cos_arg w q0 t).const_mul w).const_mul (-(w * w))).congr_deriv (by ring))
    _ rfl ht
  have k : ∀ x : ℝ, (x - π / 2) / (2 * π) = x / (2 * π) - 0.25 := by
    intro x
    have := pi_pos
    field_simp
    norm_num
    ring
  have e : tm.genSin (TimeIv.of l r) w q0 =
      { tm.expand (TimeIv.of l r).t.center (sin (w * (TimeIv.of l r).t.center + q0))
          (w * cos (w * (TimeIv.of l r).t.center + q0)) (-(w * w) * sin (w * (TimeIv.of l r).t.center + q0))
          (-(w * w) * (w * cos (w * (TimeIv.of l r).t.center + q0))) with
        r := remainderOf (TimeIv.of l r) ((waveBounds w (cos (2 * π * ((l * w + q0 - π / 2) / (2 * π))))
          (cos (2 * π * ((r * w + q0 - π / 2) / (2 * π)))) ((l * w + q0 - π / 2) / (2 * π))
          ((r * w + q0 - π / 2) / (2 * π))).scale (w * w * (w * w))) } := by
    unfold genSin
    simp only [two_pi_mul_div, cos_sub_pi_div_two]
    simp only [if_neg hw, k, TimeIv.of, mul_comm w l, mul_comm w r]
  rw [e]
  exact this

/-- C39, cosine: the model encloses the function when `w` is zero, and when the function keeps one sign over the time
interval (and stays away from zero by the code's round-off margin). Otherwise see `C39_cos_wrong`. -/
theorem C39_cos_partial {l r w q0 : ℝ} (hlr : l ≤ r) (tm : TM ℝ)
    (h : w = 0 ∨ (∀ s ∈ Set.Icc l r, 1e-15 < cos (w * s + q0)) ∨ (∀ s ∈ Set.Icc l r, cos (w * s + q0) ≤ -1e-15)) :
    Encl l r (tm.genCos (TimeIv.of l r) w q0) (fun t => cos (w * t + q0)) := by
  intro t ht
  by_cases hw : w = 0
  · subst hw
    have : cos (0 * t + q0) - (tm.genCos (TimeIv.of l r) 0 q0).poly t = 0 := by
      simp [TM.genCos, TM.expand, TM.poly]
    rw [this]
    simp only [TM.genCos, TM.remainderOf, Iv.scale, Iv.pt, Iv.set, Set.mem_Icc]
    norm_num
  · obtain ⟨h1, h2⟩ := genCos_spec hlr hw tm (q0 := q0) ht
    exact ⟨h1, h2 (h.resolve_left hw)⟩

/-- C39, sine: as for the cosine, but for `w = 0` the previous remainder of the model must contain zero. -/
theorem C39_sin_partial {l r w q0 : ℝ} (hlr : l ≤ r) (tm : TM ℝ)
    (h : (w = 0 ∧ (0 : ℝ) ∈ tm.r.set) ∨
      (w ≠ 0 ∧ ((∀ s ∈ Set.Icc l r, 1e-15 < sin (w * s + q0)) ∨ (∀ s ∈ Set.Icc l r, sin (w * s + q0) ≤ -1e-15)))) :
    Encl l r (tm.genSin (TimeIv.of l r) w q0) (fun t => sin (w * t + q0)) := by
  intro t ht
  rcases h with ⟨rfl, h⟩ | ⟨hw, h⟩
  · have : sin (0 * t + q0) - (tm.genSin (TimeIv.of l r) 0 q0).poly t = 0 := by
      simp [TM.genSin, TM.expand, TM.poly]
    rw [this]
    simpa [TM.genSin, TM.expand] using h
  · obtain ⟨h1, h2⟩ := genSin_spec hlr hw tm (q0 := q0) ht
    exact ⟨h1, h2 h⟩

/-- C39, what holds for all `w ≠ 0` and all time intervals: the functions are never below the model. -/
theorem C39_lower {l r w q0 : ℝ} (hlr : l ≤ r) (hw : w ≠ 0) (tm : TM ℝ) {t : ℝ} (ht : t ∈ Set.Icc l r) :
    (tm.genCos (TimeIv.of l r) w q0).poly t + (tm.genCos (TimeIv.of l r) w q0).r.lo ≤ cos (w * t + q0) ∧
      (tm.genSin (TimeIv.of l r) w q0).poly t + (tm.genSin (TimeIv.of l r) w q0).r.lo ≤ sin (w * t + q0) := by
  constructor
  · linarith [(genCos_spec hlr hw tm (q0 := q0) ht).1]
  · linarith [(genSin_spec hlr hw tm (q0 := q0) ht).1]

theorem TM.remainderOf_hi_zero {T : TimeIv ℝ} {b : Iv ℝ} (h : b.lo < 0) : (remainderOf T b).hi = 0 := by
  unfold remainderOf
  dsimp only
  rw [if_neg (not_lt.2 h.le), if_pos h]

/-- C39 fails for the cosine: over a whole period around a maximum, the upper end of the remainder is zero, while the
function is above its third order polynomial. -/
theorem C39_cos_wrong (tm : TM ℝ) :
    ¬ Encl 0 (2 * π) (tm.genCos (TimeIv.of 0 (2 * π)) 1 (-π)) (fun t => cos (1 * t + -π)) := by
  intro h
  have hpi := pi_gt_three
  have := (h (2 * π) ⟨by linarith, le_rfl⟩).2
  have hr : (tm.genCos (TimeIv.of 0 (2 * π)) 1 (-π)).r.hi = 0 := by
    unfold genCos
    dsimp only
    refine remainderOf_hi_zero ?_
    rw [if_neg one_ne_zero]
    unfold Iv.scale
    rw [if_pos (by norm_num)]
    dsimp only
    norm_num
    unfold waveBounds
    dsimp only
    rw [if_pos one_pos]
    have e0 : (0 : ℝ) * 1 + -π = -π := by ring
    have e1 : 2 * π * 1 + -π = π := by ring
    have e2 : (TimeIv.of 0 (2 * π)).t.lo = 0 := rfl
    have e3 : (TimeIv.of 0 (2 * π)).t.hi = 2 * π := rfl
    have e4 : 2 * π + -π = π := by ring
    simp only [e0, e1, e2, e3, e4, zero_add, cos_neg, cos_pi, lt_irrefl, if_false]
    repeat' split
    all_goals norm_num
  rw [hr] at this
  have hp : (tm.genCos (TimeIv.of 0 (2 * π)) 1 (-π)).poly (2 * π) = 1 - π ^ 2 / 2 := by
    have e : 1 * (TimeIv.of 0 (2 * π)).t.center + -π = 0 := by simp only [Iv.center, TimeIv.of]; ring
    have ec : (TimeIv.of 0 (2 * π)).t.center = π := by simp only [Iv.center, TimeIv.of]; ring
    unfold genCos
    simp only [e, cos_zero, sin_zero]
    rw [ec]
    simp only [TM.poly, TM.expand]
    norm_num
    ring
  have hc : cos (1 * (2 * π) + -π) = -1 := by
    have : 1 * (2 * π) + -π = π := by ring
    rw [this, cos_pi]
  simp only [hp, hc] at this
  nlinarith

/-- C39 fails for the sine in the same way. -/
theorem C39_sin_wrong (tm : TM ℝ) :
    ¬ Encl 0 (2 * π) (tm.genSin (TimeIv.of 0 (2 * π)) 1 (-(π / 2))) (fun t => sin (1 * t + -(π / 2))) := by
  intro h
  have hpi := pi_gt_three
  have := (h (2 * π) ⟨by linarith, le_rfl⟩).2
  have hr : (tm.genSin (TimeIv.of 0 (2 * π)) 1 (-(π / 2))).r.hi = 0 := by
    unfold genSin
    dsimp only
    rw [if_neg one_ne_zero]
    refine remainderOf_hi_zero ?_
    unfold Iv.scale
    rw [if_pos (by norm_num)]
    dsimp only
    norm_num
    unfold waveBounds
    dsimp only
    rw [if_pos one_pos]
    have e2 : (TimeIv.of 0 (2 * π)).t.lo = 0 := rfl
    have e3 : (TimeIv.of 0 (2 * π)).t.hi = 2 * π := rfl
    have e4 : sin (2 * π + -(π / 2)) = -1 := by
      rw [add_comm, sin_add_two_pi, sin_neg, sin_pi_div_two]
    simp only [e2, e3, e4, zero_add, sin_neg, sin_pi_div_two, lt_irrefl, if_false]
    repeat' split
    all_goals norm_num
  rw [hr] at this
  have hp : (tm.genSin (TimeIv.of 0 (2 * π)) 1 (-(π / 2))).poly (2 * π) = 1 - π ^ 2 / 2 := by
    have e : 1 * (TimeIv.of 0 (2 * π)).t.center + -(π / 2) = π / 2 := by simp only [Iv.center, TimeIv.of]; ring
    have ec : (TimeIv.of 0 (2 * π)).t.center = π := by simp only [Iv.center, TimeIv.of]; ring
    unfold genSin
    simp only [if_neg one_ne_zero, e, sin_pi_div_two, cos_pi_div_two]
    rw [ec]
    simp only [TM.poly, TM.expand]
    norm_num
    ring
  have hc : sin (1 * (2 * π) + -(π / 2)) = -1 := by
    rw [one_mul, add_comm, sin_add_two_pi, sin_neg, sin_pi_div_two]
  simp only [hp, hc] at this
  nlinarith

/-- C39 fails for the sine of a constant: the remainder of the model passed in is kept. -/
theorem C39_sin_stale :
    ¬ Encl 0 1 ((⟨0, 0, 0, 0, ⟨1, 2⟩⟩ : TM ℝ).genSin (TimeIv.of 0 1) 0 0) (fun t => sin (0 * t + 0)) := by
  intro h
  have := (h 0 ⟨le_rfl, by norm_num⟩).1
  simp [TM.genSin, TM.expand, TM.poly] at this
  norm_num at this

/-- The hypotheses are met by `cos t` over `[0, 1]`. -/
example : ∀ s ∈ Set.Icc (0 : ℝ) 1, 1e-15 < cos (1 * s + 0) := by
  rintro s ⟨h0, h1⟩
  have := one_sub_sq_div_two_le_cos (x := 1 * s + 0)
  nlinarith

end Fcl
