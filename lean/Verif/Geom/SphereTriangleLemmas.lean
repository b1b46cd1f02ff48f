import Verif.Geom.SphereTriangle
import Verif.Props.Project
import Mathlib.Tactic.LinearCombination
import Mathlib.Tactic.FieldSimp

/-!
# Lemmas on the queries between a sphere and a triangle
-/

namespace Fcl.Prim
open V3 Proj

/-! ### The quadratic function of the distance query -/

/-- The squared distance at parameters `s`, `t`. -/
def quad (a00 a01 a11 b0 b1 c s t : ℝ) : ℝ := s * (a00 * s + a01 * t + 2 * b0) + t * (a01 * s + a11 * t + 2 * b1) + c

/-- The parameters are in the triangle and the value is the least in the triangle. -/
def QuadMin (a00 a01 a11 b0 b1 c : ℝ) (o : ℝ × ℝ × ℝ) : Prop :=
  0 ≤ o.1 ∧ 0 ≤ o.2.1 ∧ o.1 + o.2.1 ≤ 1 ∧ o.2.2 = quad a00 a01 a11 b0 b1 c o.1 o.2.1 ∧
  ∀ s t : ℝ, 0 ≤ s → 0 ≤ t → s + t ≤ 1 → o.2.2 ≤ quad a00 a01 a11 b0 b1 c s t

/-- A point of the triangle where the derivatives towards the three corners are not negative is the minimum. -/
theorem kkt {a00 a01 a11 b0 b1 c s t q : ℝ} (h0 : 0 < a00) (hd : 0 < a00 * a11 - a01 * a01) (hs : 0 ≤ s) (ht : 0 ≤ t)
    (hst : s + t ≤ 1) (hq : q = quad a00 a01 a11 b0 b1 c s t) (g0 g1 m : ℝ) (e0 : g0 = a00 * s + a01 * t + b0)
    (e1 : g1 = a01 * s + a11 * t + b1) (em : m = g0 * s + g1 * t) (k : m ≤ 0) (k0 : m ≤ g0) (k1 : m ≤ g1) :
    QuadMin a00 a01 a11 b0 b1 c (s, t, q) := by
  refine ⟨hs, ht, hst, hq, ?_⟩
  intro s' t' hs' ht' hst'
  show q ≤ _
  have e : quad a00 a01 a11 b0 b1 c s' t' - q = 2 * (g0 * s' + g1 * t' - m) +
      (a00 * (s' - s) * (s' - s) + 2 * a01 * (s' - s) * (t' - t) + a11 * (t' - t) * (t' - t)) := by
    rw [hq, em, e0, e1]; simp only [quad]; ring
  have hf : 0 ≤ a00 * (s' - s) * (s' - s) + 2 * a01 * (s' - s) * (t' - t) + a11 * (t' - t) * (t' - t) := by
    have : 0 ≤ a00 * (a00 * (s' - s) * (s' - s) + 2 * a01 * (s' - s) * (t' - t) + a11 * (t' - t) * (t' - t)) := by
      have e : a00 * (a00 * (s' - s) * (s' - s) + 2 * a01 * (s' - s) * (t' - t) + a11 * (t' - t) * (t' - t)) =
        (a00 * (s' - s) + a01 * (t' - t)) ^ 2 + (a00 * a11 - a01 * a01) * (t' - t) ^ 2 := by ring
      rw [e]; positivity
    exact nonneg_of_mul_nonneg_right this h0
  have hl : 0 ≤ g0 * s' + g1 * t' - m := by nlinarith
  linarith

/-- If the minimum of the plane is beyond the edge `s = 0` and the derivative along that edge at its start is not negative,
neither is the other derivative. -/
theorem corner_sign {A B C S T : ℝ} (hC : 0 < C) (hA : 0 < A) (hd : 0 < A * C - B * B) (hS : S < 0) (hT : 0 ≤ T)
    (h : 0 ≤ -(B * S + C * T)) : 0 ≤ -(A * S + B * T) := by
  rcases le_total 0 B with hB | hB
  · have e : C * (-(A * S + B * T)) = B * (-(B * S + C * T)) + -S * (A * C - B * B) := by ring
    have : 0 ≤ C * (-(A * S + B * T)) := by
      rw [e]; exact add_nonneg (mul_nonneg hB h) (mul_nonneg (by linarith) hd.le)
    exact nonneg_of_mul_nonneg_right this hC
  · nlinarith [mul_nonneg (neg_nonneg.2 hB) hT]

/-- The end of the edge `t = 0` is the minimum of the triangle if it is the minimum of the edge. -/
theorem end_of_edge {A B C S T : ℝ} (hA : 0 < A) (hd : 0 < A * C - B * B) (hn : 0 < A - 2 * B + C) (hT : T < 0)
    (hST : S + T ≤ 1) (h : A + -(A * S + B * T) ≤ 0) : A + -(A * S + B * T) ≤ B + -(B * S + C * T) := by
  rcases le_total A B with hB | hB
  · nlinarith [mul_nonneg (sub_nonneg.2 hB) (sub_nonneg.2 hST), mul_pos hn (neg_pos.2 hT)]
  · have e : A * (B + -(B * S + C * T) - (A + -(A * S + B * T))) =
        (B - A) * (A + -(A * S + B * T)) + (A * C - B * B) * -T := by ring
    have : 0 ≤ A * (B + -(B * S + C * T) - (A + -(A * S + B * T))) := by
      rw [e]; exact add_nonneg (mul_nonneg_of_nonpos_of_nonpos (by linarith) h) (mul_nonneg hd.le (by linarith))
    linarith [nonneg_of_mul_nonneg_right this hA]

/-- The end of the edge `s + t = 1` is the minimum of the triangle if it is the minimum of the edge. -/
theorem end_of_side {A B C S T : ℝ} (hA : 0 < A) (hd : 0 < A * C - B * B) (hn : 0 < A - 2 * B + C) (hT : 0 ≤ T)
    (hST : 1 < S + T) (h : A + -(A * S + B * T) ≤ B + -(B * S + C * T)) : A + -(A * S + B * T) ≤ 0 := by
  rcases le_or_gt A B with hB | hB
  · have h0 : T = 0 := by nlinarith [mul_nonneg (sub_nonneg.2 hB) (sub_nonneg.2 hST.le), mul_nonneg hn.le hT]
    subst h0
    nlinarith
  · have e : A * (B + -(B * S + C * T) - (A + -(A * S + B * T))) =
        (B - A) * (A + -(A * S + B * T)) + (A * C - B * B) * -T := by ring
    have h2 := mul_nonneg hA.le (sub_nonneg.2 h)
    rw [e] at h2
    by_contra h'
    push Not at h'
    nlinarith [mul_pos (sub_pos.2 hB) h', mul_nonneg hd.le hT]

set_option maxHeartbeats 2000000 in
/-- The seven regions give the minimum. -/
theorem triSqr_min {a00 a01 a11 : ℝ} (b0 b1 c : ℝ) (h0 : 0 < a00) (h1 : 0 < a11) (hd : 0 < a00 * a11 - a01 * a01) :
    QuadMin a00 a01 a11 b0 b1 c (triSqr a00 a01 a11 b0 b1 c) := by
  obtain ⟨det, hdet⟩ : ∃ det, det = a00 * a11 - a01 * a01 := ⟨_, rfl⟩
  have hdp : 0 < det := by rw [hdet]; exact hd
  have habs : |a00 * a11 - a01 * a01| = det := by rw [hdet]; exact abs_of_pos hd
  obtain ⟨S, hS⟩ : ∃ S, S = (a01 * b1 - a11 * b0) / det := ⟨_, rfl⟩
  obtain ⟨T, hT⟩ : ∃ T, T = (a01 * b0 - a00 * b1) / det := ⟨_, rfl⟩
  have hS' : a01 * b1 - a11 * b0 = det * S := by rw [hS]; field_simp
  have hT' : a01 * b0 - a00 * b1 = det * T := by rw [hT]; field_simp
  have hb0 : b0 = -(a00 * S + a01 * T) := by
    have : det * b0 = det * (-(a00 * S + a01 * T)) := by rw [hdet] at hS' hT' ⊢; linear_combination -(a00 * hS') - a01 * hT'
    exact mul_left_cancel₀ hdp.ne' this
  have hb1 : b1 = -(a01 * S + a11 * T) := by
    have : det * b1 = det * (-(a01 * S + a11 * T)) := by rw [hdet] at hS' hT' ⊢; linear_combination -(a01 * hS') - a11 * hT'
    exact mul_left_cancel₀ hdp.ne' this
  have hden : 0 < a00 - 2 * a01 + a11 := by nlinarith [sq_nonneg (a00 - a01), sq_nonneg (a11 - a01)]
  have i1 : det * S + det * T ≤ det ↔ S + T ≤ 1 := by
    rw [← mul_add]; constructor
    · intro h; exact le_of_mul_le_mul_left (by linarith) hdp
    · intro h; nlinarith
  have i2 : det * S < 0 ↔ S < 0 := by
    constructor
    · intro h; by_contra h'; push Not at h'; nlinarith
    · intro h; nlinarith
  have i3 : det * T < 0 ↔ T < 0 := by
    constructor
    · intro h; by_contra h'; push Not at h'; nlinarith
    · intro h; nlinarith
  have i4 : det * S * (1 / det) = S := by field_simp
  have i5 : det * T * (1 / det) = T := by field_simp
  rw [hdet] at hdp
  -- the vertices
  have at0 : 0 ≤ b0 → 0 ≤ b1 → QuadMin a00 a01 a11 b0 b1 c (0, 0, c) := fun u v =>
    kkt h0 hd le_rfl le_rfl (by norm_num) (by simp [quad]) b0 b1 0 (by ring) (by ring) (by ring) le_rfl u v
  have atS : a00 + b0 ≤ 0 → a00 + b0 ≤ a01 + b1 → QuadMin a00 a01 a11 b0 b1 c (1, 0, a00 + 2 * b0 + c) := fun u v =>
    kkt h0 hd zero_le_one le_rfl (by norm_num) (by simp [quad]) (a00 + b0) (a01 + b1) (a00 + b0) (by ring) (by ring) (by ring) u le_rfl v
  have atT : a11 + b1 ≤ 0 → a11 + b1 ≤ a01 + b0 → QuadMin a00 a01 a11 b0 b1 c (0, 1, a11 + 2 * b1 + c) := fun u v =>
    kkt h0 hd le_rfl zero_le_one (by norm_num) (by simp [quad]) (a01 + b0) (a11 + b1) (a11 + b1) (by ring) (by ring) (by ring) u v le_rfl
  have onS : b0 ≤ 0 → -b0 ≤ a00 → T ≤ 0 → QuadMin a00 a01 a11 b0 b1 c (-b0 / a00, 0, b0 * (-b0 / a00) + c) := fun u v w =>
    kkt h0 hd (div_nonneg (by linarith) h0.le) le_rfl (by rw [add_zero, div_le_one h0]; exact v)
      (by simp only [quad]; field_simp; ring) 0 (a01 * (-b0 / a00) + b1) 0 (by field_simp; ring) (by ring) (by ring) le_rfl le_rfl
      (by
        have : a01 * (-b0 / a00) + b1 = -(det * T) / a00 := by rw [← hT']; field_simp; ring
        rw [this]; exact div_nonneg (by rw [hdet]; nlinarith) h0.le)
  have onT : b1 ≤ 0 → -b1 ≤ a11 → S ≤ 0 → QuadMin a00 a01 a11 b0 b1 c (0, -b1 / a11, b1 * (-b1 / a11) + c) := fun u v w =>
    kkt h0 hd le_rfl (div_nonneg (by linarith) h1.le) (by rw [zero_add, div_le_one h1]; exact v)
      (by simp only [quad]; field_simp; ring) (a01 * (-b1 / a11) + b0) 0 0 (by ring) (by field_simp; ring) (by ring) le_rfl
      (by
        have : a01 * (-b1 / a11) + b0 = -(det * S) / a11 := by rw [← hS']; field_simp; ring
        rw [this]; exact div_nonneg (by rw [hdet]; nlinarith) h1.le) le_rfl
  have onST : ∀ s t : ℝ, s + t = 1 → (a00 - 2 * a01 + a11) * s = a11 + b1 - (a01 + b0) → 0 ≤ s → 0 ≤ t → 1 ≤ S + T →
      QuadMin a00 a01 a11 b0 b1 c
        (s, t, s * (a00 * s + a01 * t + 2 * b0) + t * (a01 * s + a11 * t + 2 * b1) + c) := fun s t e f u v w => by
    have e' : t = 1 - s := by linarith
    have hg : (a00 - 2 * a01 + a11) * (a00 * s + a01 * t + b0) = det - det * S - det * T := by
      rw [← hS', ← hT', hdet, e']; linear_combination (a00 - a01) * f
    refine kkt h0 hd u v e.le rfl (a00 * s + a01 * t + b0) (a00 * s + a01 * t + b0) (a00 * s + a01 * t + b0) rfl ?_ ?_ ?_ le_rfl le_rfl
    · rw [e']; linear_combination f
    · rw [e']; ring
    · by_contra h
      push Not at h
      have := mul_pos hden h
      rw [hg, hdet] at this
      nlinarith
  have sq : ∀ n : ℝ, 0 < n → n < a00 - 2 * a01 + a11 → 0 ≤ n / (a00 - 2 * a01 + a11) ∧ 0 ≤ 1 - n / (a00 - 2 * a01 + a11) ∧
      (a00 - 2 * a01 + a11) * (n / (a00 - 2 * a01 + a11)) = n := fun n u v =>
    ⟨div_nonneg u.le hden.le, by rw [sub_nonneg, div_le_one hden]; exact v.le, by field_simp⟩
  rw [triSqr]
  simp only [habs, hS', hT', i1, i2, i3, i4, i5]
  clear i1 i2 i3 i4 i5 habs
  have hd' : 0 < a11 * a00 - a01 * a01 := by linarith
  have hden' : 0 < a11 - 2 * a01 + a00 := by linarith
  rw [add_comm] at hb1
  have lA : S < 0 → 0 ≤ T → 0 ≤ b1 → 0 ≤ b0 := fun u v w => by
    rw [hb1, add_comm] at w; rw [hb0]; exact corner_sign h1 h0 hd u v w
  have lA' : T < 0 → 0 ≤ S → 0 ≤ b0 → 0 ≤ b1 := fun u v w => by
    rw [hb0, add_comm] at w; rw [hb1]; exact corner_sign h0 h1 hd' u v w
  have lB : T < 0 → S + T ≤ 1 → a00 + b0 ≤ 0 → a00 + b0 ≤ a01 + b1 := fun u v w => by
    rw [hb0] at w ⊢; rw [hb1, add_comm (a11 * T)]; exact end_of_edge h0 hd hden u v w
  have lB' : S < 0 → S + T ≤ 1 → a11 + b1 ≤ 0 → a11 + b1 ≤ a01 + b0 := fun u v w => by
    rw [hb1] at w ⊢; rw [hb0, add_comm (a00 * S)]; exact end_of_edge h1 hd' hden' u (by linarith) w
  have lC : 0 ≤ T → 1 < S + T → a00 + b0 ≤ a01 + b1 → a00 + b0 ≤ 0 := fun u v w => by
    rw [hb0, hb1, add_comm (a11 * T)] at w; rw [hb0]; exact end_of_side h0 hd hden u v w
  have lC' : 0 ≤ S → 1 < S + T → a11 + b1 ≤ a01 + b0 → a11 + b1 ≤ 0 := fun u v w => by
    rw [hb0, hb1, add_comm (a00 * S)] at w; rw [hb1]; exact end_of_side h1 hd' hden' u (by linarith) w
  split_ifs
  · rename_i c1 c2 c3 c4 c5
    exact atS (by linarith) (lB c3 c1 (by linarith))
  · rename_i c1 c2 c3 c4 c5
    exact onS c4.le (by linarith) c3.le
  · rename_i c1 c2 c3 c4 c5
    exact at0 (not_lt.1 c4) c5
  · rename_i c1 c2 c3 c4 c5 c6
    exact atT (by linarith) (lB' c2 c1 (by linarith))
  · rename_i c1 c2 c3 c4 c5 c6
    exact onT (by linarith) (by linarith) c2.le
  · rename_i c1 c2 c3 c4
    exact at0 (lA c2 (not_lt.1 c3) c4) c4
  · rename_i c1 c2 c3 c4 c5
    exact atT (by linarith) (lB' c2 c1 (by linarith))
  · rename_i c1 c2 c3 c4 c5
    exact onT (by linarith) (by linarith) c2.le
  · rename_i c1 c2 c3 c4
    exact at0 c4 (lA' c3 (not_lt.1 c2) c4)
  · rename_i c1 c2 c3 c4 c5
    exact atS (by linarith) (lB c3 c1 (by linarith))
  · rename_i c1 c2 c3 c4 c5
    exact onS (by linarith) (by linarith) c3.le
  · rename_i c1 c2 c3
    push Not at c2 c3
    exact kkt h0 hd c2 c3 c1 rfl 0 0 0 (by rw [hb0]; ring) (by rw [hb1]; ring) (by ring) le_rfl le_rfl le_rfl
  · rename_i c1 c2 c3 c4
    exact atS (lC (by linarith) (not_le.1 c1) (by linarith)) (by linarith)
  · rename_i c1 c2 c3 c4
    obtain ⟨u, v, w⟩ := sq _ (sub_pos.2 c3) (not_le.1 c4)
    exact onST _ _ (by ring) w u v (by linarith)
  · rename_i c1 c2 c3 c4
    exact atT c4 (by linarith)
  · rename_i c1 c2 c3 c4 c5
    exact at0 (lA c2 (by linarith) c5) c5
  · rename_i c1 c2 c3 c4 c5
    exact onT (by linarith) (by linarith) c2.le
  · rename_i c1 c2 c3 c4 c5
    exact atT (lC' (by linarith) (not_le.1 c1) (by linarith)) (by linarith)
  · rename_i c1 c2 c3 c4 c5
    obtain ⟨u, v, w⟩ := sq _ (sub_pos.2 c4) (not_le.1 c5)
    exact onST _ _ (by ring) (by linear_combination -w) v u (by linarith)
  · rename_i c1 c2 c3 c4 c5
    exact atS c5 (by linarith)
  · rename_i c1 c2 c3 c4 c5 c6
    exact at0 c6 (lA' c3 (by linarith) c6)
  · rename_i c1 c2 c3 c4 c5 c6
    exact onS (by linarith) (by linarith) c3.le
  · rename_i c1 c2 c3 c4
    exact atT (lC' (by linarith) (not_le.1 c1) (by linarith)) (by linarith)
  · rename_i c1 c2 c3 c4 c5
    exact atS (lC (by linarith) (not_le.1 c1) (by linarith)) (by linarith)
  · rename_i c1 c2 c3 c4 c5
    obtain ⟨u, v, w⟩ := sq _ (not_le.1 c4) (not_le.1 c5)
    exact onST _ _ (by ring) (by linear_combination w) u v (by linarith)

/-! ### The intersection query -/

theorem segment_spec (a b p : V3 ℝ) : ∃ u w : ℝ, 0 ≤ u ∧ 0 ≤ w ∧ u + w = 1 ∧ (segmentSqrDistance a b p).2 = u • a + w • b ∧
    (segmentSqrDistance a b p).1 = ((segmentSqrDistance a b p).2 - p).dot ((segmentSqrDistance a b p).2 - p) ∧
    ∀ u' w' : ℝ, 0 ≤ u' → 0 ≤ w' → u' + w' = 1 →
      (segmentSqrDistance a b p).1 ≤ (u' • a + w' • b - p).dot (u' • a + w' • b - p) := by
  obtain ⟨v, hv⟩ : ∃ v, v = b - a := ⟨_, rfl⟩
  obtain ⟨d, hd⟩ : ∃ d, d = p - a := ⟨_, rfl⟩
  have hb : b = a + v := by rw [hv]; v3
  have hp : p = a + d := by rw [hd]; v3
  have key : ∀ t : ℝ, 0 ≤ t → t ≤ 1 → (∀ s : ℝ, 0 ≤ s → s ≤ 1 → 0 ≤ (s - t) * (t * v.dot v - v.dot d)) →
      segmentSqrDistance a b p = ((d - t • v).dot (d - t • v), a + t • v) →
      ∃ u w : ℝ, 0 ≤ u ∧ 0 ≤ w ∧ u + w = 1 ∧ (segmentSqrDistance a b p).2 = u • a + w • b ∧
      (segmentSqrDistance a b p).1 = ((segmentSqrDistance a b p).2 - p).dot ((segmentSqrDistance a b p).2 - p) ∧
      ∀ u' w' : ℝ, 0 ≤ u' → 0 ≤ w' → u' + w' = 1 →
        (segmentSqrDistance a b p).1 ≤ (u' • a + w' • b - p).dot (u' • a + w' • b - p) := by
    intro t h0 h1 hk e
    rw [e]
    refine ⟨1 - t, t, by linarith, h0, by ring, ?_, ?_, ?_⟩
    · rw [hb]; v3
    · have : a + t • v - p = -(d - t • v) := by rw [hp]; v3
      simp only [this, neg_dot, dot_neg, neg_neg]
    · intro u w hu hw huw
      have e' : u • a + w • b - p = w • v - d := by
        have : u = 1 - w := by linarith
        rw [this, hb, hp]; v3
      have k := hk w hw (by linarith)
      have hv0 := dot_self_nonneg v
      simp only [e', dot, sub_x, sub_y, sub_z, smul_x, smul_y, smul_z] at k hv0 ⊢
      nlinarith [mul_nonneg (sq_nonneg (w - t)) hv0]
  by_cases c1 : v.dot d > 0
  · by_cases c2 : v.dot d < v.dot v
    · have hvv : 0 < v.dot v := c1.trans c2
      refine key (v.dot d / v.dot v) (by positivity) (by rw [div_le_one hvv]; exact c2.le) (fun s _ _ => ?_) ?_
      · have : v.dot d / v.dot v * v.dot v - v.dot d = 0 := by field_simp; ring
        rw [this, mul_zero]
      · simp only [segmentSqrDistance, ← hv, ← hd, if_pos c1, if_pos c2]
    · refine key 1 zero_le_one le_rfl (fun s _ h => ?_) ?_
      · push Not at c2
        exact mul_nonneg_of_nonpos_of_nonpos (by linarith) (by linarith)
      · simp only [segmentSqrDistance, ← hv, ← hd, if_pos c1, if_neg c2]
        have : d - (1 : ℝ) • v = d - v := by v3
        rw [this]
  · refine key 0 le_rfl zero_le_one (fun s h _ => ?_) ?_
    · push Not at c1
      exact mul_nonneg (by linarith) (by linarith)
    · simp only [segmentSqrDistance, ← hv, ← hd, if_neg c1]
      have : d - (0 : ℝ) • v = d := by v3
      rw [this]

theorem edgeContact_mem {rho : ℝ} {a b c o k : V3 ℝ} (h : edgeContact rho a b c o = some k) :
    HullOf [a, b, c] k ∧ (k - o).dot (k - o) < rho * rho := by
  obtain ⟨u1, w1, p1, q1, s1, e1, f1, -⟩ := segment_spec a b o
  obtain ⟨u2, w2, p2, q2, s2, e2, f2, -⟩ := segment_spec b c o
  obtain ⟨u3, w3, p3, q3, s3, e3, f3, -⟩ := segment_spec c a o
  simp only [edgeContact] at h
  split_ifs at h with c1 c2 c3
  · cases h
    exact ⟨(hull_triangle _ _ _ _).2 ⟨w3, 0, u3, q3, le_rfl, p3, by linarith, by rw [e3]; v3⟩, by rw [← f3]; exact c1⟩
  · cases h
    exact ⟨(hull_triangle _ _ _ _).2 ⟨0, u2, w2, le_rfl, p2, q2, by linarith, by rw [e2]; v3⟩, by rw [← f2]; exact c2⟩
  · cases h
    exact ⟨(hull_triangle _ _ _ _).2 ⟨u1, w1, 0, p1, q1, le_rfl, by linarith, by rw [e1]; v3⟩, by rw [← f1]; exact c3⟩

theorem edgeContact_isSome {rho : ℝ} {a b c o : V3 ℝ} {z0 z1 z2 : ℝ} (h0 : 0 ≤ z0) (h1 : 0 ≤ z1) (h2 : 0 ≤ z2)
    (hs : z0 + z1 + z2 = 1) (he : z0 = 0 ∨ z1 = 0 ∨ z2 = 0)
    (h : (z0 • a + z1 • b + z2 • c - o).dot (z0 • a + z1 • b + z2 • c - o) < rho * rho) :
    ∃ k, edgeContact rho a b c o = some k := by
  obtain ⟨-, -, -, -, -, -, -, l1⟩ := segment_spec a b o
  obtain ⟨-, -, -, -, -, -, -, l2⟩ := segment_spec b c o
  obtain ⟨-, -, -, -, -, -, -, l3⟩ := segment_spec c a o
  simp only [edgeContact]
  rcases he with rfl | rfl | rfl
  · have e : (0 : ℝ) • a + z1 • b + z2 • c = z1 • b + z2 • c := by v3
    rw [e] at h
    have := (l2 z1 z2 h1 h2 (by linarith)).trans_lt h
    split_ifs <;> exact ⟨_, rfl⟩
  · have e : z0 • a + (0 : ℝ) • b + z2 • c = z2 • c + z0 • a := by v3
    rw [e] at h
    have := (l3 z2 z0 h2 h0 (by linarith)).trans_lt h
    split_ifs <;> exact ⟨_, rfl⟩
  · have e : z0 • a + z1 • b + (0 : ℝ) • c = z0 • a + z1 • b := by v3
    rw [e] at h
    have := (l1 z0 z1 h0 h1 (by linarith)).trans_lt h
    split_ifs <;> exact ⟨_, rfl⟩

/-- The normal and the distance from the plane after lines 142-156. -/
theorem plane_spec {a b c : V3 ℝ} (h : HasArea a b c) (o : V3 ℝ) {N n0 : V3 ℝ} (hN : N = (b - a).cross (c - a))
    (hn0 : n0 = N.normalized) : ∃ k : ℝ, k * k * N.dot N = 1 ∧
    (if (o - a).dot n0 < 0 then -n0 else n0) = k • N ∧
    (if (o - a).dot n0 < 0 then -(o - a).dot n0 else (o - a).dot n0) = (o - a).dot (k • N) ∧
    0 ≤ (o - a).dot (k • N) := by
  have hp : 0 < N.nrm := nrm_pos (by rw [hN]; exact h)
  have e0 : n0 = (1 / N.nrm) • N := by rw [hn0, normalized, if_neg hp.ne']
  have hk : (1 / N.nrm) * (1 / N.nrm) * N.dot N = 1 := by rw [← nrm_mul_self]; field_simp
  by_cases c1 : (o - a).dot n0 < 0
  · refine ⟨-(1 / N.nrm), by linarith, ?_, ?_, ?_⟩
    · rw [if_pos c1, e0]; v3
    · rw [if_pos c1, e0]; simp only [dot_smul]; ring
    · rw [e0] at c1; simp only [dot_smul] at c1 ⊢; linarith
  · refine ⟨1 / N.nrm, hk, ?_, ?_, ?_⟩
    · rw [if_neg c1, e0]
    · rw [if_neg c1, e0]
    · rw [e0] at c1; exact not_lt.1 c1

/-- The foot of the centre in the plane of the triangle, its coordinates and what `projectInTriangle` decides about them. -/
theorem foot_spec {a b c : V3 ℝ} (h : HasArea a b c) (o : V3 ℝ) {N : V3 ℝ} (hN : N = (b - a).cross (c - a)) {k : ℝ}
    (hk : k * k * N.dot N = 1) : ∃ z0 z1 z2 : ℝ, z0 + z1 + z2 = 1 ∧
    z0 • a + z1 • b + z2 • c = o - (o - a).dot (k • N) • (k • N) ∧
    (ProjectInTriangle a b c (k • N) o → 0 ≤ z0 ∧ 0 ≤ z1 ∧ 0 ≤ z2) ∧
    (¬ ProjectInTriangle a b c (k • N) o → z0 ≤ 0 ∨ z1 ≤ 0 ∨ z2 ≤ 0) := by
  have hl := area_pos.1 h
  have hN' : N = (a - b).cross (b - c) := by
    rw [hN]; apply V3.ext' <;> simp only [cross, sub_x, sub_y, sub_z] <;> ring
  rw [← hN'] at hl
  obtain ⟨hs, hp⟩ := coord_spec a b c o hN' hl
  have f0 : coord (vert a b c c) N o 0 * N.dot N = -((b - o).dot ((b - c).cross N)) := by
    simp only [coord, vert, nxt]; field_simp
  have f1 : coord (vert a b c c) N o 1 * N.dot N = -((c - o).dot ((c - a).cross N)) := by
    simp only [coord, vert, nxt]; field_simp
  have f2 : coord (vert a b c c) N o 2 * N.dot N = -((a - o).dot ((a - b).cross N)) := by
    simp only [coord, vert, nxt]; field_simp
  generalize coord (vert a b c c) N o 0 = z0 at *
  generalize coord (vert a b c c) N o 1 = z1 at *
  generalize coord (vert a b c c) N o 2 = z2 at *
  have r1 : ((b - a).cross (k • N)).dot (o - a) = -k * (z2 * N.dot N) := by
    rw [f2]; simp only [dot, cross, sub_x, sub_y, sub_z, smul_x, smul_y, smul_z]; ring
  have r2 : ((c - b).cross (k • N)).dot (o - b) = -k * (z0 * N.dot N) := by
    rw [f0]; simp only [dot, cross, sub_x, sub_y, sub_z, smul_x, smul_y, smul_z]; ring
  have r3 : ((a - c).cross (k • N)).dot (o - c) = -k * (z1 * N.dot N) := by
    rw [f1]; simp only [dot, cross, sub_x, sub_y, sub_z, smul_x, smul_y, smul_z]; ring
  refine ⟨z0, z1, z2, hs, ?_, ?_, ?_⟩
  · rw [hp]
    have hk' : k * k = 1 / N.dot N := by field_simp; linarith
    have : (a - o).dot N / N.dot N = -(k * k * (o - a).dot N) := by
      rw [hk']; simp only [dot, sub_x, sub_y, sub_z]; ring
    rw [this, dot_smul]
    v3
  · intro hh
    simp only [ProjectInTriangle, r1, r2, r3] at hh
    have hk0 : k ≠ 0 := by rintro rfl; simp at hk
    rcases lt_or_gt_of_ne hk0 with hk1 | hk1
    · rcases hh with ⟨a1, a2, a3⟩ | ⟨a1, a2, a3⟩
      · have pos : ∀ z : ℝ, -k * (z * N.dot N) > 0 → 0 ≤ z := fun z hz => by
          by_contra h'
          push Not at h'
          have := mul_nonneg (neg_nonneg.2 hk1.le) (mul_nonneg (neg_nonneg.2 h'.le) hl.le)
          nlinarith
        exact ⟨pos _ a2, pos _ a3, pos _ a1⟩
      · exfalso
        have e : -k * (z2 * N.dot N) + -k * (z0 * N.dot N) + -k * (z1 * N.dot N) = -k * N.dot N := by
          linear_combination (-k * N.dot N) * hs
        have := mul_pos (neg_pos.2 hk1) hl
        linarith
    · rcases hh with ⟨a1, a2, a3⟩ | ⟨a1, a2, a3⟩
      · exfalso
        have e : -k * (z2 * N.dot N) + -k * (z0 * N.dot N) + -k * (z1 * N.dot N) = -k * N.dot N := by
          linear_combination (-k * N.dot N) * hs
        have := mul_pos hk1 hl
        linarith
      · have pos : ∀ z : ℝ, -k * (z * N.dot N) ≤ 0 → 0 ≤ z := fun z hz => by
          by_contra h'
          push Not at h'
          have := mul_pos hk1 (mul_pos (neg_pos.2 h') hl)
          nlinarith
        exact ⟨pos _ a2, pos _ a3, pos _ a1⟩
  · intro hh
    by_contra h'
    push Not at h'
    obtain ⟨g0, g1, g2⟩ := h'
    have m0 := mul_pos g0 hl
    have m1 := mul_pos g1 hl
    have m2 := mul_pos g2 hl
    refine hh ?_
    simp only [ProjectInTriangle, r1, r2, r3]
    rcases le_or_gt 0 k with hk1 | hk1
    · exact Or.inr ⟨by nlinarith, by nlinarith, by nlinarith⟩
    · exact Or.inl ⟨by nlinarith, by nlinarith, by nlinarith⟩

end Fcl.Prim
