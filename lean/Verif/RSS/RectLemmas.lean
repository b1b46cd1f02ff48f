import Verif.RSS.Spec
import Mathlib.Tactic.LinearCombination

/-!
# `rectDistance` is a lower bound of the distance of the rectangles
-/

namespace Fcl
namespace RSS
variable {K : Type*} [Field K] [LinearOrder K] [IsStrictOrderedRing K]

theorem clip_cases {v a b : K} (h : a ≤ b) :
    (v < a ∧ clip v a b = a) ∨ (b < v ∧ clip v a b = b) ∨ (a ≤ v ∧ v ≤ b ∧ clip v a b = v) := by
  unfold clip
  split_ifs with h1 h2
  · exact .inl ⟨h1, rfl⟩
  · exact .inr (.inl ⟨h2, rfl⟩)
  · exact .inr (.inr ⟨not_lt.1 h1, not_lt.1 h2, rfl⟩)

theorem clip_mem {v a b : K} (h : a ≤ b) : a ≤ clip v a b ∧ clip v a b ≤ b := by
  rcases clip_cases (v := v) h with ⟨-, e⟩ | ⟨-, e⟩ | ⟨h1, h2, e⟩ <;> rw [e] <;> constructor <;> first | assumption | exact le_rfl

/-- `clip v` is the point of the interval nearest to `v`. -/
theorem clip_opt {v b : K} (h : 0 ≤ b) {s : K} (h0 : 0 ≤ s) (h1 : s ≤ b) : (v - clip v 0 b) * (s - clip v 0 b) ≤ 0 := by
  rcases clip_cases (v := v) h with ⟨h2, e⟩ | ⟨h2, e⟩ | ⟨-, -, e⟩ <;> rw [e]
  · nlinarith
  · nlinarith
  · simp

/-- The parameters lie in their intervals and neither can be improved. -/
structure SegOpt (α β c AT BT t u : K) : Prop where
  t0 : 0 ≤ t
  t1 : t ≤ α
  u0 : 0 ≤ u
  u1 : u ≤ β
  alongA : ∀ s, 0 ≤ s → s ≤ α → (AT + u * c - t) * (s - t) ≤ 0
  alongB : ∀ s, 0 ≤ s → s ≤ β → 0 ≤ (BT + u - t * c) * (s - u)

theorem segCoords_opt {α β c AT BT : K} (hα : 0 ≤ α) (hβ : 0 ≤ β) (hc : c * c ≤ 1) (hpar : c * c = 1 → AT = c * BT) :
    SegOpt α β c AT BT (segCoords α β c AT BT).1 (segCoords α β c AT BT).2 := by
  obtain ⟨t, ht⟩ : ∃ t, t = if 1 - c * c = 0 then 0 else clip ((AT - BT * c) / (1 - c * c)) 0 α := ⟨_, rfl⟩
  have htm : 0 ≤ t ∧ t ≤ α := by
    rw [ht]; split
    · exact ⟨le_rfl, hα⟩
    · exact clip_mem hα
  have hto : ∀ s, 0 ≤ s → s ≤ α → (AT - BT * c - t * (1 - c * c)) * (s - t) ≤ 0 := by
    intro s s0 s1
    by_cases h : 1 - c * c = 0
    · have := hpar (by linarith)
      rw [h, this]
      apply le_of_eq; ring
    · have hp : 0 < 1 - c * c := lt_of_le_of_ne (by linarith) (Ne.symm h)
      rw [if_neg h] at ht
      have := clip_opt (v := (AT - BT * c) / (1 - c * c)) hα s0 s1
      rw [← ht] at this
      have e : AT - BT * c - t * (1 - c * c) = (1 - c * c) * ((AT - BT * c) / (1 - c * c) - t) := by
        rw [mul_sub (1 - c * c), mul_comm (1 - c * c) (_ / _), div_mul_cancel₀ _ h]; ring
      rw [e, mul_assoc]
      nlinarith
  have hs : segCoords α β c AT BT =
      if t * c - BT < 0 then (clip AT 0 α, 0) else if t * c - BT > β then (clip (β * c + AT) 0 α, β) else (t, t * c - BT) := by
    rw [ht]; rfl
  rw [hs]
  by_cases h1 : t * c - BT < 0
  · rw [if_pos h1]
    have hm := clip_mem (v := AT) hα
    have ho := fun s s0 s1 => clip_opt (v := AT) hα (s := s) s0 s1
    generalize clip AT 0 α = t' at *
    refine ⟨hm.1, hm.2, le_rfl, hβ, fun s s0 s1 => by simpa using ho s s0 s1, fun s s0 s1 => ?_⟩
    have key : 0 ≤ BT - t' * c := by
      by_contra hn
      have o1 := ho t htm.1 htm.2
      have o2 := hto t' hm.1 hm.2
      nlinarith [mul_self_nonneg (t - t'), mul_self_nonneg ((t - t') * c), mul_pos (sub_pos.2 h1) (neg_pos.2 (not_le.1 hn))]
    have : 0 ≤ (BT - t' * c) * s := mul_nonneg key s0
    simpa using this
  · rw [if_neg h1]
    by_cases h2 : t * c - BT > β
    · rw [if_pos h2]
      have hm := clip_mem (v := β * c + AT) hα
      have ho := fun s s0 s1 => clip_opt (v := β * c + AT) hα (s := s) s0 s1
      generalize clip (β * c + AT) 0 α = t' at *
      refine ⟨hm.1, hm.2, hβ, le_rfl, fun s s0 s1 => by have := ho s s0 s1; linarith, fun s s0 s1 => ?_⟩
      have key : BT + β - t' * c ≤ 0 := by
        by_contra hn
        have o1 := ho t htm.1 htm.2
        have o2 := hto t' hm.1 hm.2
        have hn' := not_le.1 hn
        nlinarith [mul_self_nonneg (t - t'), mul_self_nonneg ((t - t') * c)]
      exact mul_nonneg_of_nonpos_of_nonpos key (by linarith)
    · rw [if_neg h2]
      refine ⟨htm.1, htm.2, not_lt.1 h1, not_lt.1 h2, fun s s0 s1 => ?_, fun s s0 s1 => ?_⟩
      · have := hto s s0 s1
        calc (AT + (t * c - BT) * c - t) * (s - t) = (AT - BT * c - t * (1 - c * c)) * (s - t) := by ring
          _ ≤ 0 := this
      · apply le_of_eq; ring

/-- If `inVoronoi` says yes and a part of the second side is beyond the first, then so is its nearest point. Here `t` is
the parameter on the side of length `b`, `u` on the one of length `a`. -/
theorem inVoronoi_sound {eps a b MA MT c AT BT t u : K} (he : 0 < eps) (ha : 0 ≤ a) (hb : 0 ≤ b) (hc : c * c ≤ 1)
    (h : inVoronoi eps a b MA MT c (-BT) (-AT) = true) (hpre : 0 < MT ∨ 0 < MT + b * MA) (o : SegOpt b a c AT BT t u) :
    0 ≤ MT + t * MA := by
  have hMA : MA ≠ 0 := fun e => by
    rw [inVoronoi, if_pos (by rw [e, abs_zero]; exact he)] at h; cases h
  have hne : ¬ |MA| < eps := fun hl => by rw [inVoronoi, if_pos hl] at h; cases h
  rw [inVoronoi, if_neg hne] at h
  obtain ⟨s, hs⟩ : ∃ s, s = clip (-MT / MA) 0 b := ⟨_, rfl⟩
  obtain ⟨w, hw⟩ : ∃ w, w = clip (s * c + -BT) 0 a := ⟨_, rfl⟩
  simp only [← hs, ← hw] at h
  have hsm := hs ▸ clip_mem (v := -MT / MA) hb
  have hwm := hw ▸ clip_mem (v := s * c + -BT) ha
  have hwo := clip_opt (v := s * c + -BT) ha o.u0 o.u1
  rw [← hw] at hwo
  have k1 := o.alongA s hsm.1 hsm.2
  have k2 := o.alongB w hwm.1 hwm.2
  have hcs : 0 ≤ (t - s) * (t - s) + (u - w) * (u - w) - 2 * c * ((t - s) * (u - w)) := by
    nlinarith [mul_self_nonneg ((u - w) - c * (t - s)), mul_self_nonneg (t - s)]
  have mono : (t - s) * (s - (w * c + AT)) ≤ 0 := by nlinarith
  rcases lt_or_gt_of_ne hMA with hneg | hpos
  · rw [if_neg (not_lt.2 hneg.le), decide_eq_true_eq] at h
    have hts : t ≤ s := by
      by_contra hn
      have : 0 < (t - s) * (s - (w * c + AT)) := mul_pos (sub_pos.2 (not_le.1 hn)) (by linarith)
      linarith
    have hb' : t * MA ≥ s * MA := mul_le_mul_of_nonpos_right hts hneg.le
    rcases clip_cases (v := -MT / MA) hb with ⟨h1, e⟩ | ⟨h1, e⟩ | ⟨-, -, e⟩
    · rw [div_lt_iff_of_neg hneg] at h1
      rcases hpre with h2 | h2
      · linarith
      · nlinarith
    · rw [lt_div_iff_of_neg hneg] at h1
      rw [hs, e] at hb'
      linarith
    · rw [hs, e, div_mul_cancel₀ _ hMA] at hb'
      linarith
  · rw [if_pos hpos, decide_eq_true_eq] at h
    have hts : s ≤ t := by
      by_contra hn
      have : 0 < (t - s) * (s - (w * c + AT)) := mul_pos_of_neg_of_neg (by linarith [not_le.1 hn]) (by linarith)
      linarith
    have hb' : s * MA ≤ t * MA := mul_le_mul_of_nonneg_right hts hpos.le
    rcases clip_cases (v := -MT / MA) hb with ⟨h1, e⟩ | ⟨h1, e⟩ | ⟨-, -, e⟩
    · rw [div_lt_iff₀ hpos] at h1
      rw [hs, e] at hb'
      linarith
    · rw [lt_div_iff₀ hpos] at h1
      rcases hpre with h2 | h2
      · nlinarith
      · linarith
    · rw [hs, e, div_mul_cancel₀ _ hMA] at hb'
      linarith

/-- The vector form. The first side is `s + t A`, `0 ≤ t ≤ α`, of a rectangle that extends from it against `N`; the
second is `q + u B`, `0 ≤ u ≤ β`, of a rectangle that extends from it against `M`. -/
theorem edge_sound {eps α β c AT BT MA MT BT' AT' NB NT : K} {A B N M s q : V3 K} (he : 0 < eps) (hα : 0 ≤ α) (hβ : 0 ≤ β)
    (AA : A.dot A = 1) (BB : B.dot B = 1) (AN : A.dot N = 0) (BM : B.dot M = 0)
    (ec : c = A.dot B) (eAT : AT = A.dot (q - s)) (eBT : BT = B.dot (q - s))
    (eMA : MA = M.dot A) (eMT : MT = M.dot (s - q)) (eBT' : BT' = B.dot (s - q)) (eAT' : AT' = A.dot (s - q))
    (eNB : NB = N.dot B) (eNT : NT = N.dot (q - s))
    (pre1 : 0 < MT ∨ 0 < MT + α * MA) (h1 : (0 < MT ∧ 0 < MT + α * MA) ∨ inVoronoi eps β α MA MT c BT' AT' = true)
    (pre2 : 0 < NT ∨ 0 < NT + β * NB) (h2 : (0 < NT ∧ 0 < NT + β * NB) ∨ inVoronoi eps α β NB NT c AT BT = true)
    {t u : K} (htu : segCoords α β c AT BT = (t, u)) :
    0 ≤ t ∧ t ≤ α ∧ 0 ≤ u ∧ u ≤ β ∧
      ∀ t' u' w z : K, 0 ≤ t' → t' ≤ α → 0 ≤ u' → u' ≤ β → 0 ≤ w → 0 ≤ z →
        ((q + u • B) - (s + t • A)).dot ((q + u • B) - (s + t • A)) ≤
          ((q + u' • B - z • M) - (s + t' • A - w • N)).dot ((q + u' • B - z • M) - (s + t' • A - w • N)) := by
  have hc : c * c ≤ 1 := by
    have : 0 ≤ (B - c • A).dot (B - c • A) := V3.dot_self_nonneg _
    have e : (B - c • A).dot (B - c • A) = B.dot B - 2 * c * A.dot B + c * c * A.dot A := by simp [V3.dot]; ring
    rw [e, AA, BB, ← ec] at this
    linarith
  have hpar : c * c = 1 → AT = c * BT := by
    intro h
    have e : (B - c • A).dot (B - c • A) = B.dot B - 2 * c * A.dot B + c * c * A.dot A := by simp [V3.dot]; ring
    rw [AA, BB, ← ec] at e
    have hz : B - c • A = 0 := V3.dot_self_eq_zero (by rw [e]; linear_combination -h)
    have hB : B.dot (q - s) = c * A.dot (q - s) := by
      have : (B - c • A).dot (q - s) = 0 := by rw [hz]; simp [V3.dot]
      have e2 : (B - c • A).dot (q - s) = B.dot (q - s) - c * A.dot (q - s) := by simp [V3.dot]; ring
      rw [e2] at this; linarith
    rw [eAT, eBT, hB, ← mul_assoc, h, one_mul]
  have o := segCoords_opt hα hβ hc hpar (AT := AT) (BT := BT)
  rw [htu] at o
  simp only at o
  have eBT2 : BT' = -BT := by rw [eBT', eBT]; simp [V3.dot]; ring
  have eAT2 : AT' = -AT := by rw [eAT', eAT]; simp [V3.dot]; ring
  have kM : 0 ≤ MT + t * MA := by
    rcases h1 with ⟨h1, h1'⟩ | h1
    · rcases le_total 0 MA with hm | hm
      · nlinarith [mul_nonneg o.t0 hm]
      · nlinarith [mul_le_mul_of_nonpos_right o.t1 hm]
    · rw [eBT2, eAT2] at h1
      exact inVoronoi_sound he hβ hα hc h1 pre1 o
  have kN : 0 ≤ NT + u * NB := by
    rcases h2 with ⟨h2, h2'⟩ | h2
    · rcases le_total 0 NB with hm | hm
      · nlinarith [mul_nonneg o.u0 hm]
      · nlinarith [mul_le_mul_of_nonpos_right o.u1 hm]
    · have o' : SegOpt β α c (-BT) (-AT) u t :=
        ⟨o.u0, o.u1, o.t0, o.t1, fun x x0 x1 => by have := o.alongB x x0 x1; nlinarith,
          fun x x0 x1 => by have := o.alongA x x0 x1; nlinarith⟩
      refine inVoronoi_sound he hα hβ hc ?_ pre2 o'
      rw [neg_neg, neg_neg]; exact h2
  refine ⟨o.t0, o.t1, o.u0, o.u1, fun t' u' w z ht0 ht1 hu0 hu1 hw hz => ?_⟩
  obtain ⟨D, hD⟩ : ∃ D, D = (q + u • B) - (s + t • A) := ⟨_, rfl⟩
  have dA : D.dot A = AT + u * c - t := by
    rw [hD, eAT, ec]
    have : ((q + u • B) - (s + t • A)).dot A = A.dot (q - s) + u * A.dot B - t * A.dot A := by simp [V3.dot]; ring
    rw [this, AA]; ring
  have dB : D.dot B = BT + u - t * c := by
    rw [hD, eBT, ec]
    have : ((q + u • B) - (s + t • A)).dot B = B.dot (q - s) + u * B.dot B - t * A.dot B := by simp [V3.dot]; ring
    rw [this, BB]; ring
  have dM : D.dot M = -(MT + t * MA) := by
    rw [hD, eMT, eMA]
    have : ((q + u • B) - (s + t • A)).dot M = -(M.dot (s - q) + t * M.dot A) + u * B.dot M := by simp [V3.dot]; ring
    rw [this, BM]; ring
  have dN : D.dot N = NT + u * NB := by
    rw [hD, eNT, eNB]
    have : ((q + u • B) - (s + t • A)).dot N = N.dot (q - s) + u * N.dot B - t * A.dot N := by simp [V3.dot]; ring
    rw [this, AN]; ring
  obtain ⟨X, hX⟩ : ∃ X, X = (q + u' • B - z • M) - (s + t' • A - w • N) := ⟨_, rfl⟩
  have e : D.dot X = D.dot D + D.dot B * (u' - u) - z * D.dot M - D.dot A * (t' - t) + w * D.dot N := by
    rw [hX]
    have : (q + u' • B - z • M) - (s + t' • A - w • N) = D + (u' - u) • B - z • M - (t' - t) • A + w • N := by
      rw [hD]; v3
    rw [this]; simp [V3.dot]; ring
  have g1 := o.alongA t' ht0 ht1
  have g2 := o.alongB u' hu0 hu1
  rw [← dA] at g1
  rw [← dB] at g2
  have g3 : 0 ≤ -(z * D.dot M) := by rw [dM]; have := mul_nonneg hz kM; linarith
  have g4 : 0 ≤ w * D.dot N := by rw [dN]; exact mul_nonneg hw kN
  have g5 : D.dot D ≤ D.dot X := by rw [e]; linarith
  have g6 : 0 ≤ (X - D).dot (X - D) := V3.dot_self_nonneg _
  have e6 : (X - D).dot (X - D) = X.dot X - 2 * D.dot X + D.dot D := by simp [V3.dot]; ring
  rw [← hD, ← hX]
  linarith

end RSS
end Fcl
