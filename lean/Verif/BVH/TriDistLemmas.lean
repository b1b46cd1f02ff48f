import Verif.BVH.TriDist
import Verif.BVH.TriLemmas

/-!
# Facts about the distance of two triangles
-/

namespace Fcl
namespace Tri
open V3

/-! ### Nearest points of two segments -/

theorem clamp_spec {num den : ℝ} (hden : 0 ≤ den) (hz : den = 0 → num = 0) :
    0 ≤ (quo num den).clamp ∧ (quo num den).clamp ≤ 1 ∧
      (∀ s : ℝ, 0 ≤ s → s ≤ 1 → (s - (quo num den).clamp) * (num - (quo num den).clamp * den) ≤ 0) ∧
      (den = 0 → (quo num den).clamp = 0) := by
  by_cases h : den = 0
  · have hn := hz h
    have e : (quo num den).clamp = 0 := by simp [quo, h, hn, Quo.clamp]
    rw [e, h, hn]
    simp
  · have hp : 0 < den := lt_of_le_of_ne hden (Ne.symm h)
    have e : (quo num den).clamp = if num / den < 0 then 0 else if num / den > 1 then 1 else num / den := by
      simp [quo, h, Quo.clamp]
    have hq : num / den * den = num := div_mul_cancel₀ _ h
    obtain ⟨x, hx⟩ : ∃ x, x = num / den := ⟨_, rfl⟩
    rw [e, ← hx]
    rw [← hx] at hq
    split_ifs with h1 h2
    · refine ⟨le_rfl, zero_le_one, fun s s0 s1 => ?_, fun h0 => absurd h0 h⟩
      nlinarith [mul_nonneg s0 (mul_nonneg hden (neg_nonneg.2 h1.le))]
    · refine ⟨zero_le_one, le_rfl, fun s s0 s1 => ?_, fun h0 => absurd h0 h⟩
      have h2 : 1 < x := h2
      nlinarith [mul_nonneg (sub_nonneg.2 s1) (mul_nonneg hden (sub_nonneg.2 h2.le))]
    · exact ⟨not_lt.1 h1, not_lt.1 h2, fun s s0 s1 => by rw [hq]; simp, fun h0 => absurd h0 h⟩

/-- Where the clamped quotient is. -/
theorem place_spec {num den : ℝ} (hden : 0 ≤ den) (hz : den = 0 → num = 0) :
    (quo num den).place = .low ∧ num ≤ 0 ∨ (quo num den).place = .high ∧ den ≤ num ∧ 0 < den ∨
      ∃ x : ℝ, (quo num den).place = .mid x ∧ 0 < x ∧ x < 1 ∧ x * den = num ∧ 0 < den := by
  by_cases h : den = 0
  · have hn := hz h
    left
    simp [quo, h, hn, Quo.place]
  · have hp : 0 < den := lt_of_le_of_ne hden (Ne.symm h)
    have e : (quo num den).place = if num / den ≤ 0 then .low else if num / den ≥ 1 then .high else .mid (num / den) := by
      simp [quo, h, Quo.place]
    have hq : num / den * den = num := div_mul_cancel₀ _ h
    obtain ⟨x, hx⟩ : ∃ x, x = num / den := ⟨_, rfl⟩
    rw [e, ← hx]
    rw [← hx] at hq
    split_ifs with h1 h2
    · exact .inl ⟨rfl, by nlinarith⟩
    · have h2 : 1 ≤ x := h2
      exact .inr (.inl ⟨rfl, by nlinarith, hp⟩)
    · exact .inr (.inr ⟨x, rfl, not_le.1 h1, not_le.1 h2, hq, hp⟩)

/-- The vector between the nearest points of two segments; `k` is positive. -/
structure SegSpec (P A Q B : V3 ℝ) (r : Seg ℝ) : Prop where
  near : ∃ t u : ℝ, 0 ≤ t ∧ t ≤ 1 ∧ 0 ≤ u ∧ u ≤ 1 ∧ r.X = P + t • A ∧ r.Y = Q + u • B ∧
    (∀ s : ℝ, 0 ≤ s → s ≤ 1 → (s - t) * A.dot (r.Y - r.X) ≤ 0) ∧ ∀ s : ℝ, 0 ≤ s → s ≤ 1 → 0 ≤ (s - u) * B.dot (r.Y - r.X)
  vec : (∃ k : ℝ, 0 < k ∧ r.vec = k • (r.Y - r.X)) ∨ (r.Y - r.X = 0 ∧ A.dot r.vec = 0 ∧ B.dot r.vec = 0)

theorem opt_low {AA BB AB AT BT th t0 : ℝ} (hB : 0 ≤ BB) (hd : 0 ≤ AA * BB - AB * AB)
    (h1 : (t0 - th) * (AT * BB - BT * AB - th * (AA * BB - AB * AB)) ≤ 0) (h2 : (th - t0) * (AT - t0 * AA) ≤ 0)
    (h3 : th * AB - BT ≤ 0) : 0 ≤ BT - t0 * AB := by
  by_contra h
  have hp : 0 < (t0 - th) * AB := by linarith
  have a := mul_nonneg hB (neg_nonneg.2 h2)
  have b := mul_pos hp (neg_pos.2 (not_le.1 h))
  have c := mul_nonneg hd (mul_self_nonneg (t0 - th))
  nlinarith

theorem opt_high {AA BB AB AT BT th t0 : ℝ} (hB : 0 ≤ BB) (hd : 0 ≤ AA * BB - AB * AB)
    (h1 : (t0 - th) * (AT * BB - BT * AB - th * (AA * BB - AB * AB)) ≤ 0) (h2 : (th - t0) * (AB + AT - t0 * AA) ≤ 0)
    (h3 : BB ≤ th * AB - BT) : BT + BB - t0 * AB ≤ 0 := by
  by_contra h
  have hp : 0 < -((t0 - th) * AB) := by linarith
  have a := mul_nonneg hB (neg_nonneg.2 h2)
  have b := mul_pos hp (not_le.1 h)
  have c := mul_nonneg hd (mul_self_nonneg (t0 - th))
  nlinarith

theorem place_val {t : ℝ} (h0 : 0 ≤ t) (h1 : t ≤ 1) : (Quo.val t).place = .low ∧ t = 0 ∨ (Quo.val t).place = .high ∧ t = 1 ∨
    (Quo.val t).place = .mid t ∧ 0 < t ∧ t < 1 := by
  simp only [Quo.place]
  split_ifs with a b
  · exact .inl ⟨rfl, le_antisymm a h0⟩
  · exact .inr (.inl ⟨rfl, le_antisymm h1 b⟩)
  · exact .inr (.inr ⟨rfl, not_le.1 a, not_le.1 b⟩)

theorem segPoints_spec (P A Q B : V3 ℝ) : SegSpec P A Q B (segPoints P A Q B) := by
  obtain ⟨T, hT⟩ : ∃ T, T = Q - P := ⟨_, rfl⟩
  have hQ : Q = P + T := by rw [hT]; v3
  have hAA : 0 ≤ A.dot A := dot_self_nonneg A
  have hBB : 0 ≤ B.dot B := dot_self_nonneg B
  have hA0 : A.dot A = 0 → A = 0 := dot_self_eq_zero
  have hB0 : B.dot B = 0 → B = 0 := dot_self_eq_zero
  have hden : 0 ≤ A.dot A * B.dot B - A.dot B * A.dot B := by
    have : A.dot A * B.dot B - A.dot B * A.dot B = (A.cross B).dot (A.cross B) := by simp only [dot, cross]; ring
    rw [this]; exact dot_self_nonneg _
  have hnum : A.dot A * B.dot B - A.dot B * A.dot B = 0 → A.dot T * B.dot B - B.dot T * A.dot B = 0 := fun h => by
    have e : (B.dot B • A - A.dot B • B).dot (B.dot B • A - A.dot B • B) = B.dot B * (A.dot A * B.dot B - A.dot B * A.dot B) := by
      simp only [dot, sub_x, sub_y, sub_z, smul_x, smul_y, smul_z]; ring
    rw [h, mul_zero] at e
    have e := dot_self_eq_zero e
    have : A.dot T * B.dot B - B.dot T * A.dot B = (B.dot B • A - A.dot B • B).dot T := by
      simp only [dot, sub_x, sub_y, sub_z, smul_x, smul_y, smul_z]; ring
    rw [this, e]; simp [dot]
  obtain ⟨c0, c1, ck, cz⟩ := clamp_spec hden hnum
  obtain ⟨th, hth⟩ : ∃ th, th = (quo (A.dot T * B.dot B - B.dot T * A.dot B) (A.dot A * B.dot B - A.dot B * A.dot B)).clamp :=
    ⟨_, rfl⟩
  rw [← hth] at c0 c1 ck cz
  simp only [segPoints]
  rw [← hT, ← hth]
  rcases place_spec (num := th * A.dot B - B.dot T) hBB (fun h => by rw [hB0 h]; simp [dot]) with
    ⟨e, h⟩ | ⟨e, h, hBp⟩ | ⟨u, e, u0, u1, h, hBp⟩
  · rw [e]
    simp only []
    rcases place_spec (num := A.dot T) hAA (fun h => by rw [hA0 h]; simp [dot]) with
      ⟨e, g⟩ | ⟨e, g, hAp⟩ | ⟨t, e, t0, t1, g, hAp⟩
    · rw [e]
      simp only []
      have k : ∀ s : ℝ, 0 ≤ s → s ≤ 1 → (s - 0) * (A.dot T - 0 * A.dot A) ≤ 0 := fun s s0 s1 => by nlinarith
      have o := opt_low hBB hden (ck 0 le_rfl zero_le_one) (k th c0 c1) h
      refine ⟨⟨0, 0, le_rfl, zero_le_one, le_rfl, zero_le_one, by v3, by v3, fun s s0 s1 => ?_, fun s s0 s1 => ?_⟩,
        .inl ⟨1, one_pos, by rw [hT]; v3⟩⟩
      · have := k s s0 s1
        show (s - 0) * A.dot (Q - P) ≤ 0
        rw [← hT]; linarith
      · show 0 ≤ (s - 0) * B.dot (Q - P)
        rw [← hT]; nlinarith
    · rw [e]
      simp only []
      have k : ∀ s : ℝ, 0 ≤ s → s ≤ 1 → (s - 1) * (A.dot T - 1 * A.dot A) ≤ 0 := fun s s0 s1 => by nlinarith
      have o := opt_low hBB hden (ck 1 zero_le_one le_rfl) (k th c0 c1) h
      refine ⟨⟨1, 0, zero_le_one, le_rfl, le_rfl, zero_le_one, by v3, by v3, fun s s0 s1 => ?_, fun s s0 s1 => ?_⟩,
        .inl ⟨1, one_pos, by v3⟩⟩
      · have := k s s0 s1
        show (s - 1) * A.dot (Q - (P + A)) ≤ 0
        have e : Q - (P + A) = T - A := by rw [hT]; v3
        rw [e, dot_sub]; linarith
      · show 0 ≤ (s - 0) * B.dot (Q - (P + A))
        have e : Q - (P + A) = T - A := by rw [hT]; v3
        rw [e, dot_sub, dot_comm B A]
        nlinarith
    · rw [e]
      simp only []
      have k : ∀ s : ℝ, 0 ≤ s → s ≤ 1 → (s - t) * (A.dot T - t * A.dot A) ≤ 0 := fun s s0 s1 => by rw [g]; simp
      have o := opt_low hBB hden (ck t t0.le t1.le) (k th c0 c1) h
      have e : Q - (P + t • A) = T - t • A := by rw [hT]; v3
      refine ⟨⟨t, 0, t0.le, t1.le, le_rfl, zero_le_one, rfl, by v3, fun s s0 s1 => ?_, fun s s0 s1 => ?_⟩,
        .inl ⟨A.dot A, hAp, ?_⟩⟩
      · have := k s s0 s1
        show (s - t) * A.dot (Q - (P + t • A)) ≤ 0
        rw [e, dot_sub, dot_smul]; linarith
      · show 0 ≤ (s - 0) * B.dot (Q - (P + t • A))
        rw [e, dot_sub, dot_smul, dot_comm B A]
        nlinarith
      · show A.cross (T.cross A) = A.dot A • (Q - (P + t • A))
        rw [e]
        have : A.cross (T.cross A) = A.dot A • T - A.dot T • A := by simp only [cross, dot]; v3
        rw [this, ← g]; v3
  · rw [e]
    simp only []
    have hT' : Q + B - P = T + B := by rw [hT]; v3
    rcases place_spec (num := A.dot B + A.dot T) hAA (fun h => by rw [hA0 h]; simp [dot]) with
      ⟨e, g⟩ | ⟨e, g, hAp⟩ | ⟨t, e, t0, t1, g, hAp⟩
    · rw [e]
      simp only []
      have k : ∀ s : ℝ, 0 ≤ s → s ≤ 1 → (s - 0) * (A.dot B + A.dot T - 0 * A.dot A) ≤ 0 := fun s s0 s1 => by nlinarith
      have o := opt_high hBB hden (ck 0 le_rfl zero_le_one) (k th c0 c1) h
      refine ⟨⟨0, 1, le_rfl, zero_le_one, zero_le_one, le_rfl, by v3, by v3, fun s s0 s1 => ?_, fun s s0 s1 => ?_⟩,
        .inl ⟨1, one_pos, by v3⟩⟩
      · have := k s s0 s1
        show (s - 0) * A.dot (Q + B - P) ≤ 0
        rw [hT', dot_add]; linarith
      · show 0 ≤ (s - 1) * B.dot (Q + B - P)
        rw [hT', dot_add]; nlinarith
    · rw [e]
      simp only []
      have k : ∀ s : ℝ, 0 ≤ s → s ≤ 1 → (s - 1) * (A.dot B + A.dot T - 1 * A.dot A) ≤ 0 := fun s s0 s1 => by nlinarith
      have o := opt_high hBB hden (ck 1 zero_le_one le_rfl) (k th c0 c1) h
      have e : Q + B - (P + A) = T + B - A := by rw [hT]; v3
      refine ⟨⟨1, 1, zero_le_one, le_rfl, zero_le_one, le_rfl, by v3, by v3, fun s s0 s1 => ?_, fun s s0 s1 => ?_⟩,
        .inl ⟨1, one_pos, by v3⟩⟩
      · have := k s s0 s1
        show (s - 1) * A.dot (Q + B - (P + A)) ≤ 0
        rw [e, dot_sub, dot_add]; linarith
      · show 0 ≤ (s - 1) * B.dot (Q + B - (P + A))
        rw [e, dot_sub, dot_add, dot_comm B A]
        nlinarith
    · rw [e]
      simp only []
      have k : ∀ s : ℝ, 0 ≤ s → s ≤ 1 → (s - t) * (A.dot B + A.dot T - t * A.dot A) ≤ 0 := fun s s0 s1 => by rw [g]; simp
      have o := opt_high hBB hden (ck t t0.le t1.le) (k th c0 c1) h
      have e : Q + B - (P + t • A) = T + B - t • A := by rw [hT]; v3
      refine ⟨⟨t, 1, t0.le, t1.le, zero_le_one, le_rfl, rfl, by v3, fun s s0 s1 => ?_, fun s s0 s1 => ?_⟩,
        .inl ⟨A.dot A, hAp, ?_⟩⟩
      · have := k s s0 s1
        show (s - t) * A.dot (Q + B - (P + t • A)) ≤ 0
        rw [e, dot_sub, dot_smul, dot_add]; linarith
      · show 0 ≤ (s - 1) * B.dot (Q + B - (P + t • A))
        rw [e, dot_sub, dot_smul, dot_add, dot_comm B A]
        nlinarith
      · show A.cross ((Q + B - P).cross A) = A.dot A • (Q + B - (P + t • A))
        rw [e, hT']
        have : A.cross ((T + B).cross A) = A.dot A • (T + B) - (A.dot B + A.dot T) • A := by simp only [cross, dot]; v3
        rw [this, ← g]; v3
  · rw [e]
    simp only []
    have hV : ∀ X, X = P + th • A → Q + u • B - X = T + u • B - th • A := fun X h => by rw [h, hT]; v3
    -- the vector is perpendicular to the second segment, and optimal along the first
    have kB : B.dot (T + u • B - th • A) = 0 := by
      rw [dot_sub, dot_add, dot_smul, dot_smul, dot_comm B A]; linarith
    have kA : ∀ s : ℝ, 0 ≤ s → s ≤ 1 → (s - th) * A.dot (T + u • B - th • A) ≤ 0 := fun s s0 s1 => by
      have := ck s s0 s1
      have e : B.dot B * A.dot (T + u • B - th • A) = A.dot T * B.dot B - B.dot T * A.dot B - th * (A.dot A * B.dot B - A.dot B * A.dot B) := by
        rw [dot_sub, dot_add, dot_smul, dot_smul]
        linear_combination A.dot B * h
      rw [← e] at this
      by_contra hn
      have := mul_pos hBp (not_le.1 hn)
      nlinarith
    rcases place_val c0 c1 with ⟨e, g⟩ | ⟨e, g⟩ | ⟨e, g0, g1⟩
    · rw [e]
      simp only []
      have hX : P = P + th • A := by rw [g]; v3
      refine ⟨⟨th, u, c0, c1, u0.le, u1.le, hX, rfl, fun s s0 s1 => ?_, fun s s0 s1 => ?_⟩, .inl ⟨B.dot B, hBp, ?_⟩⟩
      · show (s - th) * A.dot (Q + u • B - P) ≤ 0
        rw [hV _ hX]; exact kA s s0 s1
      · show 0 ≤ (s - u) * B.dot (Q + u • B - P)
        rw [hV _ hX, kB, mul_zero]
      · show B.cross (T.cross B) = B.dot B • (Q + u • B - P)
        rw [hV _ hX]
        have : B.cross (T.cross B) = B.dot B • T - B.dot T • B := by simp only [cross, dot]; v3
        have h2 : B.dot T = - (u * B.dot B) := by rw [g] at h; linarith
        rw [this, h2, g]; v3
    · rw [e]
      simp only []
      have hX : P + A = P + th • A := by rw [g]; v3
      refine ⟨⟨th, u, c0, c1, u0.le, u1.le, hX, rfl, fun s s0 s1 => ?_, fun s s0 s1 => ?_⟩, .inl ⟨B.dot B, hBp, ?_⟩⟩
      · show (s - th) * A.dot (Q + u • B - (P + A)) ≤ 0
        rw [hV _ hX]; exact kA s s0 s1
      · show 0 ≤ (s - u) * B.dot (Q + u • B - (P + A))
        rw [hV _ hX, kB, mul_zero]
      · show B.cross ((Q - (P + A)).cross B) = B.dot B • (Q + u • B - (P + A))
        have e : Q - (P + A) = T - A := by rw [hT]; v3
        rw [hV _ hX, e]
        have : B.cross ((T - A).cross B) = B.dot B • (T - A) - (B.dot T - A.dot B) • B := by simp only [cross, dot]; v3
        have h2 : B.dot T - A.dot B = - (u * B.dot B) := by rw [g] at h; linarith
        rw [this, h2, g]; v3
    · rw [e]
      simp only []
      have hA : A.dot (T + u • B - th • A) = 0 := by
        have a := kA 0 le_rfl zero_le_one
        have b := kA 1 zero_le_one le_rfl
        nlinarith
      have hc : A.cross B ≠ 0 := fun h0 => by
        have : A.dot A * B.dot B - A.dot B * A.dot B = (A.cross B).dot (A.cross B) := by simp only [dot, cross]; ring
        rw [h0] at this
        rw [cz (this.trans (by simp [dot]))] at g0
        exact lt_irrefl _ g0
      obtain ⟨w, hw⟩ : ∃ w, w = (if (A.cross B).dot T < 0 then -(A.cross B) else A.cross B) := ⟨_, rfl⟩
      rw [← hw]
      have wA : A.dot w = 0 := by
        rw [hw]; split_ifs
        · rw [dot_neg, Sep.cross_dot_left, neg_zero]
        · exact Sep.cross_dot_left _ _
      have wB : B.dot w = 0 := by
        rw [hw]; split_ifs
        · rw [dot_neg, Sep.cross_dot_right, neg_zero]
        · exact Sep.cross_dot_right _ _
      have wT : 0 ≤ w.dot T := by
        rw [hw]; split_ifs with h0
        · rw [neg_dot]; linarith
        · exact not_lt.1 h0
      have w0 : w ≠ 0 := by
        rw [hw]; split_ifs
        · intro h0; apply hc
          have hx := congrArg V3.x h0
          have hy := congrArg V3.y h0
          have hz := congrArg V3.z h0
          simp only [neg_x, neg_y, neg_z, zero_x, zero_y, zero_z, neg_eq_zero] at hx hy hz
          exact ext' hx hy hz
        · exact hc
      have hVk : ∃ k : ℝ, T + u • B - th • A = k • w := by
        obtain ⟨k, hk⟩ := Sep.parallel_cross hc hA kB
        rw [hk, hw]; split_ifs
        · exact ⟨-k, by v3⟩
        · exact ⟨k, rfl⟩
      obtain ⟨k, hk⟩ := hVk
      have ww : 0 < w.dot w := lt_of_le_of_ne (dot_self_nonneg w) fun h0 => w0 (dot_self_eq_zero h0.symm)
      have hk0 : 0 ≤ k := by
        have : w.dot (T + u • B - th • A) = w.dot T := by
          rw [dot_sub, dot_add, dot_smul, dot_smul, dot_comm w A, dot_comm w B, wA, wB]; ring
        rw [hk, dot_smul] at this
        by_contra hn
        have := mul_pos (neg_pos.2 (not_le.1 hn)) ww
        linarith
      have e2 := hV _ rfl
      refine ⟨⟨th, u, c0, c1, u0.le, u1.le, rfl, rfl, fun s s0 s1 => ?_, fun s s0 s1 => ?_⟩, ?_⟩
      · show (s - th) * A.dot (Q + u • B - (P + th • A)) ≤ 0
        rw [e2]; exact kA s s0 s1
      · show 0 ≤ (s - u) * B.dot (Q + u • B - (P + th • A))
        rw [e2, kB, mul_zero]
      · show (∃ k : ℝ, 0 < k ∧ w = k • (Q + u • B - (P + th • A))) ∨
          (Q + u • B - (P + th • A) = 0 ∧ A.dot w = 0 ∧ B.dot w = 0)
        rw [e2, hk]
        rcases hk0.lt_or_eq with hp | h0
        · left
          refine ⟨1 / k, by positivity, ?_⟩
          apply V3.ext' <;> simp <;> field_simp
        · right
          refine ⟨?_, wA, wB⟩
          rw [← h0]; v3

/-! ### The points on the sides -/

/-- A point of a side of the triangle. -/
def OnEdge (U : Tri ℝ) (x : V3 ℝ) : Prop := ∃ s ∈ U.sides, ∃ r : ℝ, 0 ≤ r ∧ r ≤ 1 ∧ x = s.1 + r • s.2.1

/-- The projection to the plane lies within the triangle, not on a side. -/
def Strict (U : Tri ℝ) (x : V3 ℝ) : Prop :=
  0 < (x - U.a).dot (U.nor.cross U.e1) ∧ 0 < (x - U.b).dot (U.nor.cross U.e2) ∧ 0 < (x - U.c).dot (U.nor.cross U.e3)

theorem over_iff {U : Tri ℝ} {x : V3 ℝ} : over U x = true ↔ Strict U x := by
  simp [over, Strict, and_assoc]

theorem sides_vert {U : Tri ℝ} {s : V3 ℝ × V3 ℝ × V3 ℝ} (hs : s ∈ U.sides) :
    s.1 ∈ U.verts ∧ s.1 + s.2.1 ∈ U.verts ∧ s.2.2 ∈ U.verts ∧ ∀ v ∈ U.verts, v = s.1 ∨ v = s.1 + s.2.1 ∨ v = s.2.2 := by
  simp only [sides, List.mem_cons, List.not_mem_nil, or_false] at hs
  have e1 : U.a + U.e1 = U.b := by simp only [e1]; v3
  have e2 : U.b + U.e2 = U.c := by simp only [e2]; v3
  have e3 : U.c + U.e3 = U.a := by simp only [e3]; v3
  rcases hs with rfl | rfl | rfl <;> simp only [verts, List.mem_cons, List.not_mem_nil, or_false, e1, e2, e3] <;> tauto

theorem onEdge_pts {U : Tri ℝ} {x : V3 ℝ} (h : U.OnEdge x) : x ∈ U.pts := by
  obtain ⟨s, hs, r, h0, h1, rfl⟩ := h
  obtain ⟨a, b, -, -⟩ := sides_vert hs
  have := HullOf.seg r h0 h1 (vert_mem a : HullOf [U.a, U.b, U.c] _) (vert_mem b)
  have e : (1 - r) • s.1 + r • (s.1 + s.2.1) = s.1 + r • s.2.1 := by v3
  rw [e] at this
  exact this

theorem onEdge_comb {U : Tri ℝ} {α β γ : ℝ} (ha : 0 ≤ α) (hb : 0 ≤ β) (hc : 0 ≤ γ) (hs : α + β + γ = 1)
    (h0 : α = 0 ∨ β = 0 ∨ γ = 0) {x : V3 ℝ} (hx : x = α • U.a + β • U.b + γ • U.c) : U.OnEdge x := by
  rcases h0 with h | h | h
  · refine ⟨(U.b, U.e2, U.a), by simp [sides], γ, hc, by linarith, ?_⟩
    have : β = 1 - γ := by linarith
    rw [hx, h, this]; simp only [e2]; v3
  · refine ⟨(U.c, U.e3, U.b), by simp [sides], α, ha, by linarith, ?_⟩
    have : γ = 1 - α := by linarith
    rw [hx, h, this]; simp only [e3]; v3
  · refine ⟨(U.a, U.e1, U.c), by simp [sides], β, hb, by linarith, ?_⟩
    have : α = 1 - β := by linarith
    rw [hx, h, this]; simp only [e1]; v3

/-- The sides of the triangle around which the point lies: their weights are the barycentric coordinates. -/
theorem bary {U : Tri ℝ} {x : V3 ℝ} (hx : (x - U.a).dot U.nor = 0) :
    U.nor.dot U.nor • x = (x - U.b).dot (U.nor.cross U.e2) • U.a + (x - U.c).dot (U.nor.cross U.e3) • U.b +
      (x - U.a).dot (U.nor.cross U.e1) • U.c := by
  have e : U.nor.dot U.nor • x = (x - U.b).dot (U.nor.cross U.e2) • U.a + (x - U.c).dot (U.nor.cross U.e3) • U.b +
      (x - U.a).dot (U.nor.cross U.e1) • U.c + (x - U.a).dot U.nor • U.nor := by
    simp only [nor, e1, e2, e3, dot, cross]
    apply V3.ext' <;> simp only [smul_x, smul_y, smul_z, add_x, add_y, add_z, sub_x, sub_y, sub_z] <;> ring
  rw [hx] at e
  rw [e]; v3

theorem bary_sum (U : Tri ℝ) (x : V3 ℝ) :
    (x - U.b).dot (U.nor.cross U.e2) + (x - U.c).dot (U.nor.cross U.e3) + (x - U.a).dot (U.nor.cross U.e1) = U.nor.dot U.nor := by
  simp only [nor, e1, e2, e3, dot, cross, sub_x, sub_y, sub_z]; ring

theorem nor_pos {U : Tri ℝ} (hU : U.nor ≠ 0) : 0 < U.nor.dot U.nor :=
  lt_of_le_of_ne (dot_self_nonneg _) fun h => hU (dot_self_eq_zero h.symm)

theorem bary' {U : Tri ℝ} (hU : U.nor ≠ 0) {x : V3 ℝ} (hx : (x - U.a).dot U.nor = 0) :
    x = ((x - U.b).dot (U.nor.cross U.e2) / U.nor.dot U.nor) • U.a + ((x - U.c).dot (U.nor.cross U.e3) / U.nor.dot U.nor) • U.b +
      ((x - U.a).dot (U.nor.cross U.e1) / U.nor.dot U.nor) • U.c := by
  have h := nor_pos hU
  have e : x = (1 / U.nor.dot U.nor) • (U.nor.dot U.nor • x) := by
    apply V3.ext' <;> simp only [smul_x, smul_y, smul_z] <;> field_simp
  refine e.trans ?_
  rw [bary hx]
  apply V3.ext' <;> simp only [smul_x, smul_y, smul_z, add_x, add_y, add_z] <;> ring

theorem strict_pts {U : Tri ℝ} (hU : U.nor ≠ 0) {x : V3 ℝ} (hx : (x - U.a).dot U.nor = 0) (h : U.Strict x) : x ∈ U.pts := by
  have hp := nor_pos hU
  have := bary' hU hx
  rw [this]
  refine Ccd.comb3 U.pts_convex (vert_mem (by simp [verts])) (vert_mem (by simp [verts])) (vert_mem (by simp [verts]))
    (div_pos h.2.1 hp).le (div_pos h.2.2 hp).le (div_pos h.1 hp).le ?_
  rw [← add_div, ← add_div, bary_sum, div_self hp.ne']

/-- A point with nonnegative weights, one of them zero, is on a side. -/
theorem onEdge_weights {U : Tri ℝ} (hU : U.nor ≠ 0) {x : V3 ℝ} (hx : (x - U.a).dot U.nor = 0)
    (h1 : 0 ≤ (x - U.a).dot (U.nor.cross U.e1)) (h2 : 0 ≤ (x - U.b).dot (U.nor.cross U.e2)) (h3 : 0 ≤ (x - U.c).dot (U.nor.cross U.e3))
    (h0 : (x - U.a).dot (U.nor.cross U.e1) = 0 ∨ (x - U.b).dot (U.nor.cross U.e2) = 0 ∨ (x - U.c).dot (U.nor.cross U.e3) = 0) :
    U.OnEdge x := by
  have hp := nor_pos hU
  refine onEdge_comb (div_nonneg h2 hp.le) (div_nonneg h3 hp.le) (div_nonneg h1 hp.le)
    (by rw [← add_div, ← add_div, bary_sum, div_self hp.ne']) ?_ (bary' hU hx)
  rcases h0 with h | h | h
  · exact .inr (.inr (by rw [h, zero_div]))
  · exact .inl (by rw [h, zero_div])
  · exact .inr (.inl (by rw [h, zero_div]))

theorem pts_comb {U : Tri ℝ} {x : V3 ℝ} (hx : x ∈ U.pts) :
    ∃ α β γ : ℝ, 0 ≤ α ∧ 0 ≤ β ∧ 0 ≤ γ ∧ α + β + γ = 1 ∧ x = α • U.a + β • U.b + γ • U.c := by
  obtain ⟨v, w, v0, w0, vw, rfl⟩ := Ccd.hull_three hx
  exact ⟨1 - v - w, v, w, by linarith, v0, w0, by ring, by v3⟩

theorem comb_weights {U : Tri ℝ} {α β γ : ℝ} (hs : α + β + γ = 1) :
    (α • U.a + β • U.b + γ • U.c - U.a).dot U.nor = 0 ∧
    (α • U.a + β • U.b + γ • U.c - U.b).dot (U.nor.cross U.e2) = α * U.nor.dot U.nor ∧
    (α • U.a + β • U.b + γ • U.c - U.c).dot (U.nor.cross U.e3) = β * U.nor.dot U.nor ∧
    (α • U.a + β • U.b + γ • U.c - U.a).dot (U.nor.cross U.e1) = γ * U.nor.dot U.nor := by
  have h : α = 1 - β - γ := by linarith
  subst h
  refine ⟨?_, ?_, ?_, ?_⟩ <;>
  · simp only [nor, e1, e2, e3, dot, cross, sub_x, sub_y, sub_z, add_x, add_y, add_z, smul_x, smul_y, smul_z]; ring

theorem pts_plane {U : Tri ℝ} {x : V3 ℝ} (hx : x ∈ U.pts) : (x - U.a).dot U.nor = 0 := by
  obtain ⟨α, β, γ, -, -, -, hs, rfl⟩ := pts_comb hx
  exact (comb_weights hs).1

/-- The points of a triangle with all its vertices on a line are on the sides. -/
theorem flat_onEdge {U : Tri ℝ} (hU : U.nor = 0) {x : V3 ℝ} (hx : x ∈ U.pts) : U.OnEdge x := by
  obtain ⟨α, β, γ, ha, hb, hc, hs, rfl⟩ := pts_comb hx
  have hα : α = 1 - β - γ := by linarith
  by_cases he : U.b - U.a = 0
  · have hx := congrArg V3.x he
    have hy := congrArg V3.y he
    have hz := congrArg V3.z he
    simp only [sub_x, sub_y, sub_z, zero_x, zero_y, zero_z] at hx hy hz
    refine onEdge_comb (α := α + β) (β := 0) (γ := γ) (by linarith) le_rfl hc (by linarith) (.inr (.inl rfl)) ?_
    apply V3.ext' <;> simp only [smul_x, smul_y, smul_z, add_x, add_y, add_z]
    · linear_combination β * hx
    · linear_combination β * hy
    · linear_combination β * hz
  · have hee : (U.b - U.a).dot (U.b - U.a) ≠ 0 := fun h => he (dot_self_eq_zero h)
    obtain ⟨k, hk⟩ : ∃ k : ℝ, U.c = U.a + k • (U.b - U.a) := by
      refine ⟨(U.b - U.a).dot (U.c - U.a) / (U.b - U.a).dot (U.b - U.a), ?_⟩
      have h0 : (U.b - U.a).dot (U.b - U.a) • (U.c - U.a) - (U.b - U.a).dot (U.c - U.a) • (U.b - U.a) =
          ((U.b - U.a).cross (U.c - U.a)).cross (U.b - U.a) := by simp only [cross, dot]; v3
      rw [← nor_eq, hU] at h0
      have hx := congrArg V3.x h0
      have hy := congrArg V3.y h0
      have hz := congrArg V3.z h0
      obtain ⟨E, hE⟩ : ∃ E, E = (U.b - U.a).dot (U.b - U.a) := ⟨_, rfl⟩
      obtain ⟨F, hF⟩ : ∃ F, F = (U.b - U.a).dot (U.c - U.a) := ⟨_, rfl⟩
      rw [← hE] at hee
      rw [← hE, ← hF] at hx hy hz ⊢
      simp only [sub_x, sub_y, sub_z, smul_x, smul_y, smul_z, zero_x, zero_y, zero_z, cross, zero_mul, _root_.sub_self] at hx hy hz
      apply V3.ext' <;> simp only [smul_x, smul_y, smul_z, add_x, add_y, add_z, sub_x, sub_y, sub_z] <;> field_simp <;> linarith
    rw [hk, hα]
    rcases lt_or_ge k 0 with h | h
    · have h1 : 0 < 1 - k := by linarith
      refine ⟨(U.b, U.e2, U.a), by simp [sides], (1 - (β + k * γ)) / (1 - k), div_nonneg (by nlinarith) h1.le,
        (div_le_one h1).2 (by nlinarith), ?_⟩
      have e : U.e2 = (k - 1) • (U.b - U.a) := by simp only [e2]; rw [hk]; v3
      rw [e]
      apply V3.ext' <;> simp only [smul_x, smul_y, smul_z, add_x, add_y, add_z, sub_x, sub_y, sub_z] <;> field_simp <;> ring
    · rcases le_or_gt k 1 with h' | h'
      · refine ⟨(U.a, U.e1, U.c), by simp [sides], β + k * γ, by positivity, by nlinarith, ?_⟩
        simp only [e1]; v3
      · have h1 : 0 < k := by linarith
        refine ⟨(U.c, U.e3, U.b), by simp [sides], 1 - (β + k * γ) / k, ?_, ?_, ?_⟩
        · rw [sub_nonneg]; exact (div_le_one h1).2 (by nlinarith)
        · rw [sub_le_self_iff]; positivity
        · simp only [e3]
          rw [hk]
          apply V3.ext' <;> simp only [smul_x, smul_y, smul_z, add_x, add_y, add_z, sub_x, sub_y, sub_z] <;> field_simp <;> ring

theorem pts_cases {U : Tri ℝ} {x : V3 ℝ} (hx : x ∈ U.pts) : U.OnEdge x ∨ U.nor ≠ 0 ∧ U.Strict x := by
  by_cases hU : U.nor = 0
  · exact .inl (flat_onEdge hU hx)
  obtain ⟨α, β, γ, ha, hb, hc, hs, rfl⟩ := pts_comb hx
  by_cases h : α = 0 ∨ β = 0 ∨ γ = 0
  · exact .inl (onEdge_comb ha hb hc hs h rfl)
  · push Not at h
    obtain ⟨-, w2, w3, w1⟩ := comb_weights (U := U) hs
    have hp := nor_pos hU
    refine .inr ⟨hU, ?_, ?_, ?_⟩
    · rw [w1]; exact mul_pos (lt_of_le_of_ne hc (Ne.symm h.2.2)) hp
    · rw [w2]; exact mul_pos (lt_of_le_of_ne ha (Ne.symm h.1)) hp
    · rw [w3]; exact mul_pos (lt_of_le_of_ne hb (Ne.symm h.2.1)) hp

/-! ### Leaving a triangle -/

theorem first_zero : ∀ l : List (ℝ × ℝ), (∀ p ∈ l, 0 < p.1) → (∀ p ∈ l, 0 < p.2) ∨
    ∃ r : ℝ, 0 ≤ r ∧ r ≤ 1 ∧ (∀ p ∈ l, 0 ≤ (1 - r) * p.1 + r * p.2) ∧ ∃ p ∈ l, (1 - r) * p.1 + r * p.2 = 0
  | [], _ => .inl (by simp)
  | (a, b) :: l, h => by
    have ha : 0 < a := h (a, b) (by simp)
    have hl := fun p hp => h p (List.mem_cons_of_mem _ hp)
    have zero : b ≤ 0 → 0 ≤ a / (a - b) ∧ a / (a - b) ≤ 1 ∧ (1 - a / (a - b)) * a + a / (a - b) * b = 0 := fun hb => by
      have : 0 < a - b := by linarith
      refine ⟨by positivity, (div_le_one this).2 (by linarith), ?_⟩
      field_simp; ring
    rcases first_zero l hl with hb | ⟨r, r0, r1, hr, p, hp, hz⟩
    · rcases lt_or_ge 0 b with h0 | h0
      · exact .inl fun p hp => by
          rcases List.mem_cons.1 hp with rfl | hp
          · exact h0
          · exact hb p hp
      · obtain ⟨z0, z1, zz⟩ := zero h0
        refine .inr ⟨_, z0, z1, fun p hp => ?_, (a, b), by simp, zz⟩
        rcases List.mem_cons.1 hp with rfl | hp
        · exact zz.ge
        · exact add_nonneg (mul_nonneg (sub_nonneg.2 z1) (hl p hp).le) (mul_nonneg z0 (hb p hp).le)
    · rcases le_or_gt 0 ((1 - r) * a + r * b) with h0 | h0
      · refine .inr ⟨r, r0, r1, fun q hq => ?_, p, List.mem_cons_of_mem _ hp, hz⟩
        rcases List.mem_cons.1 hq with rfl | hq
        · exact h0
        · exact hr q hq
      · have hb : b ≤ 0 := by
          by_contra hn
          have := mul_nonneg r0 (not_le.1 hn).le
          have := mul_nonneg (sub_nonneg.2 r1) ha.le
          linarith
        obtain ⟨z0, z1, zz⟩ := zero hb
        have hz1 : a / (a - b) ≤ r := by rw [div_le_iff₀ (by linarith)]; linarith
        have hrp : 0 < r := by
          by_contra hn
          have : r = 0 := le_antisymm (not_lt.1 hn) r0
          rw [this] at h0; linarith
        refine .inr ⟨_, z0, z1, fun q hq => ?_, (a, b), by simp, zz⟩
        rcases List.mem_cons.1 hq with rfl | hq
        · exact zz.ge
        · have := hr q hq
          have hq0 := (hl q hq).le
          obtain ⟨z, ez⟩ : ∃ z, z = a / (a - b) := ⟨_, rfl⟩
          rw [← ez] at hz1 z0 ⊢
          have : r * ((1 - z) * q.1 + z * q.2) = z * ((1 - r) * q.1 + r * q.2) + (r - z) * q.1 := by ring
          have h3 : 0 ≤ r * ((1 - z) * q.1 + z * q.2) := by
            rw [this]; exact add_nonneg (mul_nonneg z0 ‹_›) (mul_nonneg (sub_nonneg.2 hz1) hq0)
          exact nonneg_of_mul_nonneg_right h3 hrp

/-- On the way from a point within the triangle to one that is not, a side is crossed. -/
theorem crossing {U : Tri ℝ} (hU : U.nor ≠ 0) {p q : V3 ℝ} (hp : (p - U.a).dot U.nor = 0) (hq : (q - U.a).dot U.nor = 0)
    (h1 : U.Strict p) (h2 : ¬U.Strict q) : ∃ r : ℝ, 0 ≤ r ∧ r ≤ 1 ∧ U.OnEdge (p + r • (q - p)) := by
  have key : ∀ (r : ℝ) (o m : V3 ℝ), (p + r • (q - p) - o).dot m = (1 - r) * (p - o).dot m + r * (q - o).dot m := fun r o m => by
    simp only [dot, sub_x, sub_y, sub_z, add_x, add_y, add_z, smul_x, smul_y, smul_z]; ring
  rcases first_zero [((p - U.a).dot (U.nor.cross U.e1), (q - U.a).dot (U.nor.cross U.e1)),
      ((p - U.b).dot (U.nor.cross U.e2), (q - U.b).dot (U.nor.cross U.e2)),
      ((p - U.c).dot (U.nor.cross U.e3), (q - U.c).dot (U.nor.cross U.e3))]
      (by simpa [Strict] using h1) with h | ⟨r, r0, r1, hr, hz⟩
  · exact absurd (by simpa [Strict] using h) h2
  · simp only [List.mem_cons, List.not_mem_nil, or_false, forall_eq_or_imp, forall_eq, exists_eq_or_imp, exists_eq_left, ← key] at hr hz
    exact ⟨r, r0, r1, onEdge_weights hU (by rw [key, hp, hq]; ring) hr.1 hr.2.1 hr.2.2 hz⟩

/-- From a point on a side one can walk to any vertex along the sides. -/
theorem walk {U : Tri ℝ} {c x : V3 ℝ} (hc : U.OnEdge c) (hx : x ∈ U.verts) :
    ∃ o, (∀ r : ℝ, 0 ≤ r → r ≤ 1 → U.OnEdge (c + r • (o - c))) ∧ ∀ r : ℝ, 0 ≤ r → r ≤ 1 → U.OnEdge (o + r • (x - o)) := by
  obtain ⟨s, hs, k, k0, k1, rfl⟩ := hc
  refine ⟨s.1, fun r r0 r1 => ⟨s, hs, (1 - r) * k, mul_nonneg (by linarith) k0, by nlinarith, by v3⟩, fun r r0 r1 => ?_⟩
  rcases (sides_vert hs).2.2.2 x hx with rfl | rfl | rfl
  · exact ⟨s, hs, 0, le_rfl, zero_le_one, by v3⟩
  · exact ⟨s, hs, r, r0, r1, by v3⟩
  · simp only [sides, List.mem_cons, List.not_mem_nil, or_false] at hs
    rcases hs with rfl | rfl | rfl
    · exact ⟨(U.c, U.e3, U.b), by simp [sides], 1 - r, by linarith, by linarith, by simp only [e3]; v3⟩
    · exact ⟨(U.a, U.e1, U.c), by simp [sides], 1 - r, by linarith, by linarith, by simp only [e1]; v3⟩
    · exact ⟨(U.b, U.e2, U.a), by simp [sides], 1 - r, by linarith, by linarith, by simp only [e2]; v3⟩

theorem meet_edge {U W : Tri ℝ} (hW : W.nor ≠ 0) (ne : ∀ x, ¬(U.OnEdge x ∧ W.OnEdge x))
    (hpl : ∀ x ∈ U.pts, (x - W.a).dot W.nor = 0) {c x : V3 ℝ} (hc : U.OnEdge c) (hcW : c ∈ W.pts) (hx : x ∈ U.verts)
    (hxW : ¬W.Strict x) : False := by
  have hs : W.Strict c := (pts_cases hcW).elim (fun h => absurd ⟨hc, h⟩ (ne c)) And.right
  obtain ⟨o, h1, h2⟩ := walk hc hx
  have ho : U.OnEdge o := by
    have := h2 0 le_rfl zero_le_one
    have e : o + (0 : ℝ) • (x - o) = o := by v3
    rwa [e] at this
  by_cases hso : W.Strict o
  · obtain ⟨r, r0, r1, hr⟩ := crossing hW (hpl _ (onEdge_pts ho)) (hpl _ (vert_mem hx)) hso hxW
    exact ne _ ⟨h2 r r0 r1, hr⟩
  · obtain ⟨r, r0, r1, hr⟩ := crossing hW (hpl _ (onEdge_pts hc)) (hpl _ (onEdge_pts ho)) hs hso
    exact ne _ ⟨h1 r r0 r1, hr⟩

/-- Two triangles in one plane that have a common point, and each of which has a vertex outside the other, have a common
point of their sides. -/
theorem meet {U W : Tri ℝ} (hU : U.nor ≠ 0) (hW : W.nor ≠ 0) (ne : ∀ x, ¬(U.OnEdge x ∧ W.OnEdge x))
    (hpl : ∀ x ∈ U.pts, (x - W.a).dot W.nor = 0) (hpl' : ∀ x ∈ W.pts, (x - U.a).dot U.nor = 0) {c x y : V3 ℝ}
    (hcU : c ∈ U.pts) (hcW : c ∈ W.pts) (hx : x ∈ U.verts) (hxW : ¬W.Strict x) (hy : y ∈ W.verts) (hyU : ¬U.Strict y) : False := by
  rcases pts_cases hcU with h | ⟨-, h⟩
  · exact meet_edge hW ne hpl h hcW hx hxW
  rcases pts_cases hcW with h' | ⟨-, h'⟩
  · exact meet_edge hU (fun x h => ne x h.symm) hpl' h' hcU hy hyU
  obtain ⟨r, r0, r1, hr⟩ := crossing hW (hpl _ hcU) (hpl _ (vert_mem hx)) h' hxW
  have hm : c + r • (x - c) ∈ U.pts := by
    have := U.pts_convex _ hcU _ (vert_mem hx) r r0 r1
    have e : c + r • (x - c) = (1 - r) • c + r • x := by v3
    rw [e]; exact this
  exact meet_edge hU (fun x h => ne x h.symm) hpl' hr hm hy hyU

end Tri
end Fcl
