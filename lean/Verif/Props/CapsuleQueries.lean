import Verif.Props.SphereQueries

/-!
# C64: distance of two capsules
-/

namespace Fcl
open Prim

/-! ### Nearest points of two segments -/

theorem clamp01_mem (n : ℝ) : 0 ≤ clamp01 n ∧ clamp01 n ≤ 1 := by
  rw [clamp01]
  split
  · exact ⟨le_refl _, zero_le_one⟩
  · split
    · exact ⟨zero_le_one, le_refl _⟩
    · constructor <;> linarith

theorem clamp01_lt {n : ℝ} (h : clamp01 n < 1) : n ≤ clamp01 n := by
  rw [clamp01] at *
  split
  · linarith
  · rename_i h1
    rw [if_neg h1] at h
    split
    · rename_i h2; rw [if_pos h2] at h; linarith
    · exact le_refl _

theorem clamp01_gt {n : ℝ} (h : 0 < clamp01 n) : clamp01 n ≤ n := by
  rw [clamp01] at *
  split
  · rename_i h1; rw [if_pos h1] at h; linarith
  · split
    · linarith
    · exact le_refl _

/-- The clamped minimiser of a quadratic function is a minimiser on the interval. -/
theorem clamp01_opt {k m u : ℝ} (hk : 0 < k) (h0 : 0 ≤ u) (h1 : u ≤ 1) :
    0 ≤ (u - clamp01 (m / k)) * (k * clamp01 (m / k) - m) := by
  have hm : m = k * (m / k) := by field_simp
  obtain ⟨c0, c1⟩ := clamp01_mem (m / k)
  have l := @clamp01_lt (m / k)
  have g := @clamp01_gt (m / k)
  generalize clamp01 (m / k) = w at *
  generalize m / k = q at *
  subst hm
  have e : (u - w) * (k * w - k * q) = k * ((u - w) * (w - q)) := by ring
  rw [e]
  refine mul_nonneg hk.le ?_
  rcases lt_trichotomy w q with h | h | h
  · have : w = 1 := le_antisymm c1 (not_lt.1 fun h' => absurd (l h') (not_le.2 h))
    exact mul_nonneg_of_nonpos_of_nonpos (by linarith) (by linarith)
  · rw [h]; simp
  · have : w = 0 := le_antisymm (not_lt.1 fun h' => absurd (g h') (not_le.2 h)) c0
    exact mul_nonneg (by linarith) (by linarith)

/-- When the unclamped second parameter is negative, it is optimal to set it to zero. -/
theorem clamp_sign {a b c e f s : ℝ} (ha : 0 < a) (he : 0 < e) (hs0 : 0 ≤ s)
    (hs : (a * e - b * b > 0 ∧ s = clamp01 ((b * f - c * e) / (a * e - b * b))) ∨ (a * e - b * b = 0 ∧ s = 0 ∧ a * f = b * c))
    (hn : b * s + f < 0) : b * clamp01 (-c / a) + f ≤ 0 := by
  obtain ⟨c0, c1⟩ := clamp01_mem (-c / a)
  have l := @clamp01_lt (-c / a)
  have g := @clamp01_gt (-c / a)
  have hh : a * (-c / a) = -c := by field_simp
  generalize clamp01 (-c / a) = s' at *
  generalize -c / a = h at *
  obtain rfl : c = -(a * h) := by linarith
  rcases hs with ⟨hd, hs⟩ | ⟨hd, rfl, hw⟩
  · have l2 := @clamp01_lt ((b * f - -(a * h) * e) / (a * e - b * b))
    have g2 := @clamp01_gt ((b * f - -(a * h) * e) / (a * e - b * b))
    obtain ⟨k0, k1⟩ := clamp01_mem ((b * f - -(a * h) * e) / (a * e - b * b))
    have hq : (a * e - b * b) * ((b * f - -(a * h) * e) / (a * e - b * b)) = b * f - -(a * h) * e := by
      rw [← mul_div_assoc, mul_div_cancel_left₀ _ hd.ne']
    rw [← hs] at l2 g2 k0 k1
    generalize (b * f - -(a * h) * e) / (a * e - b * b) = q at *
    -- (h - q) * den = -b (b h + f)
    have key : (h - q) * (a * e - b * b) = -b * (b * h + f) := by linarith
    by_contra hc
    push Not at hc
    rcases lt_trichotomy b 0 with hb | hb | hb
    · have h1 : s' < s := by nlinarith
      have h2 := l (by linarith)
      have h3 := g2 (by linarith)
      have h4 : h < q := by linarith
      have h5 : (h - q) * (a * e - b * b) < 0 := mul_neg_of_neg_of_pos (by linarith) hd
      have h6 : b * h + f < 0 := by nlinarith
      nlinarith
    · subst hb; linarith
    · have h1 : s < s' := by nlinarith
      have h2 := g (by linarith)
      have h3 := l2 (by linarith)
      have h5 : 0 < (h - q) * (a * e - b * b) := mul_pos (by linarith) hd
      have h6 : b * h + f < 0 := by nlinarith
      nlinarith
  · have hf : f = -(b * h) := by
      have : a * (f + b * h) = 0 := by linarith
      rcases mul_eq_zero.1 this with h1 | h1 <;> linarith
    subst hf
    by_contra hc
    push Not at hc
    rcases lt_trichotomy b 0 with hb | hb | hb
    · nlinarith
    · subst hb; linarith
    · rcases eq_or_lt_of_le c0 with h1 | h1
      · rw [← h1] at hc; linarith
      · have := g h1
        nlinarith

/-- First order conditions of the minimum of the squared distance over the unit square. -/
def Kkt (a b c e f s t : ℝ) : Prop :=
  (0 ≤ s ∧ s ≤ 1) ∧ (0 ≤ t ∧ t ≤ 1) ∧
  (∀ u, 0 ≤ u → u ≤ 1 → 0 ≤ (u - s) * (a * s - b * t + c)) ∧ ∀ v, 0 ≤ v → v ≤ 1 → 0 ≤ (v - t) * (e * t - b * s - f)

theorem segSegParams_mem (eps a b c e f : ℝ) :
    (0 ≤ (segSegParams eps a b c e f).1 ∧ (segSegParams eps a b c e f).1 ≤ 1) ∧
    0 ≤ (segSegParams eps a b c e f).2 ∧ (segSegParams eps a b c e f).2 ≤ 1 := by
  have z : (0 : ℝ) ≤ 0 ∧ (0 : ℝ) ≤ 1 := ⟨le_refl _, zero_le_one⟩
  have o : (0 : ℝ) ≤ 1 ∧ (1 : ℝ) ≤ 1 := ⟨zero_le_one, le_refl _⟩
  rw [segSegParams]
  split
  · exact ⟨z, z⟩
  split
  · exact ⟨z, clamp01_mem _⟩
  split
  · exact ⟨clamp01_mem _, z⟩
  simp only
  generalize hs : (if max 0 (a * e - b * b) > eps * eps then clamp01 ((b * f - c * e) / max 0 (a * e - b * b)) else 0) = s
  have h : 0 ≤ s ∧ s ≤ 1 := by
    rw [← hs]
    split
    · exact clamp01_mem _
    · exact z
  split
  · exact ⟨clamp01_mem _, z⟩
  split
  · exact ⟨clamp01_mem _, o⟩
  · rename_i h1 h2
    exact ⟨h, not_lt.1 h1, not_lt.1 h2⟩

theorem segSegParams_kkt {eps a b c e f : ℝ} (ha : (a = 0 ∧ b = 0 ∧ c = 0) ∨ eps * eps < a)
    (he : (e = 0 ∧ b = 0 ∧ f = 0) ∨ eps * eps < e)
    (hd : (a * e - b * b = 0 ∧ a * f = b * c) ∨ eps * eps < a * e - b * b) :
    Kkt a b c e f (segSegParams eps a b c e f).1 (segSegParams eps a b c e f).2 := by
  have hmem := segSegParams_mem eps a b c e f
  refine ⟨hmem.1, hmem.2, ?_⟩
  have hee : 0 ≤ eps * eps := mul_self_nonneg _
  rw [segSegParams]
  rcases ha with ⟨rfl, rfl, rfl⟩ | ha
  · rcases he with ⟨rfl, -, rfl⟩ | he
    · simp [hee]
    · rw [if_neg (fun h => absurd h.2 (not_le.2 he)), if_pos hee]
      refine ⟨fun u _ _ => by simp, fun v h0 h1 => ?_⟩
      have := clamp01_opt (k := e) (m := f) (by linarith) h0 h1
      simpa using this
  rw [if_neg (fun h => absurd h.1 (not_le.2 ha)), if_neg (not_le.2 ha)]
  have ha0 : 0 < a := by linarith
  rcases he with ⟨rfl, rfl, rfl⟩ | he
  · rw [if_pos hee]
    refine ⟨fun u h0 h1 => ?_, fun v _ _ => by simp⟩
    have := clamp01_opt (k := a) (m := -c) ha0 h0 h1
    simpa using this
  rw [if_neg (not_le.2 he)]
  have he0 : 0 < e := by linarith
  have hs : ∃ s, (if max 0 (a * e - b * b) > eps * eps then clamp01 ((b * f - c * e) / max 0 (a * e - b * b)) else 0) = s ∧
      0 ≤ s ∧ ((a * e - b * b > 0 ∧ s = clamp01 ((b * f - c * e) / (a * e - b * b))) ∨ (a * e - b * b = 0 ∧ s = 0 ∧ a * f = b * c)) := by
    rcases hd with ⟨h1, h2⟩ | h1
    · refine ⟨0, ?_, le_refl _, .inr ⟨h1, rfl, h2⟩⟩
      rw [h1, max_self, if_neg (not_lt.2 hee)]
    · have hp : 0 < a * e - b * b := by linarith
      refine ⟨_, ?_, (clamp01_mem _).1, .inl ⟨hp, rfl⟩⟩
      rw [max_eq_right hp.le, if_pos h1]
  obtain ⟨s, hs, hs0, hs2⟩ := hs
  simp only [hs]
  split
  · rename_i ht
    have hn : b * s + f < 0 := by
      rw [div_lt_iff₀ he0] at ht; linarith
    refine ⟨fun u h0 h1 => ?_, fun v h0 h1 => ?_⟩
    · have := clamp01_opt (k := a) (m := -c) ha0 h0 h1
      simpa using this
    · have := clamp_sign ha0 he0 hs0 hs2 hn
      exact mul_nonneg (by linarith) (by simp only; linarith)
  split
  · rename_i _ ht
    have hn : e < b * s + f := by
      rw [gt_iff_lt, lt_div_iff₀ he0] at ht; linarith
    refine ⟨fun u h0 h1 => ?_, fun v h0 h1 => ?_⟩
    · have := clamp01_opt (k := a) (m := b - c) ha0 h0 h1
      simp only
      have e1 : a * clamp01 ((b - c) / a) - b * 1 + c = a * clamp01 ((b - c) / a) - (b - c) := by ring
      rw [e1]; exact this
    · have := clamp_sign (b := -b) (c := c - b) (f := e - f) (s := s) ha0 he0 hs0 (by
        have e1 : -b * (e - f) - (c - b) * e = b * f - c * e := by ring
        have e2 : a * e - -b * -b = a * e - b * b := by ring
        rw [e1, e2]
        rcases hs2 with h | ⟨h1, h2, h3⟩
        · exact .inl h
        · exact .inr ⟨h1, h2, by linarith⟩) (by linarith)
      have e1 : -(c - b) / a = (b - c) / a := by rw [neg_sub]
      rw [e1] at this
      exact mul_nonneg_of_nonpos_of_nonpos (by simp only; linarith) (by simp only; linarith)
  · rename_i h1 h2
    have ht : e * ((b * s + f) / e) = b * s + f := by field_simp
    clear h1 h2
    refine ⟨fun u h0 h1 => ?_, fun v h0 h1 => ?_⟩
    · rcases hs2 with ⟨hp, rfl⟩ | ⟨h3, rfl, h4⟩
      · have := clamp01_opt (k := a * e - b * b) (m := b * f - c * e) hp h0 h1
        generalize clamp01 ((b * f - c * e) / (a * e - b * b)) = s at *
        have e1 : (u - s) * (a * s - b * ((b * s + f) / e) + c) = ((u - s) * ((a * e - b * b) * s - (b * f - c * e))) / e := by
          field_simp; ring
        simp only [e1]
        exact div_nonneg this he0.le
      · simp only
        have e1 : a * 0 - b * ((b * 0 + f) / e) + c = (c * e - b * f) / e := by field_simp; ring
        have e2 : a * (c * e - b * f) = 0 := by
          have : a * (c * e - b * f) = c * (a * e) - b * (a * f) := by ring
          rw [this, h4]
          have : a * e = b * b := by linarith
          rw [this]; ring
        have e3 : c * e - b * f = 0 := by
          rcases mul_eq_zero.1 e2 with h | h <;> linarith
        rw [e1, e3]; simp
    · simp only
      rw [ht]; simp

/-- The points of `segSeg` are in the segments. -/
theorem segSeg_mem (eps : ℝ) (p1 q1 p2 q2 : V3 ℝ) :
    (segSeg eps p1 q1 p2 q2).1 ∈ SegOf p1 q1 ∧ (segSeg eps p1 q1 p2 q2).2 ∈ SegOf p2 q2 := by
  have h := segSegParams_mem eps ((q1 - p1).dot (q1 - p1)) ((q1 - p1).dot (q2 - p2)) ((q1 - p1).dot (p1 - p2))
    ((q2 - p2).dot (q2 - p2)) ((q2 - p2).dot (p1 - p2))
  exact ⟨⟨_, h.1.1, h.1.2, rfl⟩, ⟨_, h.2.1, h.2.2, rfl⟩⟩

/-- They are the nearest points if the segments and their angle are degenerate exactly or not at all. -/
theorem segSeg_isDist {eps : ℝ} {p1 q1 p2 q2 : V3 ℝ} (ha : q1 - p1 = 0 ∨ eps * eps < (q1 - p1).dot (q1 - p1))
    (he : q2 - p2 = 0 ∨ eps * eps < (q2 - p2).dot (q2 - p2))
    (hd : (q1 - p1).dot (q1 - p1) * (q2 - p2).dot (q2 - p2) - (q1 - p1).dot (q2 - p2) * (q1 - p1).dot (q2 - p2) = 0 ∨
      eps * eps < (q1 - p1).dot (q1 - p1) * (q2 - p2).dot (q2 - p2) - (q1 - p1).dot (q2 - p2) * (q1 - p1).dot (q2 - p2)) :
    IsDist (SegOf p1 q1) (SegOf p2 q2) ((segSeg eps p1 q1 p2 q2).1.dist (segSeg eps p1 q1 p2 q2).2)
      (segSeg eps p1 q1 p2 q2).1 (segSeg eps p1 q1 p2 q2).2 := by
  have hm := segSeg_mem eps p1 q1 p2 q2
  refine ⟨hm.1, hm.2, rfl, ?_⟩
  have hk := segSegParams_kkt (eps := eps) (a := (q1 - p1).dot (q1 - p1)) (b := (q1 - p1).dot (q2 - p2))
    (c := (q1 - p1).dot (p1 - p2)) (e := (q2 - p2).dot (q2 - p2)) (f := (q2 - p2).dot (p1 - p2)) ?_ ?_ ?_
  · rintro _ ⟨u, u0, u1, rfl⟩ _ ⟨v, v0, v1, rfl⟩
    have e1 : (segSeg eps p1 q1 p2 q2) =
      (p1 + (segSegParams eps ((q1 - p1).dot (q1 - p1)) ((q1 - p1).dot (q2 - p2)) ((q1 - p1).dot (p1 - p2))
        ((q2 - p2).dot (q2 - p2)) ((q2 - p2).dot (p1 - p2))).1 • (q1 - p1),
       p2 + (segSegParams eps ((q1 - p1).dot (q1 - p1)) ((q1 - p1).dot (q2 - p2)) ((q1 - p1).dot (p1 - p2))
        ((q2 - p2).dot (q2 - p2)) ((q2 - p2).dot (p1 - p2))).2 • (q2 - p2)) := rfl
    rw [e1]
    obtain ⟨-, -, ks, kt⟩ := hk
    generalize segSegParams eps ((q1 - p1).dot (q1 - p1)) ((q1 - p1).dot (q2 - p2)) ((q1 - p1).dot (p1 - p2))
        ((q2 - p2).dot (q2 - p2)) ((q2 - p2).dot (p1 - p2)) = st at *
    obtain ⟨s, t⟩ := st
    have ks := ks u u0 u1
    have kt := kt v v0 v1
    clear ha he hd hm e1
    simp only at *
    have exp : ∀ x y : ℝ, (p1 + x • (q1 - p1) - (p2 + y • (q2 - p2))).dot (p1 + x • (q1 - p1) - (p2 + y • (q2 - p2))) =
        (p1 - p2).dot (p1 - p2) + x * x * (q1 - p1).dot (q1 - p1) - 2 * x * y * (q1 - p1).dot (q2 - p2) +
        y * y * (q2 - p2).dot (q2 - p2) + 2 * x * (q1 - p1).dot (p1 - p2) - 2 * y * (q2 - p2).dot (p1 - p2) := by
      intro x y
      simp only [V3.dot, V3.sub_x, V3.sub_y, V3.sub_z, V3.add_x, V3.add_y, V3.add_z, V3.smul_x, V3.smul_y, V3.smul_z]
      ring
    have hq := V3.dot_self_nonneg ((u - s) • (q1 - p1) - (v - t) • (q2 - p2))
    rw [V3.sub_dot, V3.dot_sub, V3.dot_sub] at hq
    simp only [V3.smul_dot, V3.dot_smul] at hq
    rw [V3.dot_comm (q2 - p2) (q1 - p1)] at hq
    rw [V3.dist_eq, V3.dist_eq]
    refine Real.sqrt_le_sqrt ?_
    rw [exp, exp]
    linarith
  · rcases ha with h | h
    · left; rw [h]; simp [V3.dot]
    · exact .inr h
  · rcases he with h | h
    · left; rw [h]; simp [V3.dot]
    · exact .inr h
  · rcases hd with h | h
    · refine .inl ⟨h, ?_⟩
      generalize q1 - p1 = D at *
      generalize q2 - p2 = E at *
      generalize p1 - p2 = r at *
      have hz : D.dot D • E - D.dot E • D = 0 := by
        apply V3.dot_self_eq_zero
        rw [V3.sub_dot, V3.dot_sub, V3.dot_sub]
        simp only [V3.smul_dot, V3.dot_smul]
        rw [V3.dot_comm E D]
        linear_combination (D.dot D) * h
      have : (D.dot D • E - D.dot E • D).dot r = 0 := by rw [hz]; simp [V3.dot]
      rw [V3.sub_dot, V3.smul_dot, V3.smul_dot] at this
      linarith
    · exact .inr h

/-! ### Capsules in the world -/

theorem placed_thick {X : Pose ℝ} (hX : X.Rigid) (S : Set (V3 ℝ)) (r : ℝ) :
    Placed X.R X.t (Thick S r) = Thick (Placed X.R X.t S) r := by
  ext q
  constructor
  · rintro ⟨p, ⟨x, hx, h⟩, rfl⟩
    exact ⟨_, ⟨x, hx, rfl⟩, (Pose.dist_apply hX p x).trans_le h⟩
  · rintro ⟨_, ⟨x, hx, rfl⟩, h⟩
    refine ⟨X.inv.apply q, ⟨x, hx, ?_⟩, (Pose.apply_inv hX q).symm⟩
    rw [Pose.dist_inv hX]; exact h

theorem placed_seg (X : Pose ℝ) (a b : V3 ℝ) : Placed X.R X.t (SegOf a b) = SegOf (X.apply a) (X.apply b) := by
  have e : ∀ t : ℝ, X.apply (a + t • (b - a)) = X.apply a + t • (X.apply b - X.apply a) := by
    intro t
    simp only [Pose.apply, M3.mulVec_add, M3.mulVec_smul, M3.mulVec_sub]
    v3
  ext q
  constructor
  · rintro ⟨_, ⟨t, h0, h1, rfl⟩, rfl⟩
    exact ⟨t, h0, h1, e t⟩
  · rintro ⟨t, h0, h1, rfl⟩
    exact ⟨_, ⟨t, h0, h1, rfl⟩, (e t).symm⟩

/-- The axis of a capsule in the world. -/
theorem capsule_world {X : Pose ℝ} (hX : X.Rigid) {r lz : ℝ} (hr : 0 ≤ r) (hl : 0 ≤ lz) :
    Placed X.R X.t (Geo.capsule r lz).pts =
      Thick (SegOf (X.t + (lz / 2) • X.R.col 2) (X.t - (lz / 2) • X.R.col 2)) r := by
  have : (Geo.capsule r lz).pts = Shape.capsule r lz := rfl
  rw [this, capsule_thick hr hl, placed_thick hX, placed_seg]
  congr 2 <;> apply V3.ext' <;> simp [Pose.apply, M3.mulVec, V3.dot, M3.col, V3.get] <;> ring

theorem cross_sq (a b : V3 ℝ) : (a.cross b).dot (a.cross b) = a.dot a * b.dot b - a.dot b * a.dot b := by
  simp only [V3.cross, V3.dot]; ring

theorem cross_dot (a b : V3 ℝ) : (a.cross b).dot a = 0 ∧ (a.cross b).dot b = 0 := by
  constructor <;> simp only [V3.cross, V3.dot] <;> ring

theorem normalized_dot (a b : V3 ℝ) (h : a.dot b = 0) : a.normalized.dot b = 0 := by
  rw [V3.normalized]
  split
  · exact h
  · rw [V3.smul_dot, h, mul_zero]

/-- If the unit vectors are parallel then a vector orthogonal to one is orthogonal to the other. -/
theorem parallel_dot {a b x : V3 ℝ} (ha : a.dot a = 1) (hb : b.dot b = 1) (h : a.dot b * a.dot b = 1) (hx : x.dot a = 0) :
    x.dot b = 0 := by
  have hz : b - a.dot b • a = 0 := by
    apply V3.dot_self_eq_zero
    rw [V3.sub_dot, V3.dot_sub, V3.dot_sub]
    simp only [V3.smul_dot, V3.dot_smul]
    rw [V3.dot_comm b a, ha, hb]
    linarith
  have : x.dot (b - a.dot b • a) = 0 := by rw [hz]; simp [V3.dot]
  rw [V3.dot_sub, V3.dot_smul, hx] at this
  linarith

theorem rigid_cols {X : Pose ℝ} (hX : X.Rigid) :
    (X.R.col 2).dot (X.R.col 2) = 1 ∧ (X.R.col 0).dot (X.R.col 0) = 1 ∧ (X.R.col 0).dot (X.R.col 2) = 0 := by
  have h := hX.cols
  obtain ⟨⟨⟨a, b, c⟩, ⟨d, e, f⟩, ⟨g, i, j⟩⟩, t⟩ := X
  simp only [M3.mul, M3.tr, M3.one, M3.col, M3.row, M3.mk.injEq, V3.mk.injEq, V3.get, V3.dot] at *
  obtain ⟨⟨h1, h2, h3⟩, ⟨h4, h5, h6⟩, h7, h8, h9⟩ := h
  exact ⟨by linarith, by linarith, by linarith⟩

/-- The direction the code falls back to: a unit vector, orthogonal to both axes if they are parallel or clearly not. -/
theorem fallback {X1 X2 : Pose ℝ} (hX1 : X1.Rigid) (hX2 : X2.Rigid) {eps : ℝ} (he : 0 ≤ eps) (v : V3 ℝ)
    (hv : v = if |(X1.R.col 2).dot (X2.R.col 2)| < 1 - eps then ((X1.R.col 2).cross (X2.R.col 2)).normalized
      else X1.R.col 0) :
    v.nrm = 1 ∧ v.dot (X1.R.col 2) = 0 ∧
      (((X1.R.col 2).dot (X2.R.col 2) * (X1.R.col 2).dot (X2.R.col 2) = 1 ∨
        |(X1.R.col 2).dot (X2.R.col 2)| < 1 - eps) → v.dot (X2.R.col 2) = 0) := by
  obtain ⟨a1, a2, a3⟩ := rigid_cols hX1
  obtain ⟨b1, b2, b3⟩ := rigid_cols hX2
  generalize X1.R.col 2 = z1 at *
  generalize X2.R.col 2 = z2 at *
  generalize X1.R.col 0 = x1 at *
  subst hv
  split
  · rename_i h
    obtain ⟨c1, c2⟩ := cross_dot z1 z2
    refine ⟨V3.nrm_normalized fun h0 => ?_, normalized_dot _ _ c1, fun _ => normalized_dot _ _ c2⟩
    have := cross_sq z1 z2
    rw [h0, a1, b1] at this
    simp only [V3.dot, V3.zero_x, V3.zero_y, V3.zero_z, mul_zero, add_zero] at this
    have k := abs_mul_abs_self (z1.dot z2)
    have k0 := abs_nonneg (z1.dot z2)
    simp only [V3.dot] at *
    nlinarith
  · rename_i h
    refine ⟨V3.nrm_unique zero_le_one (by rw [a2, one_mul]), a3, fun hp => ?_⟩
    rcases hp with hp | hp
    · exact parallel_dot a1 b1 hp a3
    · exact absurd hp h

theorem perp_exists {X1 X2 : Pose ℝ} (hX1 : X1.Rigid) (hX2 : X2.Rigid) :
    ∃ v : V3 ℝ, v.nrm = 1 ∧ v.dot (X1.R.col 2) = 0 ∧ v.dot (X2.R.col 2) = 0 := by
  obtain ⟨h1, h2, h3⟩ := fallback hX1 hX2 (le_refl (0 : ℝ)) _ rfl
  refine ⟨_, h1, h2, h3 ?_⟩
  obtain ⟨a1, _, _⟩ := rigid_cols hX1
  obtain ⟨b1, _, _⟩ := rigid_cols hX2
  have k := abs_mul_abs_self ((X1.R.col 2).dot (X2.R.col 2))
  have k0 := abs_nonneg ((X1.R.col 2).dot (X2.R.col 2))
  have k1 := V3.dot_sq_le (X1.R.col 2) (X2.R.col 2)
  rw [a1, b1] at k1
  rw [sub_zero]
  by_cases h : |(X1.R.col 2).dot (X2.R.col 2)| < 1
  · exact .inr h
  · left; nlinarith

theorem axis_dot {t z v x y : V3 ℝ} {l : ℝ} (h : v.dot z = 0) (hx : x ∈ SegOf (t + l • z) (t - l • z))
    (hy : y ∈ SegOf (t + l • z) (t - l • z)) : v.dot x = v.dot y := by
  obtain ⟨a, _, _, rfl⟩ := hx
  obtain ⟨b, _, _, rfl⟩ := hy
  simp only [V3.dot_add, V3.dot_sub, V3.dot_smul, h]
  ring

/-- The lengths and the angle of two capsules are degenerate exactly or clearly not: none of the tolerances of the code
matters. -/
structure Clear (eps lz1 lz2 : ℝ) (z1 z2 : V3 ℝ) : Prop where
  len1 : lz1 = 0 ∨ eps < lz1
  len2 : lz2 = 0 ∨ eps < lz2
  angle : lz1 = 0 ∨ lz2 = 0 ∨ z1.dot z2 * z1.dot z2 = 1 ∨ eps * eps < (lz1 * lz2) * (lz1 * lz2) * (1 - z1.dot z2 * z1.dot z2)

/-- **C64.** Two capsules: for any input, the two points are in the capsules, and if the distance is at most zero then the
capsules have a common point; otherwise there are points at that distance. -/
theorem C64_sound (eps : ℝ) (he : 0 ≤ eps) (r1 lz1 r2 lz2 : ℝ) (h1 : (Geo.capsule r1 lz1).WF) (h2 : (Geo.capsule r2 lz2).WF)
    (X1 X2 : Pose ℝ) (hX1 : X1.Rigid) (hX2 : X2.Rigid) (A B : Set (V3 ℝ))
    (hA : A = Placed X1.R X1.t (Geo.capsule r1 lz1).pts) (hB : B = Placed X2.R X2.t (Geo.capsule r2 lz2).pts)
    (o : DistOut) (ho : o = capsuleCapsuleDistance eps r1 lz1 X1 r2 lz2 X2) :
    o.ret = true ∧ (∃ p q, o.pts = some (p, q) ∧ p ∈ A ∧ q ∈ B) ∧ (o.dist ≤ 0 → Touch A B) ∧
      (0 < o.dist → ∃ a ∈ A, ∃ b ∈ B, a.dist b = o.dist) := by
  rw [capsule_world hX1 h1.1 h1.2] at hA
  rw [capsule_world hX2 h2.1 h2.2] at hB
  rw [capsuleCapsuleDistance] at ho
  have hm := segSeg_mem eps (X1.t + (lz1 / 2) • X1.R.col 2) (X1.t - (lz1 / 2) • X1.R.col 2)
    (X2.t + (lz2 / 2) • X2.R.col 2) (X2.t - (lz2 / 2) • X2.R.col 2)
  simp only [sq_nrm, ← V3.dist_eq] at ho
  generalize segSeg eps (X1.t + (lz1 / 2) • X1.R.col 2) (X1.t - (lz1 / 2) • X1.R.col 2)
    (X2.t + (lz2 / 2) • X2.R.col 2) (X2.t - (lz2 / 2) • X2.R.col 2) = N at *
  obtain ⟨n1, n2⟩ := N
  have hv := fallback hX1 hX2 he _ rfl
  generalize (if |(X1.R.col 2).dot (X2.R.col 2)| < 1 - eps then ((X1.R.col 2).cross (X2.R.col 2)).normalized
      else X1.R.col 0) = w at *
  generalize hS1 : SegOf (X1.t + (lz1 / 2) • X1.R.col 2) (X1.t - (lz1 / 2) • X1.R.col 2) = S1 at *
  generalize hS2 : SegOf (X2.t + (lz2 / 2) • X2.R.col 2) (X2.t - (lz2 / 2) • X2.R.col 2) = S2 at *
  subst hA hB ho
  simp only at *
  have hu : ∀ v : V3 ℝ, v = (if n1.dist n2 > eps then (1 / n1.dist n2) • (n2 - n1) else w) → v.nrm = 1 := by
    rintro _ rfl
    split
    · rename_i h
      rw [V3.nrm_smul, ← V3.dist_eq, V3.dist_comm n2 n1, abs_of_pos (by have := lt_of_le_of_lt he h; positivity)]
      have := lt_of_le_of_lt he h
      field_simp
    · exact hv.1
  have hu := hu _ rfl
  generalize (if n1.dist n2 > eps then (1 / n1.dist n2) • (n2 - n1) else w) = v at *
  refine ⟨trivial, ⟨_, _, rfl, ⟨n1, hm.1, ?_⟩, ⟨n2, hm.2, ?_⟩⟩, fun h => ?_, fun h => ?_⟩
  · have : n1 + r1 • v - n1 = r1 • v := by v3
    rw [V3.dist_eq, this, V3.nrm_smul, hu, mul_one, abs_of_nonneg h1.1]
  · have : n2 - r2 • v - n2 = (-r2) • v := by v3
    rw [V3.dist_eq, this, V3.nrm_smul, hu, mul_one, abs_neg, abs_of_nonneg h2.1]
  · exact thick_touch_of hm.1 hm.2 h1.1 h2.1 (by linarith)
  · have hd : IsDist {n1} {n2} (n1.dist n2) n1 n2 := isDist_points _ _
    have := thick_dist hd h1.1 h2.1 (by linarith)
    obtain ⟨⟨_, rfl, k1⟩, ⟨_, rfl, k2⟩, k3, -⟩ := this
    exact ⟨_, ⟨_, hm.1, k1⟩, _, ⟨_, hm.2, k2⟩, k3⟩

/-- **C64.** Two capsules, away from the tolerances: the distance is the signed distance, that is the distance of the
capsules if they are apart, and minus the penetration depth otherwise. The two points realise it: if they are apart they
are nearest points, and otherwise moving along the line through them separates. -/
theorem C64_exact_partial (eps : ℝ) (he : 0 ≤ eps) (r1 lz1 r2 lz2 : ℝ) (h1 : (Geo.capsule r1 lz1).WF)
    (h2 : (Geo.capsule r2 lz2).WF)
    (X1 X2 : Pose ℝ) (hX1 : X1.Rigid) (hX2 : X2.Rigid) (hc : Clear eps lz1 lz2 (X1.R.col 2) (X2.R.col 2)) (A B : Set (V3 ℝ))
    (hA : A = Placed X1.R X1.t (Geo.capsule r1 lz1).pts) (hB : B = Placed X2.R X2.t (Geo.capsule r2 lz2).pts)
    (o : DistOut) (ho : o = capsuleCapsuleDistance eps r1 lz1 X1 r2 lz2 X2) :
    (Touch A B ↔ o.dist ≤ 0) ∧ (0 < o.dist → ∃ a b, IsDist A B o.dist a b) ∧ (o.dist ≤ 0 → IsDepth A B (-o.dist)) ∧
      ∃ p q, o.pts = some (p, q) ∧
        (eps < o.dist + r1 + r2 → 0 < o.dist → IsDist A B o.dist p q) ∧
        ((eps < o.dist + r1 + r2 ∨ o.dist + r1 + r2 = 0 ∧ ((X1.R.col 2).dot (X2.R.col 2) * (X1.R.col 2).dot (X2.R.col 2) = 1 ∨
          |(X1.R.col 2).dot (X2.R.col 2)| < 1 - eps)) → p.dist q = |o.dist| ∧
          (o.dist < 0 → SeparatesAlong A B ((1 / o.dist) • (q - p)) (-o.dist))) := by
  obtain ⟨z11, -, -⟩ := rigid_cols hX1
  obtain ⟨z22, -, -⟩ := rigid_cols hX2
  have seglen : ∀ (t z : V3 ℝ) (l : ℝ), t - (l / 2) • z - (t + (l / 2) • z) = (-l) • z := by
    intro t z l; v3
  have hd : IsDist _ _ _ _ _ := segSeg_isDist (eps := eps) (p1 := X1.t + (lz1 / 2) • X1.R.col 2)
    (q1 := X1.t - (lz1 / 2) • X1.R.col 2) (p2 := X2.t + (lz2 / 2) • X2.R.col 2) (q2 := X2.t - (lz2 / 2) • X2.R.col 2)
    (by
      rw [seglen]
      rcases hc.len1 with h | h
      · left; rw [h]; apply V3.ext' <;> simp
      · right; rw [V3.smul_dot, V3.dot_smul, z11]; nlinarith)
    (by
      rw [seglen]
      rcases hc.len2 with h | h
      · left; rw [h]; apply V3.ext' <;> simp
      · right; rw [V3.smul_dot, V3.dot_smul, z22]; nlinarith)
    (by
      rw [seglen, seglen]
      simp only [V3.smul_dot, V3.dot_smul, z11, z22]
      have e : -lz1 * (-lz1 * 1) * (-lz2 * (-lz2 * 1)) -
        -lz2 * (-lz1 * (X1.R.col 2).dot (X2.R.col 2)) * (-lz2 * (-lz1 * (X1.R.col 2).dot (X2.R.col 2))) =
        (lz1 * lz2) * (lz1 * lz2) * (1 - (X1.R.col 2).dot (X2.R.col 2) * (X1.R.col 2).dot (X2.R.col 2)) := by ring
      rw [e]
      rcases hc.angle with h | h | h | h
      · left; rw [h]; ring
      · left; rw [h]; ring
      · left; rw [h]; ring
      · exact .inr h)
  rw [capsule_world hX1 h1.1 h1.2] at hA
  rw [capsule_world hX2 h2.1 h2.2] at hB
  rw [capsuleCapsuleDistance] at ho
  simp only [sq_nrm, ← V3.dist_eq] at ho
  generalize segSeg eps (X1.t + (lz1 / 2) • X1.R.col 2) (X1.t - (lz1 / 2) • X1.R.col 2)
    (X2.t + (lz2 / 2) • X2.R.col 2) (X2.t - (lz2 / 2) • X2.R.col 2) = N at *
  obtain ⟨n1, n2⟩ := N
  have hv := fallback hX1 hX2 he _ rfl
  generalize (if |(X1.R.col 2).dot (X2.R.col 2)| < 1 - eps then ((X1.R.col 2).cross (X2.R.col 2)).normalized
      else X1.R.col 0) = w at *
  have perp : ∀ v : V3 ℝ, v.dot (X1.R.col 2) = 0 → v.dot (X2.R.col 2) = 0 → n1.dist n2 = 0 →
      ∀ x ∈ SegOf (X1.t + (lz1 / 2) • X1.R.col 2) (X1.t - (lz1 / 2) • X1.R.col 2),
      ∀ y ∈ SegOf (X2.t + (lz2 / 2) • X2.R.col 2) (X2.t - (lz2 / 2) • X2.R.col 2), n1.dist n2 ≤ v.dot (y - x) := by
    intro v k1 k2 h0 x hx y hy
    have m1 := axis_dot k1 hx hd.left
    have m2 := axis_dot k2 hy hd.right
    have e := V3.dist_eq_zero h0
    simp only at m1 m2
    rw [V3.dot_sub, m1, m2, h0, e, _root_.sub_self]
  have cv1 := segOf_convex (X1.t + (lz1 / 2) • X1.R.col 2) (X1.t - (lz1 / 2) • X1.R.col 2)
  have cv2 := segOf_convex (X2.t + (lz2 / 2) • X2.R.col 2) (X2.t - (lz2 / 2) • X2.R.col 2)
  generalize SegOf (X1.t + (lz1 / 2) • X1.R.col 2) (X1.t - (lz1 / 2) • X1.R.col 2) = S1 at *
  generalize SegOf (X2.t + (lz2 / 2) • X2.R.col 2) (X2.t - (lz2 / 2) • X2.R.col 2) = S2 at *
  subst hA hB ho
  simp only at *
  have hn : (n2 - n1).nrm = n1.dist n2 := by rw [← V3.dist_eq, V3.dist_comm]
  have e2 : -(n1.dist n2 - r1 - r2) = r1 + r2 - n1.dist n2 := by ring
  have e3 : n1.dist n2 - r1 - r2 + r1 + r2 = n1.dist n2 := by ring
  refine ⟨?_, fun h => ?_, fun h => ?_, _, _, rfl, fun k1 h => ?_, fun k1 => ?_⟩
  · rw [thick_touch hd h1.1 h2.1]
    constructor <;> intro h <;> linarith
  · exact ⟨_, _, thick_dist hd h1.1 h2.1 (by linarith)⟩
  · rw [e2]
    by_cases h0 : n1.dist n2 = 0
    · obtain ⟨v, v1, v2, v3⟩ := perp_exists hX1 hX2
      exact isDepth_of (by linarith) (thick_separates v1 (perp v v2 v3 h0)) (thick_keep hd h1.1 h2.1)
    · obtain ⟨k1, k2⟩ := isDist_direction cv1 cv2 hd (lt_of_le_of_ne (V3.dist_nonneg _ _) (Ne.symm h0))
      exact isDepth_of (by linarith) (thick_separates k1 k2) (thick_keep hd h1.1 h2.1)
  · rw [e3] at k1
    rw [if_pos k1]
    have := thick_dist hd h1.1 h2.1 (by linarith)
    have a1 : n1 + r1 • (1 / n1.dist n2) • (n2 - n1) = n1 + (r1 / n1.dist n2) • (n2 - n1) := by v3
    have a2 : n2 - r2 • (1 / n1.dist n2) • (n2 - n1) = n2 - (r2 / n1.dist n2) • (n2 - n1) := by v3
    rw [a1, a2]
    exact this
  · rw [e3] at k1
    -- the direction is a unit vector that separates the axes, and the axes' points differ by their distance along it
    have key : ∃ v : V3 ℝ, (if n1.dist n2 > eps then (1 / n1.dist n2) • (n2 - n1) else w) = v ∧ v.nrm = 1 ∧
        (∀ x ∈ S1, ∀ y ∈ S2, n1.dist n2 ≤ v.dot (y - x)) ∧ n2 - n1 = n1.dist n2 • v := by
      rcases k1 with k1 | ⟨k1, k2⟩
      · obtain ⟨m1, m2⟩ := isDist_direction cv1 cv2 hd (lt_of_le_of_lt he k1)
        have hp := lt_of_le_of_lt he k1
        refine ⟨_, if_pos k1, m1, m2, ?_⟩
        generalize n1.dist n2 = d at *
        apply V3.ext' <;> simp <;> field_simp
      · refine ⟨_, if_neg (by rw [k1]; exact not_lt.2 he), hv.1, perp _ hv.2.1 (hv.2.2 k2) k1, ?_⟩
        rw [k1, V3.dist_eq_zero k1]
        v3
    obtain ⟨v, kv, v1, v2, v3⟩ := key
    rw [kv]
    have hpq : n2 - r2 • v - (n1 + r1 • v) = (n1.dist n2 - r1 - r2) • v := by
      have : n2 - r2 • v - (n1 + r1 • v) = (n2 - n1) - (r1 + r2) • v := by v3
      rw [this, v3]; v3
    refine ⟨?_, fun h => ?_⟩
    · rw [V3.dist_comm, V3.dist_eq, hpq, V3.nrm_smul, v1, mul_one]
    · have : (1 / (n1.dist n2 - r1 - r2)) • (n2 - r2 • v - (n1 + r1 • v)) = v := by
        rw [hpq]
        generalize n1.dist n2 - r1 - r2 = d at *
        have : d ≠ 0 := h.ne
        apply V3.ext' <;> simp <;> field_simp
      rw [this, e2]
      exact thick_separates v1 v2

/-- **C64 is violated** within the tolerances: a capsule of length `eps` is treated as a point, namely one of its ends. A
capsule of length `eps` and radius 0 contains the point capsule at its other end, but the reported distance is `eps`. -/
theorem C64_violated (eps : ℝ) (he : 0 < eps) : ∃ X1 X2 : Pose ℝ, X1.Rigid ∧ X2.Rigid ∧
    Touch (Placed X1.R X1.t (Geo.capsule 0 eps).pts) (Placed X2.R X2.t (Geo.capsule (0 : ℝ) 0).pts) ∧
    (capsuleCapsuleDistance eps 0 eps X1 0 0 X2).dist = eps := by
  refine ⟨⟨M3.one, 0⟩, ⟨M3.one, ⟨0, 0, -(eps / 2)⟩⟩, M3.orthonormal_one, M3.orthonormal_one,
    ⟨⟨0, 0, -(eps / 2)⟩, (placed_one _ _ _).2 ⟨-(eps / 2), ?_, ?_, ?_⟩, (placed_one _ _ _).2 ⟨0, ?_, ?_, ?_⟩⟩, ?_⟩
  · linarith
  · linarith
  · simp
  · simp
  · simp
  · simp
  · rw [capsuleCapsuleDistance]
    simp only [sq_nrm, ← V3.dist_eq, sub_zero]
    have e : segSeg eps (0 + (eps / 2) • (M3.one : M3 ℝ).col 2) (0 - (eps / 2) • (M3.one : M3 ℝ).col 2)
        (⟨0, 0, -(eps / 2)⟩ + ((0 : ℝ) / 2) • (M3.one : M3 ℝ).col 2) (⟨0, 0, -(eps / 2)⟩ - ((0 : ℝ) / 2) • (M3.one : M3 ℝ).col 2) =
        (⟨0, 0, eps / 2⟩, ⟨0, 0, -(eps / 2)⟩) := by
      rw [segSeg, segSegParams, if_pos]
      · simp only
        congr 1 <;> apply V3.ext' <;> simp [M3.one, M3.col, V3.get]
      · simp [M3.one, M3.col, V3.get, V3.dot]
        constructor
        · exact le_of_eq (by ring)
        · exact mul_self_nonneg _
    rw [e, V3.dist_eq]
    refine V3.nrm_unique he.le ?_
    simp [V3.dot]

/-- The hypotheses of `C64_exact_partial` are met: two capsules of length 2 and radius 1 whose axes cross at right angles at distance 1; the
second one lies along the x axis. -/
example : (capsuleCapsuleDistance (1 / 1000) 1 2 ⟨M3.one, 0⟩ 1 2 ⟨⟨⟨0, 0, 1⟩, ⟨0, 1, 0⟩, ⟨-1, 0, 0⟩⟩, ⟨0, 1, 0⟩⟩).dist ≤ 0 := by
  refine ((C64_exact_partial (1 / 1000) (by norm_num) 1 2 1 2 (by norm_num [Geo.WF]) (by norm_num [Geo.WF]) ⟨M3.one, 0⟩
    ⟨⟨⟨0, 0, 1⟩, ⟨0, 1, 0⟩, ⟨-1, 0, 0⟩⟩, ⟨0, 1, 0⟩⟩ M3.orthonormal_one ?_ ?_ _ _ rfl rfl _ rfl).1).1 ?_
  · constructor <;> norm_num [M3.mul, M3.tr, M3.one, M3.col, M3.row, V3.get, V3.dot]
  · refine ⟨by norm_num, by norm_num, .inr (.inr (.inr ?_))⟩
    norm_num [M3.one, M3.col, V3.get, V3.dot]
  · refine ⟨⟨0, 1 / 2, 0⟩, (placed_one _ _ _).2 ⟨0, by norm_num, by norm_num, by norm_num⟩, ⟨0, -(1 / 2), 0⟩, ⟨0, by norm_num, by norm_num, by norm_num⟩, ?_⟩
    apply V3.ext' <;> norm_num [M3.mulVec, V3.dot]

end Fcl
