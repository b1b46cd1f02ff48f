import Verif.Geom.Thick

/-!
# The shapes are convex
-/

namespace Fcl
open V3

theorem jensen {s t : ℝ} (hs : 0 ≤ s) (ht : 0 ≤ t) (h : s + t = 1) (a b : ℝ) :
    (s * a + t * b) * (s * a + t * b) ≤ s * (a * a) + t * (b * b) := by
  have e : s * (a * a) + t * (b * b) - (s * a + t * b) * (s * a + t * b) = s * t * ((a - b) * (a - b)) := by
    obtain rfl : s = 1 - t := by linarith
    ring
  have : 0 ≤ s * t * ((a - b) * (a - b)) := mul_nonneg (mul_nonneg hs ht) (mul_self_nonneg _)
  linarith

theorem mean_le {s t a b c : ℝ} (hs : 0 ≤ s) (ht : 0 ≤ t) (h : s + t = 1) (ha : a ≤ c) (hb : b ≤ c) : s * a + t * b ≤ c := by
  have h1 := mul_le_mul_of_nonneg_left ha hs
  have h2 := mul_le_mul_of_nonneg_left hb ht
  have : s * c + t * c = c := by rw [← add_mul, h, one_mul]
  linarith

theorem le_mean {s t a b c : ℝ} (hs : 0 ≤ s) (ht : 0 ≤ t) (h : s + t = 1) (ha : c ≤ a) (hb : c ≤ b) : c ≤ s * a + t * b := by
  have h1 := mul_le_mul_of_nonneg_left ha hs
  have h2 := mul_le_mul_of_nonneg_left hb ht
  have : s * c + t * c = c := by rw [← add_mul, h, one_mul]
  linarith

/-- Every shape is a convex set. -/
theorem Geo.pts_convex (g : Geo ℝ) : ConvexSet g.pts := by
  intro p hp q hq t ht ht1
  obtain ⟨s, hs⟩ : ∃ s, s = 1 - t := ⟨_, rfl⟩
  have hs0 : 0 ≤ s := by linarith
  have h1 : s + t = 1 := by linarith
  rw [← hs]
  cases g with
  | box side =>
    obtain ⟨⟨a1, a2⟩, ⟨a3, a4⟩, a5, a6⟩ := hp
    obtain ⟨⟨b1, b2⟩, ⟨b3, b4⟩, b5, b6⟩ := hq
    refine ⟨⟨?_, ?_⟩, ⟨?_, ?_⟩, ?_, ?_⟩ <;> simp only [add_x, add_y, add_z, smul_x, smul_y, smul_z]
    · exact le_mean hs0 ht h1 a1 b1
    · exact mean_le hs0 ht h1 a2 b2
    · exact le_mean hs0 ht h1 a3 b3
    · exact mean_le hs0 ht h1 a4 b4
    · exact le_mean hs0 ht h1 a5 b5
    · exact mean_le hs0 ht h1 a6 b6
  | sphere r =>
    have hp' : p.x * p.x + p.y * p.y + p.z * p.z ≤ r * r := hp
    have hq' : q.x * q.x + q.y * q.y + q.z * q.z ≤ r * r := hq
    have k := mean_le hs0 ht h1 hp' hq'
    show (s • p + t • q).x * (s • p + t • q).x + (s • p + t • q).y * (s • p + t • q).y + (s • p + t • q).z * (s • p + t • q).z ≤ r * r
    simp only [add_x, add_y, add_z, smul_x, smul_y, smul_z]
    linarith [jensen hs0 ht h1 p.x q.x, jensen hs0 ht h1 p.y q.y, jensen hs0 ht h1 p.z q.z]
  | capsule r lz =>
    obtain ⟨c, c1, c2, hp'⟩ := hp
    obtain ⟨e, e1, e2, hq'⟩ := hq
    refine ⟨s * c + t * e, le_mean hs0 ht h1 c1 e1, mean_le hs0 ht h1 c2 e2, ?_⟩
    have k := mean_le hs0 ht h1 hp' hq'
    simp only [add_x, add_y, add_z, smul_x, smul_y, smul_z]
    have e' : s * p.z + t * q.z - (s * c + t * e) = s * (p.z - c) + t * (q.z - e) := by ring
    rw [e']
    linarith [jensen hs0 ht h1 p.x q.x, jensen hs0 ht h1 p.y q.y, jensen hs0 ht h1 (p.z - c) (q.z - e)]
  | cylinder r lz =>
    obtain ⟨hp', c1, c2⟩ := hp
    obtain ⟨hq', e1, e2⟩ := hq
    have k := mean_le hs0 ht h1 hp' hq'
    refine ⟨?_, ?_, ?_⟩ <;> simp only [add_x, add_y, add_z, smul_x, smul_y, smul_z]
    · linarith [jensen hs0 ht h1 p.x q.x, jensen hs0 ht h1 p.y q.y]
    · exact le_mean hs0 ht h1 c1 e1
    · exact mean_le hs0 ht h1 c2 e2
  | cone r lz =>
    obtain ⟨u, x, y, u0, u1, hxy, rfl⟩ := hp
    obtain ⟨v, z, w, v0, v1, hzw, rfl⟩ := hq
    have su := mul_nonneg hs0 u0
    have tv := mul_nonneg ht v0
    rcases eq_or_lt_of_le (add_nonneg su tv) with h | h
    · have z1 : s * u = 0 := by linarith
      have z2 : t * v = 0 := by linarith
      refine ⟨0, 0, 0, le_refl _, zero_le_one, by nlinarith [mul_self_nonneg r], ?_⟩
      apply V3.ext' <;> simp only [add_x, add_y, add_z, smul_x, smul_y, smul_z]
      · linear_combination x * z1 + z * z2
      · linear_combination y * z1 + w * z2
      · linear_combination (lz / 2) * h1 - lz * z1 - lz * z2
    · have hne := h.ne'
      have hab : s * u / (s * u + t * v) + t * v / (s * u + t * v) = 1 := by rw [← add_div, div_self hne]
      have ha := div_nonneg su h.le
      have hb := div_nonneg tv h.le
      refine ⟨s * u + t * v, s * u / (s * u + t * v) * x + t * v / (s * u + t * v) * z,
        s * u / (s * u + t * v) * y + t * v / (s * u + t * v) * w, h.le, mean_le hs0 ht h1 u1 v1, ?_, ?_⟩
      · have k := mean_le ha hb hab hxy hzw
        linarith [jensen ha hb hab x z, jensen ha hb hab y w]
      · apply V3.ext' <;> simp only [add_x, add_y, add_z, smul_x, smul_y, smul_z]
        · field_simp
        · field_simp
        · linear_combination (lz / 2) * h1
  | ellipsoid r =>
    obtain ⟨u, hu, rfl⟩ := hp
    obtain ⟨v, hv, rfl⟩ := hq
    have k := mean_le hs0 ht h1 hu hv
    refine ⟨s • u + t • v, ?_, ?_⟩
    · simp only [add_x, add_y, add_z, smul_x, smul_y, smul_z]
      linarith [jensen hs0 ht h1 u.x v.x, jensen hs0 ht h1 u.y v.y, jensen hs0 ht h1 u.z v.z]
    · apply V3.ext' <;> simp only [add_x, add_y, add_z, smul_x, smul_y, smul_z] <;> ring
  | halfspace n d =>
    have hp' : n.x * p.x + n.y * p.y + n.z * p.z ≤ d := hp
    have hq' : n.x * q.x + n.y * q.y + n.z * q.z ≤ d := hq
    have k := mean_le hs0 ht h1 hp' hq'
    show n.x * (s • p + t • q).x + n.y * (s • p + t • q).y + n.z * (s • p + t • q).z ≤ d
    simp only [add_x, add_y, add_z, smul_x, smul_y, smul_z]
    linarith
  | plane n d =>
    have hp' : n.x * p.x + n.y * p.y + n.z * p.z = d := hp
    have hq' : n.x * q.x + n.y * q.y + n.z * q.z = d := hq
    show n.x * (s • p + t • q).x + n.y * (s • p + t • q).y + n.z * (s • p + t • q).z = d
    simp only [add_x, add_y, add_z, smul_x, smul_y, smul_z]
    linear_combination s * hp' + t * hq' + d * h1
  | triangle a b c => rw [hs]; exact HullOf.seg t ht ht1 hp hq
  | convex vs => rw [hs]; exact HullOf.seg t ht ht1 hp hq

/-- So is a shape at a pose. -/
theorem placed_convex {A : Set (V3 ℝ)} (h : ConvexSet A) (R : M3 ℝ) (t : V3 ℝ) : ConvexSet (Placed R t A) := by
  rintro _ ⟨p, hp, rfl⟩ _ ⟨q, hq, rfl⟩ u h0 h1
  refine ⟨_, h p hp q hq u h0 h1, ?_⟩
  apply V3.ext' <;> simp [M3.mulVec, dot] <;> ring

/-- The differences of two convex sets, rotated back by `R`, are convex. -/
theorem diff_convex {A B : Set (V3 ℝ)} (hA : ConvexSet A) (hB : ConvexSet B) (R : M3 ℝ) :
    ConvexSet {x | ∃ a ∈ A, ∃ b ∈ B, R.mulVec x = a - b} := by
  rintro x ⟨a, ha, b, hb, e⟩ y ⟨c, hc, d, hd, f⟩ t h0 h1
  refine ⟨_, hA a ha c hc t h0 h1, _, hB b hb d hd t h0 h1, ?_⟩
  have k : R.mulVec ((1 - t) • x + t • y) = (1 - t) • R.mulVec x + t • R.mulVec y := by
    apply V3.ext' <;> simp [M3.mulVec, dot] <;> ring
  rw [k, e, f]
  v3

end Fcl
