import Verif.Geom.Space
import Mathlib.Tactic.LinearCombination
import Mathlib.Data.Finset.Max
import Mathlib.Tactic.Positivity
import Mathlib.Tactic.Linarith

/-!
# Separating directions can be chosen among cross products of edges

A direction that has nonnegative products with finitely many vectors and a positive product with one more vector can be
replaced by one that is perpendicular to two of the vectors, or by one that lies in the plane of all of them.
-/

namespace Fcl
namespace Sep
open V3

variable {x y u w a b c n : V3 ℝ}

theorem cross_dot_left (a b : V3 ℝ) : a.dot (a.cross b) = 0 := by simp only [dot, cross]; ring
theorem cross_dot_right (a b : V3 ℝ) : b.dot (a.cross b) = 0 := by simp only [dot, cross]; ring

/-- A vector perpendicular to two independent ones is a multiple of their cross product. -/
theorem parallel_cross (hc : a.cross b ≠ 0) (ha : a.dot x = 0) (hb : b.dot x = 0) : ∃ k : ℝ, x = k • a.cross b := by
  obtain ⟨m, hm⟩ : ∃ m, m = a.cross b := ⟨_, rfl⟩
  have h0 : m.dot m ≠ 0 := fun h => hc (hm ▸ dot_self_eq_zero h)
  have key : m.dot m • x = m.dot x • m := by
    subst hm
    simp only [dot, cross] at *
    apply ext' <;> simp only [smul_x, smul_y, smul_z]
    · grind
    · grind
    · grind
  refine ⟨m.dot x / m.dot m, ?_⟩
  rw [← hm]
  have : x = (1 / m.dot m) • (m.dot m • x) := by
    apply ext' <;> simp only [smul_x, smul_y, smul_z] <;> field_simp
  refine this.trans ?_
  rw [key]
  apply ext' <;> simp only [smul_x, smul_y, smul_z] <;> ring

/-- Moving along `u` until a first product becomes zero. -/
theorem shoot_neg {L : List (V3 ℝ)} (hx : ∀ a ∈ L, 0 ≤ a.dot x) (hu : ∃ a ∈ L, a.dot u < 0) :
    ∃ t : ℝ, (∀ a ∈ L, 0 ≤ a.dot (x + t • u)) ∧ ∃ a ∈ L, a.dot u ≠ 0 ∧ a.dot (x + t • u) = 0 := by
  classical
  obtain ⟨a0, h0, hn0⟩ := hu
  obtain ⟨a, ha, hmin⟩ := Finset.exists_min_image (L.toFinset.filter fun a => a.dot u < 0) (fun a => a.dot x / -a.dot u)
    ⟨a0, by simp [h0, hn0]⟩
  simp only [Finset.mem_filter, List.mem_toFinset] at ha hmin
  obtain ⟨haL, hau⟩ := ha
  have hp : 0 < -a.dot u := by linarith
  obtain ⟨t, ht⟩ : ∃ t, t = a.dot x / -a.dot u := ⟨_, rfl⟩
  have t0 : 0 ≤ t := by rw [ht]; exact div_nonneg (hx a haL) hp.le
  have ta : t * -a.dot u = a.dot x := by rw [ht]; exact div_mul_cancel₀ _ hp.ne'
  refine ⟨t, fun b hb => ?_, a, haL, by linarith, ?_⟩
  · rw [dot_add, dot_smul]
    by_cases hbu : b.dot u < 0
    · have := hmin b ⟨hb, hbu⟩
      rw [← ht] at this
      have hq : 0 < -b.dot u := by linarith
      rw [le_div_iff₀ hq] at this
      linarith
    · have := mul_nonneg t0 (not_lt.1 hbu)
      have := hx b hb
      linarith
  · rw [dot_add, dot_smul]; linarith

theorem shoot {L : List (V3 ℝ)} (hx : ∀ a ∈ L, 0 ≤ a.dot x) (hu : ∃ a ∈ L, a.dot u ≠ 0) :
    ∃ t : ℝ, (∀ a ∈ L, 0 ≤ a.dot (x + t • u)) ∧ ∃ a ∈ L, a.dot u ≠ 0 ∧ a.dot (x + t • u) = 0 := by
  obtain ⟨a, ha, h⟩ := hu
  rcases lt_or_gt_of_ne h with h | h
  · exact shoot_neg hx ⟨a, ha, h⟩
  · obtain ⟨t, h1, b, hb, h2, h3⟩ := shoot_neg (u := -u) hx ⟨a, ha, by rw [dot_neg]; linarith⟩
    have e : x + t • -u = x + (-t) • u := by v3
    rw [e] at h1 h3
    exact ⟨-t, h1, b, hb, by rwa [dot_neg, neg_ne_zero] at h2, h3⟩

/-- Two vectors that are no multiples of each other: some direction perpendicular to a given one sees one of them. -/
theorem exists_side (hw : w ≠ 0) (hc : a.cross b ≠ 0) : ∃ u, w.dot u = 0 ∧ (a.dot u ≠ 0 ∨ b.dot u ≠ 0) := by
  by_contra hn
  push Not at hn
  have key : ∀ v : V3 ℝ, v.dot (w.dot w • v - v.dot w • w) = 0 → w.dot w • v = v.dot w • w := fun v hv => by
    have h : (w.dot w • v - v.dot w • w).dot (w.dot w • v - v.dot w • w) = 0 := by
      have : (w.dot w • v - v.dot w • w).dot (w.dot w • v - v.dot w • w) = w.dot w * v.dot (w.dot w • v - v.dot w • w) := by
        simp only [dot, sub_x, sub_y, sub_z, smul_x, smul_y, smul_z]; ring
      rw [this, hv, mul_zero]
    have := dot_self_eq_zero h
    have hx := congrArg V3.x this
    have hy := congrArg V3.y this
    have hz := congrArg V3.z this
    simp only [sub_x, sub_y, sub_z, zero_x, zero_y, zero_z] at hx hy hz
    apply ext' <;> linarith
  have perp : ∀ v : V3 ℝ, w.dot (w.dot w • v - v.dot w • w) = 0 := fun v => by
    simp only [dot, sub_x, sub_y, sub_z, smul_x, smul_y, smul_z]; ring
  have ka := key a (hn _ (perp a)).1
  have kb := key b (hn _ (perp b)).2
  have hww : w.dot w ≠ 0 := fun h => hw (dot_self_eq_zero h)
  apply hc
  have : (w.dot w * w.dot w) • a.cross b = 0 := by
    have : (w.dot w * w.dot w) • a.cross b = (w.dot w • a).cross (w.dot w • b) := by
      apply ext' <;> simp only [smul_x, smul_y, smul_z, cross] <;> ring
    rw [this, ka, kb]
    apply ext' <;> simp only [smul_x, smul_y, smul_z, cross, zero_x, zero_y, zero_z] <;> ring
  have hx := congrArg V3.x this
  have hy := congrArg V3.y this
  have hz := congrArg V3.z this
  simp only [smul_x, smul_y, smul_z, zero_x, zero_y, zero_z, mul_eq_zero, or_self, hww, false_or] at hx hy hz
  exact ext' hx hy hz

/-- The direction can be chosen perpendicular to two of the vectors, or in the plane of all of them. -/
theorem choose {L : List (V3 ℝ)} (hx : ∀ a ∈ L, 0 ≤ a.dot x) (hw : 0 < w.dot x)
    (hL : ∃ a ∈ L, ∃ b ∈ L, a.cross b ≠ 0) :
    ∃ y, (∀ a ∈ L, 0 ≤ a.dot y) ∧ 0 < w.dot y ∧
      ((∃ a ∈ L, ∃ b ∈ L, ∃ k : ℝ, y = k • a.cross b) ∨
       ∃ n : V3 ℝ, (∀ a ∈ L, a.dot n = 0) ∧ ∃ a ∈ L, ∃ k : ℝ, y = k • n.cross a) := by
  obtain ⟨a, ha, b, hb, hab⟩ := hL
  have hw0 : w ≠ 0 := by rintro rfl; simp [dot] at hw
  obtain ⟨u, wu, hu⟩ := exists_side hw0 hab
  obtain ⟨t, h1, a1, ha1, au, az⟩ := shoot (u := u) hx (hu.elim (fun h => ⟨a, ha, h⟩) fun h => ⟨b, hb, h⟩)
  obtain ⟨x1, e1⟩ : ∃ x1, x1 = x + t • u := ⟨_, rfl⟩
  rw [← e1] at h1 az
  have hw1 : 0 < w.dot x1 := by rw [e1, dot_add, dot_smul, wu]; linarith
  have a10 : a1 ≠ 0 := by rintro rfl; simp [dot] at au
  have hn : w.cross a1 ≠ 0 := by
    intro h
    apply a10
    have : w.dot x1 • a1 = 0 := by
      have e : (w.cross a1).cross x1 = w.dot x1 • a1 - a1.dot x1 • w := by
        apply ext' <;> simp only [smul_x, smul_y, smul_z, cross, sub_x, sub_y, sub_z, dot] <;> ring
      rw [h, az] at e
      have hx := congrArg V3.x e
      have hy := congrArg V3.y e
      have hz := congrArg V3.z e
      simp only [smul_x, smul_y, smul_z, cross, sub_x, sub_y, sub_z, zero_x, zero_y, zero_z, zero_mul,
        _root_.sub_self, sub_zero] at hx hy hz
      apply ext' <;> simp only [smul_x, smul_y, smul_z, zero_x, zero_y, zero_z] <;> linarith
    have hx := congrArg V3.x this
    have hy := congrArg V3.y this
    have hz := congrArg V3.z this
    simp only [smul_x, smul_y, smul_z, zero_x, zero_y, zero_z, mul_eq_zero, hw1.ne', false_or] at hx hy hz
    exact ext' hx hy hz
  by_cases hall : ∃ a ∈ L, a.dot (w.cross a1) ≠ 0
  · obtain ⟨t2, h2, a2, ha2, au2, az2⟩ := shoot h1 hall
    obtain ⟨x2, e2⟩ : ∃ x2, x2 = x1 + t2 • w.cross a1 := ⟨_, rfl⟩
    rw [← e2] at h2 az2
    have hw2 : 0 < w.dot x2 := by rw [e2, dot_add, dot_smul, cross_dot_left]; linarith
    have hz1 : a1.dot x2 = 0 := by rw [e2, dot_add, dot_smul, cross_dot_right, az]; ring
    have hc : a1.cross a2 ≠ 0 := by
      intro h
      apply au2
      have : a2.dot (w.cross a1) = w.dot (a1.cross a2) := by simp only [dot, cross]; ring
      rw [this, h]; simp [dot]
    obtain ⟨k, hk⟩ := parallel_cross hc hz1 az2
    exact ⟨x2, h2, hw2, .inl ⟨a1, ha1, a2, ha2, k, hk⟩⟩
  · push Not at hall
    obtain ⟨n, en⟩ : ∃ n, n = w.cross a1 := ⟨_, rfl⟩
    rw [← en] at hall hn
    have hwn : w.dot n = 0 := en ▸ cross_dot_left _ _
    have han : a1.dot n = 0 := hall a1 ha1
    -- the component of `x1` along `n` is dropped
    have hnn : n.dot n ≠ 0 := fun h => hn (dot_self_eq_zero h)
    obtain ⟨y, ey⟩ : ∃ y, y = x1 - (n.dot x1 / n.dot n) • n := ⟨_, rfl⟩
    have hy : ∀ v : V3 ℝ, v.dot n = 0 → v.dot y = v.dot x1 := fun v hv => by
      rw [ey, dot_sub, dot_smul, hv]; ring
    have hny : n.dot y = 0 := by rw [ey, dot_sub, dot_smul]; field_simp; ring
    have hc : n.cross a1 ≠ 0 := by
      intro h
      apply hnn
      have e : n.dot n * a1.dot a1 = n.dot a1 * n.dot a1 + (n.cross a1).dot (n.cross a1) := by
        simp only [dot, cross]; ring
      rw [h, dot_comm n a1, han] at e
      have : n.dot n * a1.dot a1 = 0 := by rw [e]; simp [dot]
      exact (mul_eq_zero.1 this).resolve_right fun h => a10 (dot_self_eq_zero h)
    obtain ⟨k, hk⟩ := parallel_cross hc hny (by rw [hy a1 han, az])
    exact ⟨y, fun a ha => by rw [hy a (hall a ha)]; exact h1 a ha, by rw [hy w hwn]; exact hw1,
      .inr ⟨n, hall, a1, ha1, k, hk⟩⟩

end Sep
end Fcl
