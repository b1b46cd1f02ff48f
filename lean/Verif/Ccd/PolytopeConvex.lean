import Verif.Ccd.PolytopeBorder
import Verif.Ccd.GjkLemmas
import Mathlib.Tactic.LinearCombination
import Mathlib.Tactic.Linarith
import Mathlib.Tactic.FieldSimp

/-!
# The border of what is seen of a convex polytope does not touch itself
-/

namespace Fcl
namespace Pt

open V3

/-- A direction `d` on the outline as seen along `r`: there is a plane along `r` and `d` with all the directions on one side. -/
theorem outline {D : V3 ℝ → Prop} (full : ∀ k : V3 ℝ, k ≠ 0 → ∃ d, D d ∧ k.dot d ≠ 0) {n m r d : V3 ℝ} (hn : 0 < n.dot r)
    (hm : m.dot r ≤ 0) (m0 : m ≠ 0) (nd : n.dot d = 0) (md : m.dot d = 0) (d0 : d ≠ 0) (nD : ∀ x, D x → n.dot x ≤ 0)
    (mD : ∀ x, D x → m.dot x ≤ 0) :
    ∃ l : ℝ, l ≠ 0 ∧ (r.cross d) ≠ 0 ∧ ∀ x, D x → l * (r.cross d).dot x ≤ 0 := by
  set k : V3 ℝ := (-(m.dot r)) • n + (n.dot r) • m with hk
  have kdot : ∀ x, k.dot x = -(m.dot r) * n.dot x + n.dot r * m.dot x := fun x => by
    simp [hk, dot, V3.add_x, V3.add_y, V3.add_z, V3.smul_x, V3.smul_y, V3.smul_z]; ring
  have kD : ∀ x, D x → k.dot x ≤ 0 := fun x hx => by
    rw [kdot]
    have := mul_nonneg (neg_nonneg.2 hm) (neg_nonneg.2 (nD x hx))
    have := mul_nonneg hn.le (neg_nonneg.2 (mD x hx))
    linarith
  have k0 : k ≠ 0 := by
    intro h0
    obtain ⟨x, hx, hne⟩ := full m m0
    have h1 := kdot x
    rw [h0] at h1
    have : (0 : V3 ℝ).dot x = 0 := by simp [dot]
    rw [this] at h1
    have h2 := mul_nonneg (neg_nonneg.2 hm) (neg_nonneg.2 (nD x hx))
    have h3 := mD x hx
    have h4 : n.dot r * m.dot x < 0 := mul_neg_of_pos_of_neg hn (lt_of_le_of_ne h3 hne)
    linarith
  have c0 : r.cross d ≠ 0 := by
    intro h0
    have hx := congrArg V3.x h0
    have hy := congrArg V3.y h0
    have hz := congrArg V3.z h0
    simp only [cross, zero_x, zero_y, zero_z] at hx hy hz
    have dd : 0 < d.dot d := by
      rcases lt_or_eq_of_le (show 0 ≤ d.dot d by simp only [dot]; nlinarith [mul_self_nonneg d.x, mul_self_nonneg d.y, mul_self_nonneg d.z]) with h | h
      · exact h
      · exfalso
        apply d0
        simp only [dot] at h
        apply V3.ext' <;> simp <;> nlinarith [mul_self_nonneg d.x, mul_self_nonneg d.y, mul_self_nonneg d.z]
    have : n.dot r * d.dot d = 0 := by
      have e : n.dot r * d.dot d = (r.dot d) * n.dot d + n.x * (r.x * (d.y * d.y + d.z * d.z) - d.x * (r.y * d.y + r.z * d.z)) +
          n.y * (r.y * (d.x * d.x + d.z * d.z) - d.y * (r.x * d.x + r.z * d.z)) +
          n.z * (r.z * (d.x * d.x + d.y * d.y) - d.z * (r.x * d.x + r.y * d.y)) := by simp only [dot]; ring
      rw [e, nd]
      linear_combination n.x * (d.y * hz - d.z * hy) + n.y * (d.z * hx - d.x * hz) + n.z * (d.x * hy - d.y * hx)
    rcases mul_eq_zero.1 this with h | h <;> linarith
  have kr : k.dot r = 0 := by rw [kdot]; ring
  have kd : k.dot d = 0 := by rw [kdot, nd, md]; ring
  have key : ∀ x, (r.cross d).dot (r.cross d) * k.dot x = k.dot (r.cross d) * (r.cross d).dot x := by
    intro x
    have e : (r.cross d).dot (r.cross d) * k.dot x - k.dot (r.cross d) * (r.cross d).dot x =
        (x.dot r * d.dot d - x.dot d * r.dot d) * k.dot r + (x.dot d * r.dot r - x.dot r * r.dot d) * k.dot d := by
      simp only [dot, cross]; ring
    rw [kr, kd] at e
    linarith
  have cc : 0 < (r.cross d).dot (r.cross d) := by
    set c := r.cross d
    rcases lt_or_eq_of_le (show 0 ≤ c.dot c by simp only [dot]; nlinarith [mul_self_nonneg c.x, mul_self_nonneg c.y, mul_self_nonneg c.z]) with h | h
    · exact h
    · exfalso
      apply c0
      simp only [dot] at h
      apply V3.ext' <;> simp <;> nlinarith [mul_self_nonneg c.x, mul_self_nonneg c.y, mul_self_nonneg c.z]
  refine ⟨k.dot (r.cross d), ?_, c0, fun x hx => ?_⟩
  · intro h0
    apply k0
    have z : ∀ x, k.dot x = 0 := fun x => by
      have := key x
      rw [h0, zero_mul] at this
      exact (mul_eq_zero.1 this).resolve_left cc.ne'
    have zx := z ⟨1, 0, 0⟩
    have zy := z ⟨0, 1, 0⟩
    have zz := z ⟨0, 0, 1⟩
    simp only [dot, mul_one, mul_zero, _root_.add_zero, _root_.zero_add] at zx zy zz
    apply V3.ext' <;> assumption
  · rw [← key x]
    exact mul_nonpos_of_nonneg_of_nonpos cc.le (kD x hx)

/-- Two directions on the same side of the outline are the same. -/
theorem outline_eq {D : V3 ℝ → Prop} (full : ∀ k : V3 ℝ, k ≠ 0 → ∃ d, D d ∧ k.dot d ≠ 0) {n n' r d d' : V3 ℝ} (hn : 0 < n.dot r)
    (hn' : 0 < n'.dot r) (nd : n.dot d = 0) (nd' : n'.dot d' = 0) (Dd : D d) (Dd' : D d') (nD : ∀ x, D x → n.dot x ≤ 0)
    (nD' : ∀ x, D x → n'.dot x ≤ 0) {l l' : ℝ} (ll : 0 < l * l') (c0 : r.cross d ≠ 0) (c0' : r.cross d' ≠ 0)
    (h : ∀ x, D x → l * (r.cross d).dot x ≤ 0) (h' : ∀ x, D x → l' * (r.cross d').dot x ≤ 0) :
    ∃ t : ℝ, 0 < t ∧ d' = t • d := by
  have pos : ∀ c : V3 ℝ, c ≠ 0 → 0 < c.dot c := by
    intro c hc
    rcases lt_or_eq_of_le (show 0 ≤ c.dot c by simp only [dot]; nlinarith [mul_self_nonneg c.x, mul_self_nonneg c.y, mul_self_nonneg c.z]) with h | h
    · exact h
    · exfalso
      apply hc
      simp only [dot] at h
      apply V3.ext' <;> simp <;> nlinarith [mul_self_nonneg c.x, mul_self_nonneg c.y, mul_self_nonneg c.z]
  have l0 : l ≠ 0 := fun e => by rw [e, zero_mul] at ll; exact lt_irrefl _ ll
  have anti : (r.cross d').dot d = -(r.cross d).dot d' := by simp only [dot, cross]; ring
  have det : (r.cross d).dot d' = 0 := by
    have h1 := h d' Dd'
    have h2 := h' d Dd
    rw [anti] at h2
    -- l * a ≤ 0 and -(l' * a) ≤ 0 with l l' > 0
    have h3 : l * l * ((r.cross d).dot d' * (r.cross d).dot d') ≤ 0 := by
      have h4 : 0 ≤ l' * (r.cross d).dot d' := by linarith
      have h5 := mul_nonpos_of_nonpos_of_nonneg h1 h4
      have h6 : l * l' * ((r.cross d).dot d' * (r.cross d).dot d') ≤ 0 := by linarith
      have h7 := mul_self_nonneg ((r.cross d).dot d')
      have h8 : (r.cross d).dot d' * (r.cross d).dot d' = 0 := by
        by_contra hne
        have := mul_pos ll (lt_of_le_of_ne h7 (Ne.symm hne))
        linarith
      rw [h8, mul_zero]
    have h7 := mul_self_nonneg ((r.cross d).dot d')
    have h8 := mul_pos_iff.2 (Or.inl ⟨lt_of_le_of_ne (mul_self_nonneg l) (Ne.symm (mul_self_ne_zero.2 l0)), (one_pos : (0 : ℝ) < 1)⟩)
    have h9 : (r.cross d).dot d' * (r.cross d).dot d' = 0 := by
      by_contra hne
      have := mul_pos (lt_of_le_of_ne (mul_self_nonneg l) (Ne.symm (mul_self_ne_zero.2 l0))) (lt_of_le_of_ne h7 (Ne.symm hne))
      linarith
    exact mul_self_eq_zero.1 h9
  set c := r.cross d with hcd
  set c' := r.cross d' with hcd'
  have cc := pos c c0
  have cc' := pos c' c0'
  have rr : 0 < r.dot r := pos r fun e => by rw [e] at hn; simp [dot] at hn
  -- `c'` is along `c`
  have par : ∀ x, c.dot c * c'.dot x = c.dot c' * c.dot x := by
    intro x
    have : c.dot c * c'.dot x - c.dot c' * c.dot x = (c.dot d') * (x.dot (r.cross c)) := by
      simp only [hcd, hcd', dot, cross]; ring
    rw [det, zero_mul] at this
    linarith
  have q0 : c.dot c' ≠ 0 := fun e => by
    have := par c'
    rw [e, zero_mul] at this
    exact (mul_pos cc cc').ne' this
  have qpos : 0 < c.dot c' := by
    by_contra hq
    have hq : c.dot c' < 0 := lt_of_le_of_ne (not_lt.1 hq) q0
    obtain ⟨x, hx, hne⟩ := full c c0
    have h1 := h x hx
    have h2 := h' x hx
    have h3 : c.dot c * (l' * c'.dot x) ≤ 0 := mul_nonpos_of_nonneg_of_nonpos cc.le h2
    have h4 : c.dot c' * (l' * c.dot x) ≤ 0 := by
      have := par x
      calc c.dot c' * (l' * c.dot x) = l' * (c.dot c' * c.dot x) := by ring
        _ = l' * (c.dot c * c'.dot x) := by rw [this]
        _ = c.dot c * (l' * c'.dot x) := by ring
        _ ≤ 0 := h3
    have h5 : 0 ≤ l' * c.dot x := by
      by_contra hlt
      have := mul_pos_of_neg_of_neg hq (not_le.1 hlt)
      linarith
    have h6 := mul_nonpos_of_nonpos_of_nonneg h1 h5
    have h7 : 0 < l * l' * (c.dot x * c.dot x) := mul_pos ll (lt_of_le_of_ne (mul_self_nonneg _) (Ne.symm (mul_self_ne_zero.2 hne)))
    nlinarith
  -- `d'` is a combination of `d` and `r`
  have lin : ∀ x : V3 ℝ, r.dot r * (c.dot c * x.dot d' - c.dot c' * x.dot d) =
      (c.dot c * r.dot d' - c.dot c' * r.dot d) * x.dot r := by
    intro x
    have e : r.dot r * (c.dot c * x.dot d' - c.dot c' * x.dot d) - (c.dot c * r.dot d' - c.dot c' * r.dot d) * x.dot r =
        c.dot c * c'.dot (r.cross x) - c.dot c' * c.dot (r.cross x) := by
      have e1 : ∀ y : V3 ℝ, (r.cross y).dot (r.cross x) = r.dot r * x.dot y - r.dot y * x.dot r := by
        intro y; simp only [dot, cross]; ring
      have e2 : c.dot (r.cross x) = r.dot r * x.dot d - r.dot d * x.dot r := e1 d
      have e3 : c'.dot (r.cross x) = r.dot r * x.dot d' - r.dot d' * x.dot r := e1 d'
      rw [e2, e3]
      ring
    rw [par] at e
    linarith
  set b := c.dot c * r.dot d' - c.dot c' * r.dot d with hb
  have b1 : b ≤ 0 := by
    have := lin n
    rw [nd, mul_zero, _root_.sub_zero] at this
    by_contra hb'
    have h1 := mul_pos (not_le.1 hb') hn
    have h2 := mul_nonpos_of_nonneg_of_nonpos rr.le (mul_nonpos_of_nonneg_of_nonpos cc.le (nD d' Dd'))
    linarith
  have b2 : 0 ≤ b := by
    have := lin n'
    rw [nd', mul_zero, _root_.zero_sub] at this
    by_contra hb'
    have h1 := mul_neg_of_neg_of_pos (not_le.1 hb') hn'
    have h2 := mul_nonneg rr.le (neg_nonneg.2 (mul_nonpos_of_nonneg_of_nonpos qpos.le (nD' d Dd)))
    linarith
  have b0 : b = 0 := le_antisymm b1 b2
  refine ⟨c.dot c' / c.dot c, div_pos qpos cc, ?_⟩
  have comp : ∀ x : V3 ℝ, x.dot d' = c.dot c' / c.dot c * x.dot d := by
    intro x
    have := lin x
    rw [b0, zero_mul] at this
    have h1 := (mul_eq_zero.1 this).resolve_left rr.ne'
    field_simp
    linarith
  have cx := comp ⟨1, 0, 0⟩
  have cy := comp ⟨0, 1, 0⟩
  have cz := comp ⟨0, 0, 1⟩
  simp only [dot, one_mul, zero_mul, _root_.add_zero, _root_.zero_add] at cx cy cz
  apply V3.ext' <;> simp only [smul_x, smul_y, smul_z] <;> assumption

end Pt
end Fcl
