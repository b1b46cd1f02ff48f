import Verif.AABB.Spec
import Mathlib.Tactic.Linarith
import Mathlib.Tactic.Positivity

/-! Helper lemmas about the AABB model. -/

namespace Fcl
namespace AABB
variable {K : Type*} [LinearOrder K]

theorem overlap_iff (a b : AABB K) : a.overlap b = true ↔
    (a.lo.x ≤ b.hi.x ∧ b.lo.x ≤ a.hi.x) ∧ (a.lo.y ≤ b.hi.y ∧ b.lo.y ≤ a.hi.y) ∧
    (a.lo.z ≤ b.hi.z ∧ b.lo.z ≤ a.hi.z) := by
  unfold overlap V3.anyGt V3.anyLt
  split <;> rename_i h
  · simp only [Bool.or_eq_true, decide_eq_true_eq] at h
    simp only [Bool.false_eq_true, false_iff]
    rintro ⟨⟨h1, _⟩, ⟨h2, _⟩, h3, _⟩
    rcases h with (h | h) | h
    · exact absurd h (not_lt.2 h1)
    · exact absurd h (not_lt.2 h2)
    · exact absurd h (not_lt.2 h3)
  · split <;> rename_i h'
    · simp only [Bool.or_eq_true, decide_eq_true_eq] at h'
      simp only [Bool.false_eq_true, false_iff]
      rintro ⟨⟨_, h1⟩, ⟨_, h2⟩, _, h3⟩
      rcases h' with (h | h) | h
      · exact absurd h (not_lt.2 h1)
      · exact absurd h (not_lt.2 h2)
      · exact absurd h (not_lt.2 h3)
    · simp only [Bool.or_eq_true, decide_eq_true_eq, not_or, gt_iff_lt, not_lt] at h h'
      simp [h, h']

theorem contain_iff (a b : AABB K) : a.contain b = true ↔
    (a.lo.x ≤ b.lo.x ∧ b.hi.x ≤ a.hi.x) ∧ (a.lo.y ≤ b.lo.y ∧ b.hi.y ≤ a.hi.y) ∧
    (a.lo.z ≤ b.lo.z ∧ b.hi.z ≤ a.hi.z) := by
  have := overlap_iff a ⟨b.hi, b.lo⟩
  simpa [overlap, contain] using this

theorem containPt_iff (a : AABB K) (p : V3 K) : a.containPt p = true ↔ p ∈ a.pts := by
  have := overlap_iff a ⟨p, p⟩
  simpa [overlap, containPt, pts] using this

theorem overlap_comm (a b : AABB K) : a.overlap b = b.overlap a := by
  rw [Bool.eq_iff_iff, overlap_iff, overlap_iff]
  tauto

theorem contain_refl (a : AABB K) : a.contain a = true := by simp [contain_iff]

theorem contain_trans {a b c : AABB K} (h : a.contain b = true) (h' : b.contain c = true) :
    a.contain c = true := by
  rw [contain_iff] at *
  obtain ⟨⟨h1, h2⟩, ⟨h3, h4⟩, h5, h6⟩ := h
  obtain ⟨⟨k1, k2⟩, ⟨k3, k4⟩, k5, k6⟩ := h'
  exact ⟨⟨h1.trans k1, k2.trans h2⟩, ⟨h3.trans k3, k4.trans h4⟩, h5.trans k5, k6.trans h6⟩

theorem contain_antisymm {a b : AABB K} (h : a.contain b = true) (h' : b.contain a = true) :
    a = b := by
  rw [contain_iff] at *
  obtain ⟨⟨h1, h2⟩, ⟨h3, h4⟩, h5, h6⟩ := h
  obtain ⟨⟨k1, k2⟩, ⟨k3, k4⟩, k5, k6⟩ := h'
  cases a; cases b
  rename_i l h l' h'
  cases l; cases h; cases l'; cases h'
  simp only [mk.injEq, V3.mk.injEq]
  simp only at *
  refine ⟨⟨?_, ?_, ?_⟩, ?_, ?_, ?_⟩ <;> apply le_antisymm <;> assumption

theorem merge_contain_left (a b : AABB K) : (a.merge b).contain a = true := by
  simp [contain_iff, merge, V3.cmin, V3.cmax]

theorem merge_contain_right (a b : AABB K) : (a.merge b).contain b = true := by
  simp [contain_iff, merge, V3.cmin, V3.cmax]

theorem merge_least {a b c : AABB K} (h : c.contain a = true) (h' : c.contain b = true) :
    c.contain (a.merge b) = true := by
  rw [contain_iff] at *
  simp only [merge, V3.cmin, V3.cmax, le_min_iff, max_le_iff]
  tauto

theorem merge_comm (a b : AABB K) : a.merge b = b.merge a := by
  simp [merge, V3.cmin, V3.cmax, min_comm, max_comm]

theorem overlap_mono {a a' b b' : AABB K} (h : a'.contain a = true) (h' : b'.contain b = true)
    (ho : a.overlap b = true) : a'.overlap b' = true := by
  rw [contain_iff] at h h'
  rw [overlap_iff] at *
  obtain ⟨⟨h1, h2⟩, ⟨h3, h4⟩, h5, h6⟩ := h
  obtain ⟨⟨k1, k2⟩, ⟨k3, k4⟩, k5, k6⟩ := h'
  obtain ⟨⟨o1, o2⟩, ⟨o3, o4⟩, o5, o6⟩ := ho
  exact ⟨⟨h1.trans (o1.trans k2), k1.trans (o2.trans h2)⟩,
    ⟨h3.trans (o3.trans k4), k3.trans (o4.trans h4)⟩,
    h5.trans (o5.trans k6), k5.trans (o6.trans h6)⟩

theorem Valid.merge_left {a b : AABB K} (h : a.Valid) : (a.merge b).Valid := by
  obtain ⟨h1, h2, h3⟩ := h
  refine ⟨?_, ?_, ?_⟩ <;> simp [AABB.merge, V3.cmin, V3.cmax, *]

section dist
variable [ops : ArithOps K] [LawfulArith K]

theorem le_distStep (r amin amax bmin bmax : K) : r ≤ distStep r amin amax bmin bmax := by
  unfold distStep
  split
  · exact LawfulArith.le_add_sq _ _
  · split
    · exact LawfulArith.le_add_sq _ _
    · exact le_rfl

theorem distStep_mono {r r' amin amax bmin bmax amin' amax' bmin' bmax' : K} (hr : r' ≤ r)
    (ha : amin' ≤ amin) (ha' : amax ≤ amax') (hb : bmin' ≤ bmin) (hb' : bmax ≤ bmax')
    (va : amin ≤ amax) (vb : bmin ≤ bmax) :
    distStep r' amin' amax' bmin' bmax' ≤ distStep r amin amax bmin bmax := by
  unfold distStep
  by_cases h1 : amin' > bmax'
  · have : amin > bmax := lt_of_le_of_lt hb' (lt_of_lt_of_le h1 ha)
    rw [if_pos h1, if_pos this]
    exact LawfulArith.add_le hr (LawfulArith.gap_le hb' h1.le ha)
  · rw [if_neg h1]
    by_cases h2 : bmin' > amax'
    · have h3 : bmin > amax := lt_of_le_of_lt ha' (lt_of_lt_of_le h2 hb)
      have h4 : ¬ amin > bmax := not_lt.2 (va.trans (h3.le.trans vb))
      rw [if_pos h2, if_neg h4, if_pos h3]
      exact LawfulArith.add_le hr (LawfulArith.gap_le ha' h2.le hb)
    · rw [if_neg h2]
      exact hr.trans (le_distStep _ _ _ _ _)

/-- Enlarging both boxes does not increase the distance. -/
theorem distance_anti {a a' b b' : AABB K} (h : a'.contain a = true) (h' : b'.contain b = true)
    (va : a.Valid) (vb : b.Valid) : a'.distance b' ≤ a.distance b := by
  rw [contain_iff] at h h'
  obtain ⟨⟨h1, h2⟩, ⟨h3, h4⟩, h5, h6⟩ := h
  obtain ⟨⟨k1, k2⟩, ⟨k3, k4⟩, k5, k6⟩ := h'
  obtain ⟨v1, v2, v3⟩ := va
  obtain ⟨w1, w2, w3⟩ := vb
  exact LawfulArith.sqrt_le (distStep_mono (distStep_mono (distStep_mono le_rfl h1 h2 k1 k2 v1 w1)
    h3 h4 k3 k4 v2 w2) h5 h6 k5 k6 v3 w3)

omit [LawfulArith K] in
theorem distStep_comm (r amin amax bmin bmax : K) (ha : amin ≤ amax) (hb : bmin ≤ bmax) :
    distStep r amin amax bmin bmax = distStep r bmin bmax amin amax := by
  unfold distStep
  by_cases h1 : amin > bmax
  · have h2 : ¬ bmin > amax := not_lt.2 (hb.trans (h1.le.trans ha))
    simp [h1, h2]
  · by_cases h2 : bmin > amax <;> simp [h1, h2]

omit [LawfulArith K] in
theorem distance_comm {a b : AABB K} (va : a.Valid) (vb : b.Valid) : a.distance b = b.distance a := by
  unfold distance
  dsimp only
  rw [distStep_comm _ _ _ _ _ va.1 vb.1, distStep_comm _ _ _ _ _ va.2.1 vb.2.1,
    distStep_comm _ _ _ _ _ va.2.2 vb.2.2]

end dist

/-- Exact real arithmetic satisfies the laws. -/
instance : LawfulArith ℝ where
  add_le h h' := add_le_add h h'
  le_add_sq a d := le_add_of_nonneg_right (mul_self_nonneg d)
  gap_le := by
    intro p q p' q' h1 h2 h3
    show (p - q) * (p - q) ≤ (p' - q') * (p' - q')
    nlinarith
  sqrt_le h := Real.sqrt_le_sqrt h

/-- A rounding function on the reals: monotone, idempotent, keeping zero. Rounding to nearest or
in any fixed direction to a set of machine numbers containing zero is of this kind (away from overflow
to infinity). -/
structure Rounding where
  rnd : ℝ → ℝ
  mono : Monotone rnd
  idem : ∀ x, rnd (rnd x) = rnd x
  zero : rnd 0 = 0

/-- The machine numbers of a rounding. -/
def Rounding.Num (R : Rounding) : Type := {x : ℝ // R.rnd x = x}

noncomputable instance (R : Rounding) : LinearOrder R.Num :=
  inferInstanceAs (LinearOrder {x : ℝ // R.rnd x = x})

/-- Rounded arithmetic: every operation is the real one followed by the rounding. -/
noncomputable instance (R : Rounding) : ArithOps R.Num where
  zero := ⟨0, R.zero⟩
  add a b := ⟨R.rnd (a.1 + b.1), R.idem _⟩
  sub a b := ⟨R.rnd (a.1 - b.1), R.idem _⟩
  mul a b := ⟨R.rnd (a.1 * b.1), R.idem _⟩
  sqrt a := ⟨R.rnd (Real.sqrt a.1), R.idem _⟩

instance (R : Rounding) : LawfulArith R.Num where
  add_le h h' := R.mono (add_le_add h h')
  le_add_sq a d := by
    show a.1 ≤ R.rnd (a.1 + R.rnd (d.1 * d.1))
    have h0 : 0 ≤ R.rnd (d.1 * d.1) := by
      rw [← R.zero]; exact R.mono (mul_self_nonneg d.1)
    calc a.1 = R.rnd a.1 := a.2.symm
      _ ≤ _ := R.mono (le_add_of_nonneg_right h0)
  gap_le := by
    intro p q p' q' h1 h2 h3
    have h1' : p'.1 ≤ p.1 := h1
    have h2' : p.1 ≤ q.1 := h2
    have h3' : q.1 ≤ q'.1 := h3
    show R.rnd (R.rnd (p.1 - q.1) * R.rnd (p.1 - q.1)) ≤
      R.rnd (R.rnd (p'.1 - q'.1) * R.rnd (p'.1 - q'.1))
    apply R.mono
    have a1 : R.rnd (p'.1 - q'.1) ≤ R.rnd (p.1 - q.1) := R.mono (by linarith)
    have a2 : R.rnd (p.1 - q.1) ≤ 0 := by
      rw [← R.zero]; exact R.mono (by linarith)
    nlinarith
  sqrt_le h := R.mono (Real.sqrt_le_sqrt h)

end AABB
end Fcl
