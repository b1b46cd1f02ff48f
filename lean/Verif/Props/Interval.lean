import Verif.Taylor.IntervalSpec
import Mathlib.Tactic.Positivity
import Mathlib.Tactic.FieldSimp

/-!
# C37: interval arithmetic; C58: interval vectors and matrices
-/

set_option linter.unusedSectionVars false
set_option linter.unusedSimpArgs false

namespace Fcl
variable {K : Type*} [Field K] [LinearOrder K] [IsStrictOrderedRing K]
open Iv

theorem Iv.mem_set {a : Iv K} {x : K} : x ∈ a.set ↔ a.lo ≤ x ∧ x ≤ a.hi := Iff.rfl

/-- C37, sum. -/
theorem C37_add {a b : Iv K} (ha : a.Valid) (hb : b.Valid) :
    Hull {z | ∃ x ∈ a.set, ∃ y ∈ b.set, z = x + y} (a.add b) := by
  simp only [Iv.Valid] at ha hb
  refine ⟨⟨⟨a.lo, ⟨le_rfl, ha⟩, b.lo, ⟨le_rfl, hb⟩, rfl⟩, ?_⟩, ⟨a.hi, ⟨ha, le_rfl⟩, b.hi, ⟨hb, le_rfl⟩, rfl⟩, ?_⟩
  · rintro z ⟨x, hx, y, hy, rfl⟩; exact add_le_add hx.1 hy.1
  · rintro z ⟨x, hx, y, hy, rfl⟩; exact add_le_add hx.2 hy.2

/-- C37, difference. -/
theorem C37_sub {a b : Iv K} (ha : a.Valid) (hb : b.Valid) :
    Hull {z | ∃ x ∈ a.set, ∃ y ∈ b.set, z = x - y} (a.sub b) := by
  simp only [Iv.Valid] at ha hb
  refine ⟨⟨⟨a.lo, ⟨le_rfl, ha⟩, b.hi, ⟨hb, le_rfl⟩, rfl⟩, ?_⟩, ⟨a.hi, ⟨ha, le_rfl⟩, b.lo, ⟨le_rfl, hb⟩, rfl⟩, ?_⟩
  · rintro z ⟨x, hx, y, hy, rfl⟩; exact sub_le_sub hx.1 hy.2
  · rintro z ⟨x, hx, y, hy, rfl⟩; exact sub_le_sub hx.2 hy.1

/-- C37, `a -= b` with another object on the right computes `a - b`. -/
theorem C37_subAssign (a b : Iv K) : subAssign (fun _ => b) a = a.sub b := rfl

/-- C37 fails for `a -= a`: the operand is read after it has been overwritten. When the width is smaller than
the distance to zero, an interval of negative numbers loses the difference of a member with itself. -/
theorem C37_subAssign_self_wrong {a : Iv K} (ha : a.Valid) (h : 2 * a.hi < a.lo) :
    a.lo ∈ a.set ∧ a.lo - a.lo ∉ (subAssign id a).set := by
  refine ⟨⟨le_rfl, ha⟩, fun hm => ?_⟩
  have := hm.2
  simp only [subAssign, id] at this
  linarith

example : (⟨-3, -2⟩ : Iv ℚ).Valid ∧ (2 : ℚ) * (-2) < -3 ∧ subAssign id (⟨-3, -2⟩ : Iv ℚ) = ⟨-1, -1⟩ := by decide +kernel

/-- C37, negation. -/
theorem C37_neg {a : Iv K} (ha : a.Valid) : Hull {z | ∃ x ∈ a.set, z = -x} a.neg := by
  simp only [Iv.Valid] at ha
  refine ⟨⟨⟨a.hi, ⟨ha, le_rfl⟩, rfl⟩, ?_⟩, ⟨a.lo, ⟨le_rfl, ha⟩, rfl⟩, ?_⟩
  · rintro z ⟨x, hx, rfl⟩; exact neg_le_neg hx.2
  · rintro z ⟨x, hx, rfl⟩; exact neg_le_neg hx.1

/-- C37, product with a number. -/
theorem C37_scale {a : Iv K} (ha : a.Valid) (d : K) : Hull {z | ∃ x ∈ a.set, z = x * d} (a.scale d) := by
  simp only [Iv.Valid] at ha
  unfold Iv.scale
  split
  · next h =>
    refine ⟨⟨⟨a.lo, ⟨le_rfl, ha⟩, rfl⟩, ?_⟩, ⟨a.hi, ⟨ha, le_rfl⟩, rfl⟩, ?_⟩
    · rintro z ⟨x, hx, rfl⟩; exact mul_le_mul_of_nonneg_right hx.1 h
    · rintro z ⟨x, hx, rfl⟩; exact mul_le_mul_of_nonneg_right hx.2 h
  · next h =>
    have h : d ≤ 0 := le_of_lt (not_le.1 h)
    refine ⟨⟨⟨a.hi, ⟨ha, le_rfl⟩, rfl⟩, ?_⟩, ⟨a.lo, ⟨le_rfl, ha⟩, rfl⟩, ?_⟩
    · rintro z ⟨x, hx, rfl⟩; exact mul_le_mul_of_nonpos_right hx.2 h
    · rintro z ⟨x, hx, rfl⟩; exact mul_le_mul_of_nonpos_right hx.1 h

theorem Iv.mul_le_corner {p q r s x y u : K} (hx0 : p ≤ x) (hx1 : x ≤ q) (hy0 : r ≤ y) (hy1 : y ≤ s)
    (h00 : p * r ≤ u) (h01 : p * s ≤ u) (h10 : q * r ≤ u) (h11 : q * s ≤ u) : x * y ≤ u := by
  have hp : p * y ≤ u := by
    rcases le_total 0 p with h | h
    · exact (mul_le_mul_of_nonneg_left hy1 h).trans h01
    · exact (mul_le_mul_of_nonpos_left hy0 h).trans h00
  have hq : q * y ≤ u := by
    rcases le_total 0 q with h | h
    · exact (mul_le_mul_of_nonneg_left hy1 h).trans h11
    · exact (mul_le_mul_of_nonpos_left hy0 h).trans h10
  rcases le_total 0 y with h | h
  · exact (mul_le_mul_of_nonneg_right hx1 h).trans hq
  · exact (mul_le_mul_of_nonpos_right hx0 h).trans hp

theorem Iv.corner_le_mul {p q r s x y u : K} (hx0 : p ≤ x) (hx1 : x ≤ q) (hy0 : r ≤ y) (hy1 : y ≤ s)
    (h00 : u ≤ p * r) (h01 : u ≤ p * s) (h10 : u ≤ q * r) (h11 : u ≤ q * s) : u ≤ x * y := by
  have := Iv.mul_le_corner (p := -q) (q := -p) (r := r) (s := s) (x := -x) (y := y) (u := -u)
    (neg_le_neg hx1) (neg_le_neg hx0) hy0 hy1 (by linarith) (by linarith) (by linarith) (by linarith)
  linarith

theorem Hull.mul_of {a b : Iv K} (ha : a.Valid) (hb : b.Valid) {x1 y1 x2 y2 : K}
    (hx1 : x1 = a.lo ∨ x1 = a.hi) (hy1 : y1 = b.lo ∨ y1 = b.hi) (hx2 : x2 = a.lo ∨ x2 = a.hi)
    (hy2 : y2 = b.lo ∨ y2 = b.hi)
    (l00 : x1 * y1 ≤ a.lo * b.lo) (l01 : x1 * y1 ≤ a.lo * b.hi) (l10 : x1 * y1 ≤ a.hi * b.lo)
    (l11 : x1 * y1 ≤ a.hi * b.hi)
    (u00 : a.lo * b.lo ≤ x2 * y2) (u01 : a.lo * b.hi ≤ x2 * y2) (u10 : a.hi * b.lo ≤ x2 * y2)
    (u11 : a.hi * b.hi ≤ x2 * y2) :
    Hull {z | ∃ x ∈ a.set, ∃ y ∈ b.set, z = x * y} ⟨x1 * y1, x2 * y2⟩ := by
  simp only [Iv.Valid] at ha hb
  have ma : ∀ x, x = a.lo ∨ x = a.hi → x ∈ a.set := by
    rintro x (rfl | rfl)
    exacts [⟨le_rfl, ha⟩, ⟨ha, le_rfl⟩]
  have mb : ∀ x, x = b.lo ∨ x = b.hi → x ∈ b.set := by
    rintro x (rfl | rfl)
    exacts [⟨le_rfl, hb⟩, ⟨hb, le_rfl⟩]
  refine ⟨⟨⟨x1, ma _ hx1, y1, mb _ hy1, rfl⟩, ?_⟩, ⟨x2, ma _ hx2, y2, mb _ hy2, rfl⟩, ?_⟩
  · rintro z ⟨x, hx, y, hy, rfl⟩; exact Iv.corner_le_mul hx.1 hx.2 hy.1 hy.2 l00 l01 l10 l11
  · rintro z ⟨x, hx, y, hy, rfl⟩; exact Iv.mul_le_corner hx.1 hx.2 hy.1 hy.2 u00 u01 u10 u11

/-- C37, product of two intervals. -/
theorem C37_mul {a b : Iv K} (ha : a.Valid) (hb : b.Valid) :
    Hull {z | ∃ x ∈ a.set, ∃ y ∈ b.set, z = x * y} (a.mul b) := by
  have ha' : a.lo ≤ a.hi := ha
  have hb' : b.lo ≤ b.hi := hb
  unfold Iv.mul
  dsimp only
  repeat' split
  all_goals
    first
      | (apply Hull.mul_of ha hb (by simp) (by simp) (by simp) (by simp) <;> nlinarith)

/-- C37, `a *= b` with another object on the right computes `a * b`. -/
theorem C37_mulAssign (a b : Iv K) : mulAssign (fun _ => b) a = a.mul b := by
  unfold mulAssign Iv.mul
  dsimp only

/-- C37 fails for `a *= a`: the operand is read after it has been overwritten. For `a = [-3, -2]` the result is
reversed and contains none of the products. -/
theorem C37_mulAssign_self_wrong :
    (⟨-3, -2⟩ : Iv ℚ).Valid ∧ (-3 : ℚ) ∈ (⟨-3, -2⟩ : Iv ℚ).set ∧
      (mulAssign id (⟨-3, -2⟩ : Iv ℚ)) = ⟨4, -12⟩ ∧ (-3 : ℚ) * (-3) ∉ (mulAssign id (⟨-3, -2⟩ : Iv ℚ)).set := by
  refine ⟨by decide +kernel, ⟨by decide +kernel, by decide +kernel⟩, by decide +kernel, ?_⟩
  intro h
  exact absurd h.2 (by decide +kernel)

/-- C37, quotient, when the divisor does not contain zero. -/
theorem C37_div {a b : Iv K} (ha : a.Valid) (hb : b.Valid) (h0 : (0 : K) ∉ b.set) :
    Hull {z | ∃ x ∈ a.set, ∃ y ∈ b.set, z = x / y} (a.div b) := by
  have hb' : b.lo ≤ b.hi := hb
  have hs : 0 < b.lo ∨ b.hi < 0 := by
    by_contra h
    push Not at h
    exact h0 ⟨h.1, h.2⟩
  have hv : (⟨1 / b.hi, 1 / b.lo⟩ : Iv K).Valid := by
    rcases hs with h | h
    · exact one_div_le_one_div_of_le h hb'
    · exact one_div_le_one_div_of_neg_of_le h hb'
  have hm : ∀ y, y ∈ b.set → 1 / y ∈ (⟨1 / b.hi, 1 / b.lo⟩ : Iv K).set := by
    intro y hy
    rcases hs with h | h
    · exact ⟨one_div_le_one_div_of_le (h.trans_le hy.1) hy.2, one_div_le_one_div_of_le h hy.1⟩
    · exact ⟨one_div_le_one_div_of_neg_of_le h hy.2, one_div_le_one_div_of_neg_of_le (hy.2.trans_lt h) hy.1⟩
  have hm' : ∀ y, y ∈ (⟨1 / b.hi, 1 / b.lo⟩ : Iv K).set → 1 / y ∈ b.set := by
    intro y hy
    have hy1 : 1 / b.hi ≤ y := hy.1
    have hy2 : y ≤ 1 / b.lo := hy.2
    rcases hs with h | h
    · have hh := h.trans_le hb'
      have := one_div_le_one_div_of_le (one_div_pos.2 hh) hy1
      have := one_div_le_one_div_of_le ((one_div_pos.2 hh).trans_le hy1) hy2
      simp only [one_div_one_div] at *
      exact ⟨this, ‹_›⟩
    · have hh := hb'.trans_lt h
      have := one_div_le_one_div_of_neg_of_le (one_div_neg.2 hh) hy2
      have := one_div_le_one_div_of_neg_of_le (hy2.trans_lt (one_div_neg.2 hh)) hy1
      simp only [one_div_one_div] at *
      exact ⟨‹_›, this⟩
  have key : {z | ∃ x ∈ a.set, ∃ y ∈ b.set, z = x / y} =
      {z | ∃ x ∈ a.set, ∃ y ∈ (⟨1 / b.hi, 1 / b.lo⟩ : Iv K).set, z = x * y} := by
    ext z
    constructor
    · rintro ⟨x, hx, y, hy, rfl⟩; exact ⟨x, hx, _, hm y hy, by rw [mul_one_div]⟩
    · rintro ⟨x, hx, y, hy, rfl⟩; exact ⟨x, hx, _, hm' y hy, by rw [div_div_eq_mul_div, div_one]⟩
  rw [key]
  exact C37_mul ha hv

/-- C37, `overlap` answers whether the two intervals have a common member. -/
theorem C37_overlap {a b : Iv K} (ha : a.Valid) (hb : b.Valid) :
    a.overlap b = true ↔ (a.set ∩ b.set).Nonempty := by
  have ha' : a.lo ≤ a.hi := ha
  have hb' : b.lo ≤ b.hi := hb
  unfold Iv.overlap
  constructor
  · intro h
    split at h
    · simp at h
    · split at h
      · simp at h
      · exact ⟨max a.lo b.lo, ⟨le_max_left _ _, max_le ha' (by linarith)⟩, le_max_right _ _, max_le (by linarith) hb'⟩
  · rintro ⟨x, ⟨h1, h2⟩, h3, h4⟩
    rw [if_neg (by linarith), if_neg (by linarith)]

/-- C37, `intersect` answers whether there is a common member, and if so leaves the intersection. -/
theorem C37_intersect {a b : Iv K} (ha : a.Valid) (hb : b.Valid) :
    ((a.intersect b).1 = true ↔ (a.set ∩ b.set).Nonempty) ∧
      ((a.intersect b).1 = true → (a.intersect b).2.set = a.set ∩ b.set) ∧
      ((a.intersect b).1 = false → (a.intersect b).2 = a) := by
  have h1 : (a.intersect b).1 = a.overlap b := by
    unfold Iv.intersect Iv.overlap; split <;> [rfl; (split <;> rfl)]
  refine ⟨h1 ▸ C37_overlap ha hb, ?_, ?_⟩
  · unfold Iv.intersect
    intro h
    split at h
    · simp at h
    · next n1 =>
      split at h
      · simp at h
      · next n2 =>
        rw [if_neg n1, if_neg n2]
        ext x
        simp only [Iv.set, Set.mem_inter_iff, Set.mem_Icc]
        constructor
        · rintro ⟨p, q⟩
          refine ⟨⟨?_, ?_⟩, ?_, ?_⟩
          all_goals (split at p <;> split at q <;> linarith)
        · rintro ⟨⟨p, q⟩, p', q'⟩
          constructor <;> split <;> assumption
  · unfold Iv.intersect
    intro h
    split at h
    · rw [if_pos ‹_›]
    · split at h
      · rw [if_neg ‹_›, if_pos ‹_›]
      · simp at h

/-- C37, `contains` is membership. -/
theorem C37_contains (a : Iv K) (v : K) : a.contains v = true ↔ v ∈ a.set := by
  unfold Iv.contains
  simp only [Iv.set, Set.mem_Icc]
  constructor
  · intro h
    split at h
    · simp at h
    · split at h
      · simp at h
      · exact ⟨not_lt.1 ‹_›, not_lt.1 ‹_›⟩
  · rintro ⟨h1, h2⟩
    rw [if_neg (not_lt.2 h1), if_neg (not_lt.2 h2)]

/-- C37, `bound` of two intervals is the smallest interval that contains both. -/
theorem C37_bound {a b : Iv K} (ha : a.Valid) (hb : b.Valid) : Hull (a.set ∪ b.set) (a.bound b) := by
  have ha' : a.lo ≤ a.hi := ha
  have hb' : b.lo ≤ b.hi := hb
  unfold Iv.bound
  refine ⟨⟨?_, ?_⟩, ?_, ?_⟩
  · dsimp only; split
    · exact Or.inr ⟨le_rfl, hb'⟩
    · exact Or.inl ⟨le_rfl, ha'⟩
  · rintro x (⟨h1, h2⟩ | ⟨h1, h2⟩) <;> dsimp only <;> split <;> linarith
  · dsimp only; split
    · exact Or.inr ⟨hb', le_rfl⟩
    · exact Or.inl ⟨ha', le_rfl⟩
  · rintro x (⟨h1, h2⟩ | ⟨h1, h2⟩) <;> dsimp only <;> split <;> linarith

/-- C37, `bound` with a number. -/
theorem C37_boundPt {a : Iv K} (ha : a.Valid) (v : K) : Hull (a.set ∪ {v}) (a.boundPt v) := by
  have ha' : a.lo ≤ a.hi := ha
  unfold Iv.boundPt
  refine ⟨⟨?_, ?_⟩, ?_, ?_⟩
  · dsimp only; split
    · exact Or.inr rfl
    · exact Or.inl ⟨le_rfl, ha'⟩
  · rintro x (⟨h1, h2⟩ | rfl) <;> dsimp only <;> split <;> linarith
  · dsimp only; split
    · exact Or.inr rfl
    · exact Or.inl ⟨ha', le_rfl⟩
  · rintro x (⟨h1, h2⟩ | rfl) <;> dsimp only <;> split <;> linarith

/-- C37, `getAbsLower` is the smallest absolute value. -/
theorem C37_absLower {a : Iv K} (ha : a.Valid) : IsLeast {z | ∃ x ∈ a.set, z = |x|} a.absLower := by
  have ha' : a.lo ≤ a.hi := ha
  unfold Iv.absLower
  split
  · next h =>
    refine ⟨⟨a.lo, ⟨le_rfl, ha'⟩, (abs_of_nonneg h).symm⟩, ?_⟩
    rintro z ⟨x, hx, rfl⟩
    exact hx.1.trans (le_abs_self x)
  · next h =>
    split
    · next h' =>
      refine ⟨⟨0, ⟨le_of_lt (not_le.1 h), h'⟩, abs_zero.symm⟩, ?_⟩
      rintro z ⟨x, hx, rfl⟩
      exact abs_nonneg x
    · next h' =>
      refine ⟨⟨a.hi, ⟨ha', le_rfl⟩, (abs_of_nonpos (le_of_lt (not_le.1 h'))).symm⟩, ?_⟩
      rintro z ⟨x, hx, rfl⟩
      exact (neg_le_neg hx.2).trans (neg_le_abs x)

/-- C37, `getAbsUpper` is the largest absolute value when the middle of the interval is not negative. For the
other intervals see `C37_absUpper_wrong`. -/
theorem C37_absUpper_partial {a : Iv K} (ha : a.Valid) (h : 0 ≤ a.lo + a.hi) :
    IsGreatest {z | ∃ x ∈ a.set, z = |x|} a.absUpper := by
  have ha' : a.lo ≤ a.hi := ha
  unfold Iv.absUpper
  rw [if_pos h]
  refine ⟨⟨a.hi, ⟨ha', le_rfl⟩, (abs_of_nonneg (by linarith)).symm⟩, ?_⟩
  rintro z ⟨x, hx, rfl⟩
  exact abs_le.2 ⟨by linarith [hx.1], hx.2⟩

/-- C37 fails for `getAbsUpper` on every interval whose middle is negative: the result is negative. -/
theorem C37_absUpper_wrong {a : Iv K} (ha : a.Valid) (h : a.lo + a.hi < 0) :
    a.absUpper < 0 ∧ ¬ IsGreatest {z | ∃ x ∈ a.set, z = |x|} a.absUpper := by
  have ha' : a.lo ≤ a.hi := ha
  have hn : a.absUpper < 0 := by
    unfold Iv.absUpper
    rw [if_neg (not_le.2 h)]
    linarith
  refine ⟨hn, fun hg => ?_⟩
  obtain ⟨x, _, hx⟩ := hg.1
  rw [hx] at hn
  exact absurd hn (not_lt.2 (abs_nonneg x))

example : (⟨-3, 1⟩ : Iv ℚ).absUpper = -3 := by decide +kernel
example : (⟨-2, 3⟩ : Iv ℚ).mul ⟨-5, 4⟩ = ⟨-15, 12⟩ := by decide +kernel
example : (⟨-2, 3⟩ : Iv ℚ).Valid ∧ (⟨2, 4⟩ : Iv ℚ).Valid ∧ (0 : ℚ) ∉ (⟨2, 4⟩ : Iv ℚ).set := by
  refine ⟨by decide +kernel, by decide +kernel, fun h => absurd h.1 (by decide +kernel)⟩
example : (⟨-2, 3⟩ : Iv ℚ).div ⟨2, 4⟩ = ⟨-1, 3 / 2⟩ := by decide +kernel

/-! ### Vectors and matrices -/

theorem IVec.mem_set {a : IVec K} {v : V3 K} : v ∈ a.set ↔ v.x ∈ a.x.set ∧ v.y ∈ a.y.set ∧ v.z ∈ a.z.set := Iff.rfl

theorem Iv.valid_of_mem {a : Iv K} {x : K} (h : x ∈ a.set) : a.Valid := h.1.trans h.2

theorem Iv.add_mem {a b : Iv K} {x y : K} (hx : x ∈ a.set) (hy : y ∈ b.set) : x + y ∈ (a.add b).set :=
  ⟨(C37_add (valid_of_mem hx) (valid_of_mem hy)).1.2 ⟨x, hx, y, hy, rfl⟩,
   (C37_add (valid_of_mem hx) (valid_of_mem hy)).2.2 ⟨x, hx, y, hy, rfl⟩⟩
theorem Iv.sub_mem {a b : Iv K} {x y : K} (hx : x ∈ a.set) (hy : y ∈ b.set) : x - y ∈ (a.sub b).set :=
  ⟨(C37_sub (valid_of_mem hx) (valid_of_mem hy)).1.2 ⟨x, hx, y, hy, rfl⟩,
   (C37_sub (valid_of_mem hx) (valid_of_mem hy)).2.2 ⟨x, hx, y, hy, rfl⟩⟩
theorem Iv.mul_mem {a b : Iv K} {x y : K} (hx : x ∈ a.set) (hy : y ∈ b.set) : x * y ∈ (a.mul b).set :=
  ⟨(C37_mul (valid_of_mem hx) (valid_of_mem hy)).1.2 ⟨x, hx, y, hy, rfl⟩,
   (C37_mul (valid_of_mem hx) (valid_of_mem hy)).2.2 ⟨x, hx, y, hy, rfl⟩⟩
theorem Iv.scale_mem {a : Iv K} {x : K} (hx : x ∈ a.set) (d : K) : x * d ∈ (a.scale d).set :=
  ⟨(C37_scale (valid_of_mem hx) d).1.2 ⟨x, hx, rfl⟩, (C37_scale (valid_of_mem hx) d).2.2 ⟨x, hx, rfl⟩⟩
theorem Iv.neg_mem {a : Iv K} {x : K} (hx : x ∈ a.set) : -x ∈ a.neg.set :=
  ⟨(C37_neg (valid_of_mem hx)).1.2 ⟨x, hx, rfl⟩, (C37_neg (valid_of_mem hx)).2.2 ⟨x, hx, rfl⟩⟩

/-- C58, vectors: every operation contains the result of the operation on any members. -/
theorem C58_vec {a b : IVec K} {u v : V3 K} (hu : u ∈ a.set) (hv : v ∈ b.set) (w : V3 K) :
    u + v ∈ (a.add b).set ∧ u - v ∈ (a.sub b).set ∧ u.dot v ∈ (a.dot b).set ∧ u.cross v ∈ (a.cross b).set ∧
      u.dot w ∈ (a.dotV w).set ∧ u.cross w ∈ (a.crossV w).set := by
  obtain ⟨u0, u1, u2⟩ := hu
  obtain ⟨v0, v1, v2⟩ := hv
  refine ⟨⟨add_mem u0 v0, add_mem u1 v1, add_mem u2 v2⟩, ⟨sub_mem u0 v0, sub_mem u1 v1, sub_mem u2 v2⟩,
    add_mem (add_mem (mul_mem u0 v0) (mul_mem u1 v1)) (mul_mem u2 v2),
    ⟨sub_mem (mul_mem u1 v2) (mul_mem u2 v1), sub_mem (mul_mem u2 v0) (mul_mem u0 v2),
      sub_mem (mul_mem u0 v1) (mul_mem u1 v0)⟩,
    add_mem (add_mem (scale_mem u0 _) (scale_mem u1 _)) (scale_mem u2 _),
    ⟨sub_mem (scale_mem u1 _) (scale_mem u2 _), sub_mem (scale_mem u2 _) (scale_mem u0 _),
      sub_mem (scale_mem u0 _) (scale_mem u1 _)⟩⟩

/-- C58, vectors: the ends are members, and every member is between them. -/
theorem C58_ends {a : IVec K} (ha : a.Valid) :
    a.low ∈ a.set ∧ a.high ∈ a.set ∧ a.center ∈ a.set ∧
      ∀ v ∈ a.set, ∀ i, a.low.get i ≤ v.get i ∧ v.get i ≤ a.high.get i := by
  obtain ⟨h0, h1, h2⟩ := ha
  simp only [Iv.Valid] at h0 h1 h2
  refine ⟨⟨⟨le_rfl, h0⟩, ⟨le_rfl, h1⟩, le_rfl, h2⟩, ⟨⟨h0, le_rfl⟩, ⟨h1, le_rfl⟩, h2, le_rfl⟩, ?_, ?_⟩
  · refine ⟨⟨?_, ?_⟩, ⟨?_, ?_⟩, ?_, ?_⟩ <;> simp only [IVec.center, Iv.center] <;> linarith
  · rintro v ⟨v0, v1, v2⟩ i
    match i with
    | 0 => exact v0
    | 1 => exact v1
    | 2 => exact v2

/-- C58, vectors: `overlap` answers whether there is a common member. -/
theorem C58_overlap {a b : IVec K} (ha : a.Valid) (hb : b.Valid) :
    a.overlap b = true ↔ (a.set ∩ b.set).Nonempty := by
  obtain ⟨a0, a1, a2⟩ := ha
  obtain ⟨b0, b1, b2⟩ := hb
  simp only [Iv.Valid] at *
  unfold IVec.overlap
  constructor
  · intro h
    repeat' split at h
    all_goals first | (exfalso; simp at h; done) | skip
    refine ⟨⟨max a.x.lo b.x.lo, max a.y.lo b.y.lo, max a.z.lo b.z.lo⟩,
      ⟨⟨le_max_left _ _, max_le ?_ ?_⟩, ⟨le_max_left _ _, max_le ?_ ?_⟩, ⟨le_max_left _ _, max_le ?_ ?_⟩⟩,
      ⟨⟨le_max_right _ _, max_le ?_ ?_⟩, ⟨le_max_right _ _, max_le ?_ ?_⟩, ⟨le_max_right _ _, max_le ?_ ?_⟩⟩⟩ <;>
    linarith
  · rintro ⟨x, ⟨⟨p0, p1⟩, ⟨p2, p3⟩, p4, p5⟩, ⟨q0, q1⟩, ⟨q2, q3⟩, q4, q5⟩
    rw [if_neg (by linarith), if_neg (by linarith), if_neg (by linarith), if_neg (by linarith), if_neg (by linarith),
      if_neg (by linarith)]

/-- C58, vectors: `contain` answers whether every member of the other is a member. -/
theorem C58_contain {a b : IVec K} (hb : b.Valid) : a.contain b = true ↔ b.set ⊆ a.set := by
  have hl : b.low ∈ b.set := (C58_ends hb).1
  have hh : b.high ∈ b.set := (C58_ends hb).2.1
  unfold IVec.contain
  constructor
  · intro h
    repeat' split at h
    all_goals first | (exfalso; simp at h; done) | skip
    rintro x ⟨⟨p0, p1⟩, ⟨p2, p3⟩, p4, p5⟩
    refine ⟨⟨?_, ?_⟩, ⟨?_, ?_⟩, ?_, ?_⟩ <;> linarith
  · intro h
    obtain ⟨⟨p0, _⟩, ⟨p2, _⟩, p4, _⟩ := h hl
    obtain ⟨⟨_, p1⟩, ⟨_, p3⟩, _, p5⟩ := h hh
    simp only [IVec.low, IVec.high] at *
    rw [if_neg (by linarith), if_neg (by linarith), if_neg (by linarith), if_neg (by linarith), if_neg (by linarith),
      if_neg (by linarith)]

/-- C58, vectors: `bound` contains both arguments, and is contained in every box that contains both. -/
theorem C58_bound {a b : IVec K} (ha : a.Valid) (hb : b.Valid) :
    a.set ⊆ (a.bound b).set ∧ b.set ⊆ (a.bound b).set ∧
      ∀ c : IVec K, a.set ⊆ c.set → b.set ⊆ c.set → (a.bound b).set ⊆ c.set := by
  have B : ∀ {p q : Iv K}, p.Valid → q.Valid → p.set ⊆ (p.bound q).set ∧ q.set ⊆ (p.bound q).set := by
    intro p q hp hq
    obtain ⟨⟨_, h1⟩, _, h2⟩ := C37_bound hp hq
    exact ⟨fun x hx => ⟨h1 (Or.inl hx), h2 (Or.inl hx)⟩, fun x hx => ⟨h1 (Or.inr hx), h2 (Or.inr hx)⟩⟩
  have C : ∀ {p q c : Iv K}, p.Valid → q.Valid → c.lo ≤ p.lo → c.lo ≤ q.lo → p.hi ≤ c.hi → q.hi ≤ c.hi →
      (p.bound q).set ⊆ c.set := by
    intro p q c hp hq h1 h2 h3 h4 x hx
    obtain ⟨x1, x2⟩ := hx
    simp only [Iv.bound] at x1 x2
    constructor
    · split at x1 <;> linarith
    · split at x2 <;> linarith
  refine ⟨fun v hv => ⟨(B ha.1 hb.1).1 hv.1, (B ha.2.1 hb.2.1).1 hv.2.1, (B ha.2.2 hb.2.2).1 hv.2.2⟩,
    fun v hv => ⟨(B ha.1 hb.1).2 hv.1, (B ha.2.1 hb.2.1).2 hv.2.1, (B ha.2.2 hb.2.2).2 hv.2.2⟩, ?_⟩
  intro c h1 h2 v hv
  obtain ⟨⟨p0, _⟩, ⟨p2, _⟩, p4, _⟩ := h1 (C58_ends ha).1
  obtain ⟨⟨_, p1⟩, ⟨_, p3⟩, _, p5⟩ := h1 (C58_ends ha).2.1
  obtain ⟨⟨q0, _⟩, ⟨q2, _⟩, q4, _⟩ := h2 (C58_ends hb).1
  obtain ⟨⟨_, q1⟩, ⟨_, q3⟩, _, q5⟩ := h2 (C58_ends hb).2.1
  exact ⟨C ha.1 hb.1 p0 q0 p1 q1 hv.1, C ha.2.1 hb.2.1 p2 q2 p3 q3 hv.2.1, C ha.2.2 hb.2.2 p4 q4 p5 q5 hv.2.2⟩

theorem IMat.col_mem {a : IMat K} {m : M3 K} (h : m ∈ a.set) (i : Fin 3) : m.col i ∈ (a.col i).set := by
  obtain ⟨⟨h00, h01, h02⟩, ⟨h10, h11, h12⟩, h20, h21, h22⟩ := h
  match i with
  | 0 => exact ⟨h00, h10, h20⟩
  | 1 => exact ⟨h01, h11, h21⟩
  | 2 => exact ⟨h02, h12, h22⟩

theorem IVec.dot_mem {a b : IVec K} {u v : V3 K} (hu : u ∈ a.set) (hv : v ∈ b.set) : u.dot v ∈ (a.dot b).set :=
  (C58_vec hu hv u).2.2.1
theorem IVec.dotV_mem {a : IVec K} {u : V3 K} (hu : u ∈ a.set) (v : V3 K) : u.dot v ∈ (a.dotV v).set :=
  (C58_vec hu hu v).2.2.2.2.1

/-- C58, matrices: every operation contains the result of the operation on any members. -/
theorem C58_mat {a b : IMat K} {p q : M3 K} {c : IVec K} {v : V3 K} (hp : p ∈ a.set) (hq : q ∈ b.set)
    (hv : v ∈ c.set) (m : M3 K) (w : V3 K) :
    p.mul q ∈ (a.mul b).set ∧ p.mul m ∈ (a.mulMat m).set ∧ p.mulVec w ∈ (a.mulVec w).set ∧
      p.mulVec v ∈ (a.mulIVec c).set ∧
      (⟨p.r0 + q.r0, p.r1 + q.r1, p.r2 + q.r2⟩ : M3 K) ∈ (a.add b).set ∧
      (⟨p.r0 - q.r0, p.r1 - q.r1, p.r2 - q.r2⟩ : M3 K) ∈ (a.sub b).set ∧ m ∈ (IMat.ofMat m).set := by
  have hc := IMat.col_mem hq
  obtain ⟨h0, h1, h2⟩ := hp
  obtain ⟨g0, g1, g2⟩ := hq
  open IVec in
  refine ⟨⟨⟨dot_mem h0 (hc 0), dot_mem h0 (hc 1), dot_mem h0 (hc 2)⟩,
      ⟨dot_mem h1 (hc 0), dot_mem h1 (hc 1), dot_mem h1 (hc 2)⟩,
      ⟨dot_mem h2 (hc 0), dot_mem h2 (hc 1), dot_mem h2 (hc 2)⟩⟩,
    ⟨⟨dotV_mem h0 _, dotV_mem h0 _, dotV_mem h0 _⟩, ⟨dotV_mem h1 _, dotV_mem h1 _, dotV_mem h1 _⟩,
      ⟨dotV_mem h2 _, dotV_mem h2 _, dotV_mem h2 _⟩⟩,
    ⟨dotV_mem h0 _, dotV_mem h1 _, dotV_mem h2 _⟩, ⟨dot_mem h0 hv, dot_mem h1 hv, dot_mem h2 hv⟩,
    ⟨(C58_vec h0 g0 w).1, (C58_vec h1 g1 w).1, (C58_vec h2 g2 w).1⟩,
    ⟨(C58_vec h0 g0 w).2.1, (C58_vec h1 g1 w).2.1, (C58_vec h2 g2 w).2.1⟩, ?_⟩
  refine ⟨⟨⟨?_, ?_⟩, ⟨?_, ?_⟩, ?_, ?_⟩, ⟨⟨?_, ?_⟩, ⟨?_, ?_⟩, ?_, ?_⟩, ⟨⟨?_, ?_⟩, ⟨?_, ?_⟩, ?_, ?_⟩⟩ <;> exact le_rfl

/-- C58, matrices: `getHigh`, `getRowHigh`, `getColumnHigh`, `getRowLow`, `getColumnLow` return the ends. -/
theorem C58_mat_ends (a : IMat K) (i j : Fin 3) :
    a.high.get i j = (a.get i j).hi ∧ (a.rowHigh i).get j = (a.get i j).hi ∧ (a.colHigh j).get i = (a.get i j).hi ∧
      (a.rowLow i).get j = (a.get i j).lo ∧ (a.colLow j).get i = (a.get i j).lo := by
  match i, j with
  | 0, 0 => exact ⟨rfl, rfl, rfl, rfl, rfl⟩
  | 0, 1 => exact ⟨rfl, rfl, rfl, rfl, rfl⟩
  | 0, 2 => exact ⟨rfl, rfl, rfl, rfl, rfl⟩
  | 1, 0 => exact ⟨rfl, rfl, rfl, rfl, rfl⟩
  | 1, 1 => exact ⟨rfl, rfl, rfl, rfl, rfl⟩
  | 1, 2 => exact ⟨rfl, rfl, rfl, rfl, rfl⟩
  | 2, 0 => exact ⟨rfl, rfl, rfl, rfl, rfl⟩
  | 2, 1 => exact ⟨rfl, rfl, rfl, rfl, rfl⟩
  | 2, 2 => exact ⟨rfl, rfl, rfl, rfl, rfl⟩

/-- C58 fails for `getLow` of a matrix: it returns the upper ends, so it is a lower bound only of entries whose
interval is a single number. -/
theorem C58_getLow_wrong (a : IMat K) (i j : Fin 3) (h : (a.get i j).lo < (a.get i j).hi) :
    ∃ x ∈ (a.get i j).set, x < a.low.get i j := by
  refine ⟨(a.get i j).lo, ⟨le_rfl, h.le⟩, ?_⟩
  have : a.low.get i j = (a.get i j).hi := (C58_mat_ends a i j).1
  rw [this]; exact h

theorem IMat.clampEnd_eq (v : K) : IMat.clampEnd v = max (-1) (min v 1) := by
  unfold IMat.clampEnd
  split
  · rw [min_eq_left (by linarith), max_eq_left (by linarith)]
  · split
    · rw [min_eq_right (by linarith), max_eq_right (by linarith)]
    · rw [min_eq_left (by linarith), max_eq_right (by linarith)]

/-- C58, `rotationConstrain` keeps exactly those entries of members that lie in `[-1, 1]`, for an entry whose
interval meets `[-1, 1]`. -/
theorem C58_rotationConstrain (a : IMat K) (m : M3 K) (hm : ∀ i j, -1 ≤ m.get i j ∧ m.get i j ≤ 1) :
    (m ∈ a.set → m ∈ a.rotationConstrain.set) ∧
      ((∀ i j, ((a.get i j).set ∩ Set.Icc (-1) 1).Nonempty) → m ∈ a.rotationConstrain.set → m ∈ a.set) := by
  have A : ∀ {c : Iv K} {x : K}, -1 ≤ x → x ≤ 1 → x ∈ c.set → x ∈ (IMat.clampIv c).set := by
    rintro c x h1 h2 ⟨h3, h4⟩
    simp only [Iv.set, Set.mem_Icc, IMat.clampIv, IMat.clampEnd_eq]
    exact ⟨max_le h1 ((min_le_left _ _).trans h3), le_max_of_le_right (le_min h4 h2)⟩
  have B : ∀ {c : Iv K} {x : K}, (c.set ∩ Set.Icc (-1) 1).Nonempty → x ∈ (IMat.clampIv c).set → -1 ≤ x → x ≤ 1 →
      x ∈ c.set := by
    rintro c x ⟨y, ⟨y1, y2⟩, y3, y4⟩ ⟨h1, h2⟩ h3 h4
    simp only [IMat.clampIv, IMat.clampEnd_eq] at h1 h2
    constructor
    · rcases le_or_gt c.lo 1 with h | h
      · rw [min_eq_left h] at h1; exact (le_max_right _ _).trans h1
      · exact absurd (y1.trans y4) (not_le.2 h)
    · rcases le_or_gt (-1) c.hi with h | h
      · rcases le_or_gt c.hi 1 with h' | h'
        · rw [min_eq_left h', max_eq_right h] at h2; exact h2
        · exact h4.trans h'.le
      · exact absurd (y3.trans y2) (not_le.2 h)
  have e00 := hm 0 0; have e01 := hm 0 1; have e02 := hm 0 2
  have e10 := hm 1 0; have e11 := hm 1 1; have e12 := hm 1 2
  have e20 := hm 2 0; have e21 := hm 2 1; have e22 := hm 2 2
  constructor
  · rintro ⟨⟨h00, h01, h02⟩, ⟨h10, h11, h12⟩, h20, h21, h22⟩
    exact ⟨⟨A e00.1 e00.2 h00, A e01.1 e01.2 h01, A e02.1 e02.2 h02⟩,
      ⟨A e10.1 e10.2 h10, A e11.1 e11.2 h11, A e12.1 e12.2 h12⟩,
      ⟨A e20.1 e20.2 h20, A e21.1 e21.2 h21, A e22.1 e22.2 h22⟩⟩
  · rintro hn ⟨⟨h00, h01, h02⟩, ⟨h10, h11, h12⟩, h20, h21, h22⟩
    exact ⟨⟨B (hn 0 0) h00 e00.1 e00.2, B (hn 0 1) h01 e01.1 e01.2, B (hn 0 2) h02 e02.1 e02.2⟩,
      ⟨B (hn 1 0) h10 e10.1 e10.2, B (hn 1 1) h11 e11.1 e11.2, B (hn 1 2) h12 e12.1 e12.2⟩,
      ⟨B (hn 2 0) h20 e20.1 e20.2, B (hn 2 1) h21 e21.1 e21.2, B (hn 2 2) h22 e22.1 e22.2⟩⟩

/-- A vector of intervals and a member of it. -/
example : (⟨1, -1, 5⟩ : V3 ℚ) ∈ (⟨⟨0, 2⟩, ⟨-2, 1⟩, ⟨4, 6⟩⟩ : IVec ℚ).set :=
  ⟨⟨by decide +kernel, by decide +kernel⟩, ⟨by decide +kernel, by decide +kernel⟩, by decide +kernel, by decide +kernel⟩

/-- A matrix of intervals whose `getLow` is not a lower bound. -/
example : ∃ a : IMat ℚ, a.Valid ∧ (a.get 0 1).lo < (a.get 0 1).hi ∧ ¬ a.low.get 0 1 ≤ (a.get 0 1).lo :=
  ⟨⟨⟨⟨0, 1⟩, ⟨0, 1⟩, ⟨0, 1⟩⟩, ⟨⟨0, 1⟩, ⟨0, 1⟩, ⟨0, 1⟩⟩, ⟨⟨0, 1⟩, ⟨0, 1⟩, ⟨0, 1⟩⟩⟩,
    by refine ⟨⟨?_, ?_, ?_⟩, ⟨?_, ?_, ?_⟩, ?_, ?_, ?_⟩ <;> (unfold Iv.Valid; decide +kernel),
    by decide +kernel, by decide +kernel⟩

end Fcl
