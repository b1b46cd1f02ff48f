import Verif.Math.PolySolver
import Mathlib.Tactic.Linarith
import Mathlib.Tactic.NormNum
import Mathlib.Tactic.FieldSimp
import Mathlib.Tactic.LinearCombination

/-!
# C52: the polynomial solver

`eps` is the threshold below which a number counts as zero. `Clear eps v`: the number is zero or not below
the threshold, so that the test `isZero` is right about it.
-/

namespace Fcl
namespace PolySolver

/-- The zero test is right about `v`. -/
def Clear (eps v : ℝ) : Prop := v = 0 ∨ eps ≤ |v|

theorem isZero_iff {eps v : ℝ} (he : 0 < eps) (h : Clear eps v) : isZero eps v = true ↔ v = 0 := by
  unfold isZero
  rw [Bool.and_eq_true, decide_eq_true_eq, decide_eq_true_eq]
  constructor
  · rintro ⟨h1, h2⟩
    rcases h with h | h
    · exact h
    · exact absurd (abs_lt.2 ⟨h2, h1⟩) (not_lt.2 h)
  · rintro rfl
    exact ⟨he, by linarith⟩

theorem isZero_false {eps v : ℝ} (h : eps ≤ |v|) : isZero eps v = false := by
  rw [Bool.eq_false_iff]
  intro h'
  unfold isZero at h'
  rw [Bool.and_eq_true, decide_eq_true_eq, decide_eq_true_eq] at h'
  exact absurd (abs_lt.2 ⟨h'.2, h'.1⟩) (not_lt.2 h)

end PolySolver
open PolySolver

/-- C52, linear equations: the numbers returned are exactly the real roots, unless the coefficient of `x` is
below the threshold without being zero. (With all coefficients zero every number is a root, and none is
returned.) -/
theorem C52_linear_partial {eps c0 c1 : ℝ} (he : 0 < eps) (h : Clear eps c1) (hne : c0 ≠ 0 ∨ c1 ≠ 0) (x : ℝ) :
    x ∈ solveLinear eps c0 c1 ↔ c0 + c1 * x = 0 := by
  unfold solveLinear
  by_cases h1 : c1 = 0
  · rw [if_pos ((isZero_iff he h).2 h1)]
    subst h1
    simp only [List.not_mem_nil, zero_mul, add_zero, false_iff]
    exact hne.resolve_right (fun h => h rfl)
  · rw [if_neg (fun h' => h1 ((isZero_iff he h).1 h'))]
    rw [List.mem_singleton, eq_div_iff h1]
    constructor <;> intro hx <;> linarith

/-- C52, quadratic equations: likewise, when the leading coefficient and the discriminant of the normalized
equation are clear of the threshold. -/
theorem C52_quadric_partial {eps c0 c1 c2 : ℝ} (he : 0 < eps) (h2 : Clear eps c2)
    (h1 : c2 = 0 → Clear eps c1 ∧ (c0 ≠ 0 ∨ c1 ≠ 0))
    (hD : c2 ≠ 0 → Clear eps (c1 / (2 * c2) * (c1 / (2 * c2)) - c0 / c2)) (x : ℝ) :
    x ∈ solveQuadric eps c0 c1 c2 ↔ c0 + c1 * x + c2 * x ^ 2 = 0 := by
  unfold solveQuadric
  by_cases hz : c2 = 0
  · rw [if_pos ((isZero_iff he h2).2 hz), C52_linear_partial he (h1 hz).1 (h1 hz).2, hz]
    constructor <;> intro hx <;> linarith
  · rw [if_neg (fun h' => hz ((isZero_iff he h2).1 h'))]
    simp only
    have hD := hD hz
    have key : c0 + c1 * x + c2 * x ^ 2 = 0 ↔
        (x + c1 / (2 * c2)) * (x + c1 / (2 * c2)) = c1 / (2 * c2) * (c1 / (2 * c2)) - c0 / c2 := by
      have e : (x + c1 / (2 * c2)) * (x + c1 / (2 * c2)) - (c1 / (2 * c2) * (c1 / (2 * c2)) - c0 / c2) =
          (c0 + c1 * x + c2 * x ^ 2) / c2 := by field_simp; ring
      constructor
      · intro h; rw [h, zero_div] at e; linarith
      · intro h
        have : (c0 + c1 * x + c2 * x ^ 2) / c2 = 0 := by rw [← e]; linarith
        exact (div_eq_zero_iff.1 this).resolve_right hz
    rw [key]
    set p := c1 / (2 * c2)
    set D := p * p - c0 / c2
    by_cases hD0 : D = 0
    · rw [if_pos ((isZero_iff he hD).2 hD0), List.mem_singleton, hD0]
      constructor
      · rintro rfl; ring
      · intro h
        have := mul_self_eq_zero.1 h
        linarith
    · rw [if_neg (fun h' => hD0 ((isZero_iff he hD).1 h'))]
      split_ifs with hneg
      · simp only [List.not_mem_nil, false_iff]
        intro h
        have := mul_self_nonneg (x + p)
        linarith
      · have hs := Real.mul_self_sqrt (not_lt.1 hneg)
        simp only [List.mem_cons, List.not_mem_nil, or_false]
        constructor
        · rintro (rfl | rfl)
          · refine Eq.trans ?_ hs; ring
          · refine Eq.trans ?_ hs; ring
        · intro h
          rw [← hs] at h
          rcases mul_self_eq_mul_self_iff.1 h with h | h
          · left; linarith
          · right; linarith

/-- Non-vacuity: `x² - 3x + 2`. -/
example : (1 : ℝ) ∈ solveQuadric (1 / 1000000000) 2 (-3) 1 ∧ (2 : ℝ) ∈ solveQuadric (1 / 1000000000) 2 (-3) 1 := by
  have h : ∀ x : ℝ, x ∈ solveQuadric (1 / 1000000000) 2 (-3) 1 ↔ 2 + (-3) * x + 1 * x ^ 2 = 0 :=
    fun x => C52_quadric_partial (by norm_num) (Or.inr (by norm_num)) (fun h => by norm_num at h)
      (fun _ => Or.inr (by norm_num [abs_of_pos])) x
  rw [h, h]
  norm_num

/-- C52 is violated close to zero: the root -1 of `1e-10 + 1e-10 x` is not returned. -/
theorem C52_violated_small_linear :
    solveLinear (1 / 10 ^ 9) (1 / 10 ^ 10) (1 / 10 ^ 10) = [] ∧ (1 / 10 ^ 10 + 1 / 10 ^ 10 * (-1) : ℝ) = 0 := by
  constructor
  · unfold solveLinear
    rw [if_pos]
    unfold isZero
    rw [Bool.and_eq_true, decide_eq_true_eq, decide_eq_true_eq]
    constructor <;> norm_num
  · norm_num

/-- C52 is violated close to a double root: `x² + 1e-10` has no real root, 0 is returned. -/
theorem C52_violated_small_quadric :
    (0 : ℝ) ∈ solveQuadric (1 / 10 ^ 9) (1 / 10 ^ 10) 0 1 ∧ ∀ x : ℝ, 1 / 10 ^ 10 + 0 * x + 1 * x ^ 2 ≠ 0 := by
  constructor
  · unfold solveQuadric
    rw [isZero_false (v := 1) (by norm_num)]
    simp only [Bool.false_eq_true, if_false]
    rw [if_pos]
    · simp
    · unfold isZero
      rw [Bool.and_eq_true, decide_eq_true_eq, decide_eq_true_eq]
      constructor <;> norm_num
  · intro x h
    nlinarith [sq_nonneg x]

namespace PolySolver

/-- The three real roots of the reduced cubic. -/
theorem three_roots {p q : ℝ} (h : q * q + p * p * p < 0) (y : ℝ) :
    let phi := 1 / 3 * Real.arccos (-q / Real.sqrt (-(p * p * p)))
    let t := 2 * Real.sqrt (-p)
    (y = t * Real.cos phi ∨ y = -t * Real.cos (phi + Real.pi / 3) ∨ y = -t * Real.cos (phi - Real.pi / 3)) ↔
      y ^ 3 + 3 * p * y + 2 * q = 0 := by
  intro phi t
  have hp3 : p * p * p < 0 := by nlinarith [mul_self_nonneg q]
  have hp : p < 0 := by
    by_contra hp
    have := mul_nonneg (mul_self_nonneg p) (not_lt.1 hp)
    linarith
  set s := Real.sqrt (-p) with hs
  have hss : s * s = -p := Real.mul_self_sqrt (by linarith)
  have hs0 : 0 < s := Real.sqrt_pos.2 (by linarith)
  have hs3 : Real.sqrt (-(p * p * p)) = s * s * s := by
    have : -(p * p * p) = (s * s * s) * (s * s * s) := by
      have : (s * s * s) * (s * s * s) = (s * s) * (s * s) * (s * s) := by ring
      rw [this, hss]; ring
    rw [this]
    exact Real.sqrt_mul_self (by positivity)
  have hs3pos : 0 < s * s * s := by positivity
  have hrange : |-q / (s * s * s)| ≤ 1 := by
    rw [abs_div, abs_of_pos hs3pos, div_le_one hs3pos, abs_neg]
    apply abs_le_of_sq_le_sq _ hs3pos.le
    have : (s * s * s) ^ 2 = -(p * p * p) := by
      have : (s * s * s) ^ 2 = (s * s) * (s * s) * (s * s) := by ring
      rw [this, hss]; ring
    nlinarith
  have hcos3 : Real.cos (3 * phi) = -q / (s * s * s) := by
    have : 3 * phi = Real.arccos (-q / (s * s * s)) := by
      simp only [phi, hs3]; ring
    rw [this]
    exact Real.cos_arccos (abs_le.1 hrange).1 (abs_le.1 hrange).2
  set c := Real.cos phi with hc
  set n := Real.sin phi with hn
  have hcn : n * n + c * c = 1 := by
    have := Real.sin_sq_add_cos_sq phi
    rw [← hc, ← hn] at this
    linarith
  rw [Real.cos_three_mul, ← hc] at hcos3
  have hq : (4 * c ^ 3 - 3 * c) * (s * s * s) = -q := by rw [hcos3]; field_simp
  have h3 : Real.sqrt 3 * Real.sqrt 3 = 3 := Real.mul_self_sqrt (by norm_num)
  have e1 : Real.cos (phi + Real.pi / 3) = c / 2 - n * (Real.sqrt 3 / 2) := by
    rw [Real.cos_add, Real.cos_pi_div_three, Real.sin_pi_div_three]; ring
  have e2 : Real.cos (phi - Real.pi / 3) = c / 2 + n * (Real.sqrt 3 / 2) := by
    rw [Real.cos_sub, Real.cos_pi_div_three, Real.sin_pi_div_three]; ring
  rw [e1, e2]
  set k := Real.sqrt 3
  have hfac : y ^ 3 + 3 * p * y + 2 * q = (y - t * c) * ((y - -t * (c / 2 - n * (k / 2))) * (y - -t * (c / 2 + n * (k / 2)))) := by
    have hp' : p = -(s * s) := by linarith
    have hq' : q = -((4 * c ^ 3 - 3 * c) * (s * s * s)) := by linarith
    have hk : k * k = 3 := h3
    have hn2 : n * n = 1 - c * c := by linarith
    have ht : t = 2 * s := rfl
    have expand : (y - -t * (c / 2 - n * (k / 2))) * (y - -t * (c / 2 + n * (k / 2))) =
        y ^ 2 + t * c * y + t ^ 2 * (c ^ 2 / 4 - (n * n) * (k * k) / 4) := by ring
    rw [expand, hk, hn2, hp', hq', ht]
    ring
  rw [hfac, mul_eq_zero, mul_eq_zero, sub_eq_zero, sub_eq_zero, sub_eq_zero]

/-- Completing the cube. -/
theorem reduced {c0 c1 c2 c3 : ℝ} (h3 : c3 ≠ 0) (x : ℝ) :
    let A := c2 / c3
    let B := c1 / c3
    let C := c0 / c3
    let p := (-(1 / 3) * (A * A) + B) * (1 / 3)
    let q := (1 / 2) * (2 / 27 * A * (A * A) - 1 / 3 * A * B + C)
    (x + 1 / 3 * A) ^ 3 + 3 * p * (x + 1 / 3 * A) + 2 * q = 0 ↔ c0 + c1 * x + c2 * x ^ 2 + c3 * x ^ 3 = 0 := by
  intro A B C p q
  have e : (x + 1 / 3 * A) ^ 3 + 3 * p * (x + 1 / 3 * A) + 2 * q = (c0 + c1 * x + c2 * x ^ 2 + c3 * x ^ 3) / c3 := by
    simp only [p, q, A, B, C]; field_simp; ring
  rw [e, div_eq_zero_iff]
  simp [h3]

end PolySolver

/-- The discriminant the code computes for a cubic equation. -/
noncomputable def cubicDisc (c0 c1 c2 c3 : ℝ) : ℝ :=
  let A := c2 / c3
  let B := c1 / c3
  let C := c0 / c3
  let p := (B - A * A / 3) / 3
  let q := (2 / 27 * (A * A * A) - A * B / 3 + C) / 2
  q * q + p * p * p

/-- C52, cubic equations: with three different real roots (negative discriminant), clear of the threshold,
the numbers returned are exactly the real roots. For a positive discriminant, and for a double root, they are
wrong (`C52_violated_cubic`, `C52_violated_cubic_double`). -/
theorem C52_cubic_partial {eps c0 c1 c2 c3 : ℝ} (he : 0 < eps) (h3 : eps ≤ |c3|)
    (hD : cubicDisc c0 c1 c2 c3 ≤ -eps) (x : ℝ) :
    x ∈ solveCubic eps c0 c1 c2 c3 ↔ c0 + c1 * x + c2 * x ^ 2 + c3 * x ^ 3 = 0 := by
  have hc3 : c3 ≠ 0 := by rintro rfl; rw [abs_zero] at h3; linarith
  unfold solveCubic
  rw [isZero_false h3]
  simp only [Bool.false_eq_true, if_false]
  have hred := reduced (c0 := c0) (c1 := c1) (c2 := c2) hc3 x
  simp only at hred
  rw [← hred]
  have hDeq : cubicDisc c0 c1 c2 c3 = ((1 / 2) * (2 / 27 * (c2 / c3) * (c2 / c3 * (c2 / c3)) - 1 / 3 * (c2 / c3) * (c1 / c3) + c0 / c3)) *
      ((1 / 2) * (2 / 27 * (c2 / c3) * (c2 / c3 * (c2 / c3)) - 1 / 3 * (c2 / c3) * (c1 / c3) + c0 / c3)) +
      ((-(1 / 3) * (c2 / c3 * (c2 / c3)) + c1 / c3) * (1 / 3)) * ((-(1 / 3) * (c2 / c3 * (c2 / c3)) + c1 / c3) * (1 / 3)) *
      ((-(1 / 3) * (c2 / c3 * (c2 / c3)) + c1 / c3) * (1 / 3)) := by
    simp only [cubicDisc]; ring
  rw [hDeq] at hD
  set A := c2 / c3
  set p := (-(1 / 3) * (A * A) + c1 / c3) * (1 / 3)
  set q := (1 / 2) * (2 / 27 * A * (A * A) - 1 / 3 * A * (c1 / c3) + c0 / c3)
  have hneg : q * q + p * p * p < 0 := by linarith
  rw [isZero_false (v := q * q + p * p * p) (by rw [abs_of_neg hneg]; linarith)]
  simp only [Bool.false_eq_true, if_false]
  have hthree := three_roots hneg (x + 1 / 3 * A)
  simp only at hthree
  rw [if_pos hneg, ← hthree]
  simp only [List.map_cons, List.map_nil, List.mem_cons, List.not_mem_nil, or_false]
  constructor
  · rintro (h | h | h)
    · left; linarith
    · right; left; linarith
    · right; right; linarith
  · rintro (h | h | h)
    · left; linarith
    · right; left; linarith
    · right; right; linarith

/-- C52, cubic equations with a triple root, in exact arithmetic. -/
theorem C52_cubic_triple_partial {eps c3 r : ℝ} (he : 0 < eps) (h3 : eps ≤ |c3|) (x : ℝ) :
    x ∈ solveCubic eps (-c3 * r ^ 3) (3 * c3 * r ^ 2) (-3 * c3 * r) c3 ↔ c3 * (x - r) ^ 3 = 0 := by
  have hc3 : c3 ≠ 0 := by rintro rfl; rw [abs_zero] at h3; linarith
  have eA : -3 * c3 * r / c3 = -3 * r := by field_simp
  have eB : 3 * c3 * r ^ 2 / c3 = 3 * r ^ 2 := by field_simp
  have eC : -c3 * r ^ 3 / c3 = -r ^ 3 := by field_simp
  unfold solveCubic
  rw [isZero_false h3]
  simp only [Bool.false_eq_true, if_false, eA, eB, eC]
  have hp : (-(1 / 3) * (-3 * r * (-3 * r)) + 3 * r ^ 2) * (1 / 3) = 0 := by ring
  have hq : 1 / 2 * (2 / 27 * (-3 * r) * (-3 * r * (-3 * r)) - 1 / 3 * (-3 * r) * (3 * r ^ 2) + -r ^ 3) = 0 := by ring
  rw [hp, hq]
  have hz : isZero eps 0 = true := (isZero_iff he (Or.inl rfl)).2 rfl
  simp only [mul_zero, add_zero, hz, if_true, List.map_cons, List.map_nil, List.mem_singleton]
  rw [mul_eq_zero, pow_eq_zero_iff (by norm_num), sub_eq_zero]
  constructor
  · intro h; right; linarith
  · rintro (h | h)
    · exact absurd h hc3
    · linarith

/-- Non-vacuity: `x³ - x` has the roots -1, 0 and 1. -/
example : (-1 : ℝ) ∈ solveCubic (1 / 1000000000) 0 (-1) 0 1 ∧ (1 : ℝ) ∈ solveCubic (1 / 1000000000) 0 (-1) 0 1 := by
  have h : ∀ x : ℝ, x ∈ solveCubic (1 / 1000000000) 0 (-1) 0 1 ↔ 0 + (-1) * x + 0 * x ^ 2 + 1 * x ^ 3 = 0 :=
    fun x => C52_cubic_partial (by norm_num) (by norm_num) (by unfold cubicDisc; norm_num) x
  rw [h, h]
  norm_num

/-- C52 is violated by the cube root that is converted to `bool`: for every number `c` that is not small, the
root returned for `x³ = c` is 1 or -1. -/
theorem C52_violated_cubic {eps c : ℝ} (h1 : eps ≤ 1) (hc : eps ≤ (c / 2) * (c / 2)) (hc0 : c ≠ 0) :
    solveCubic eps (-c) 0 0 1 = [if c < 0 then -1 else 1] := by
  unfold solveCubic
  rw [isZero_false (v := 1) (by rw [abs_one]; exact h1)]
  simp only [Bool.false_eq_true, if_false, div_one, mul_zero, zero_mul, add_zero, sub_zero, zero_add, zero_div]
  have hq : (0 : ℝ) < c * c := mul_self_pos.2 hc0
  have hD : (1 : ℝ) / 2 * -c * (1 / 2 * -c) = (c / 2) * (c / 2) := by ring
  rw [hD]
  have hpos : 0 < (c / 2) * (c / 2) := by nlinarith
  rw [isZero_false (v := (c / 2) * (c / 2)) (by rw [abs_of_pos hpos]; exact hc)]
  simp only [Bool.false_eq_true, if_false]
  rw [if_neg (not_lt.2 hpos.le)]
  have hu : cbrt (Real.sqrt (c / 2 * (c / 2)) + |1 / 2 * -c|) = 1 := by
    unfold cbrt
    rw [if_neg]
    have := Real.sqrt_pos.2 hpos
    have := abs_nonneg (1 / 2 * -c)
    linarith
  rw [hu]
  by_cases hneg : c < 0
  · rw [if_pos (by linarith), if_pos hneg]; simp
  · rw [if_neg (by linarith), if_neg hneg]; simp

/-- For example, the root 1 is returned for `x³ = 8`. -/
theorem C52_violated_cubic_eight : solveCubic (1 / 10 ^ 9) (-8) 0 0 1 = [1] ∧ (-8 + 0 * 1 + 0 * 1 ^ 2 + 1 * 1 ^ 3 : ℝ) ≠ 0 ∧
    (-8 + 0 * 2 + 0 * 2 ^ 2 + 1 * 2 ^ 3 : ℝ) = 0 := by
  refine ⟨?_, by norm_num, by norm_num⟩
  rw [C52_violated_cubic (by norm_num) (by norm_num) (by norm_num), if_neg (by norm_num)]

/-- The same for a double root: `(x - 2)² (x + 4) = x³ - 12 x + 16`; 2 and -1 are returned. -/
theorem C52_violated_cubic_double : solveCubic (1 / 10 ^ 9) 16 (-12) 0 1 = [2, -1] ∧
    (16 + -12 * (-1) + 0 * (-1) ^ 2 + 1 * (-1) ^ 3 : ℝ) ≠ 0 ∧ (16 + -12 * (-4) + 0 * (-4) ^ 2 + 1 * (-4) ^ 3 : ℝ) = 0 := by
  refine ⟨?_, by norm_num, by norm_num⟩
  unfold solveCubic
  rw [isZero_false (v := 1) (by norm_num)]
  have e1 : (1 : ℝ) / 2 * (2 / 27 * (0 / 1) * (0 / 1 * (0 / 1)) - 1 / 3 * (0 / 1) * (-12 / 1) + 16 / 1) = 8 := by norm_num
  have e2 : (-(1 / 3 : ℝ) * (0 / 1 * (0 / 1)) + -12 / 1) * (1 / 3) = -4 := by norm_num
  simp only [Bool.false_eq_true, if_false, e1, e2]
  have e3 : (8 : ℝ) * 8 + -4 * -4 * -4 = 0 := by norm_num
  rw [e3, (isZero_iff (by norm_num) (Or.inl rfl)).2 rfl, isZero_false (v := 8) (by norm_num)]
  simp [cbrt]

end Fcl
