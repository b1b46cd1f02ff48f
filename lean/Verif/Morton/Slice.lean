import Verif.Morton.Lemmas
import Mathlib.Algebra.Order.Floor.Semifield
import Mathlib.Tactic.Linarith
import Mathlib.Tactic.FieldSimp

/-! Slices of a unit interval: the specification of quantisation, and facts relating it to the code. -/

set_option linter.unusedSectionVars false

namespace Fcl.Morton
section
variable {K : Type*} [Field K] [LinearOrder K] [IsStrictOrderedRing K] [FloorSemiring K]

/-- Specification: cut `[0, 1]` into `2 ^ n` equal slices, numbered from 0; the slice containing `t` (the point
`1` belongs to the last one). -/
def slice (n : ℕ) (t : K) : ℕ := min ⌊(2 : K) ^ n * t⌋₊ (2 ^ n - 1)

theorem slice_lt (n : ℕ) (t : K) : slice n t < 2 ^ n := by
  have : 0 < 2 ^ n := by positivity
  unfold slice; omega

theorem slice_mono (n : ℕ) {t u : K} (h : t ≤ u) : slice n t ≤ slice n u :=
  min_le_min_right _ (Nat.floor_mono (mul_le_mul_of_nonneg_left h (by positivity)))

theorem slice_div (j m : ℕ) (t : K) : slice (j + m) t / 2 ^ m = slice j t := by
  have hm : Monotone fun a : ℕ => a / 2 ^ m := fun a b h => Nat.div_le_div_right h
  unfold slice
  rw [hm.map_min]
  congr 1
  · have := Nat.floor_div_natCast ((2 : K) ^ (j + m) * t) (2 ^ m)
    rw [← this]; congr 1; push_cast; rw [pow_add]; field_simp
  · rw [pow_add]
    have : 0 < 2 ^ m := by positivity
    have hj : 0 < 2 ^ j := by positivity
    obtain ⟨a, ha⟩ : ∃ a, 2 ^ j = a + 1 := ⟨2 ^ j - 1, by omega⟩
    rw [ha, show (a + 1) * 2 ^ m - 1 = (2 ^ m - 1) + 2 ^ m * a by rw [Nat.add_mul, Nat.mul_comm]; omega,
      Nat.add_mul_div_left _ _ this, Nat.div_eq_of_lt (by omega)]; omega

theorem quantize_eq (n : ℕ) (hn : n < 32) (v : BitVec 32) (hv : v.toNat = 2 ^ n) {t : K} (h0 : 0 ≤ t) (h1 : t ≤ 1) :
    ∃ q, quantize t v = some q ∧ q.toNat = slice n t := by
  have hp : (2 : ℕ) ^ n ≤ 2 ^ 31 := Nat.pow_le_pow_right (by norm_num) (by omega)
  have hp0 : 0 < 2 ^ n := by positivity
  have hpK : (2 : K) ^ n ≤ 2 ^ 31 := by exact_mod_cast hp
  have e : t * ((v.toNat : ℕ) : K) = 2 ^ n * t := by rw [hv]; push_cast; ring
  have hle : (2 : K) ^ n * t ≤ 2 ^ n := by nlinarith [pow_pos (show (0 : K) < 2 by norm_num) n]
  have h0' : 0 ≤ (2 : K) ^ n * t := by positivity
  have hf : ⌊(2 : K) ^ n * t⌋₊ ≤ 2 ^ n := Nat.floor_le_of_le (by push_cast; exact hle)
  have hv1 : (v - 1).toNat = 2 ^ n - 1 := by
    have h1le : (1#32) ≤ v := by rw [BitVec.le_def]; simp; omega
    rw [show v - 1 = v - 1#32 from rfl, BitVec.toNat_sub_of_le h1le, hv]; rfl
  have ht : (BitVec.ofNat 32 ⌊(2 : K) ^ n * t⌋₊).toNat = ⌊(2 : K) ^ n * t⌋₊ := by
    rw [BitVec.toNat_ofNat]; exact Nat.mod_eq_of_lt (by omega)
  rw [quantize]
  simp only [e, hv1]
  rw [if_pos ⟨by linarith, by linarith⟩]
  refine ⟨_, rfl, ?_⟩
  rw [if_neg (by simp), ht]
  split
  · rename_i h; rw [ht, slice, min_eq_left h]
  · rename_i h; rw [hv1, slice, min_eq_right (by omega)]

theorem slice_succ (n : ℕ) {t : K} (h0 : 0 ≤ t) :
    slice (n + 1) t = if 1 ≤ 2 * t then 2 ^ n + slice n (2 * t - 1) else slice n (2 * t) := by
  have hn : 0 < 2 ^ n := by positivity
  unfold slice
  split
  · rename_i h
    have : (2 : K) ^ (n + 1) * t = 2 ^ n * (2 * t - 1) + ((2 ^ n : ℕ) : K) := by push_cast; ring
    rw [this, Nat.floor_add_natCast (mul_nonneg (by positivity) (by linarith)), pow_succ]
    omega
  · rename_i h
    have : (2 : K) ^ (n + 1) * t = 2 ^ n * (2 * t) := by ring
    rw [this, pow_succ]
    have : ⌊(2 : K) ^ n * (2 * t)⌋₊ < 2 ^ n := by
      rw [Nat.floor_lt (by positivity)]
      push_cast
      have : (0 : K) < 2 ^ n := by positivity
      nlinarith
    omega

/-- One coordinate of a step of the bit loop. -/
theorem digit (n : ℕ) {t : K} (h0 : 0 ≤ t) (h1 : t ≤ 1) :
    ∃ t' : K, 0 ≤ t' ∧ t' ≤ 1 ∧ next (t * 2) = t' * 2 ∧
      (if t * 2 < 1 then false else true) = (slice (n + 1) t).testBit n ∧
      ∀ i < n, (slice (n + 1) t).testBit i = (slice n t').testBit i := by
  have hs := slice_succ n h0
  by_cases h : 1 ≤ 2 * t
  · have h' : 1 ≤ t * 2 := by linarith
    rw [if_pos h] at hs
    have e : slice (n + 1) t = 2 ^ n * 1 + slice n (2 * t - 1) := by rw [hs, Nat.mul_one]
    refine ⟨2 * t - 1, by linarith, by linarith, ?_, ?_, ?_⟩
    · rw [next, if_pos h']; ring
    · rw [if_neg (not_lt.mpr h'), e, Nat.testBit_two_pow_mul_add _ (slice_lt _ _), if_neg (by omega)]; simp
    · intro i hi; rw [e, Nat.testBit_two_pow_mul_add _ (slice_lt _ _), if_pos hi]
  · have h' : ¬ 1 ≤ t * 2 := by intro hh; apply h; linarith
    rw [if_neg h] at hs
    refine ⟨2 * t, by linarith, by linarith [not_le.mp h], ?_, ?_, ?_⟩
    · rw [next, if_neg h']; ring
    · rw [if_pos (not_le.mp h'), hs, Nat.testBit_lt_two_pow (slice_lt _ _)]
    · intro i _; rw [hs]

theorem bitLoop_spec (n : ℕ) : ∀ {x y z : K}, 0 ≤ x → x ≤ 1 → 0 ≤ y → y ≤ 1 → 0 ≤ z → z ≤ 1 →
    (bitLoop n (x * 2) (y * 2) (z * 2)).length = 3 * n ∧ ∀ i < n,
      (bitLoop n (x * 2) (y * 2) (z * 2))[3 * n - 1 - (3 * i)]? = some ((slice n x).testBit i) ∧
      (bitLoop n (x * 2) (y * 2) (z * 2))[3 * n - 1 - (3 * i + 1)]? = some ((slice n y).testBit i) ∧
      (bitLoop n (x * 2) (y * 2) (z * 2))[3 * n - 1 - (3 * i + 2)]? = some ((slice n z).testBit i) := by
  induction n with
  | zero => intro x y z _ _ _ _ _ _; exact ⟨rfl, fun i hi => by omega⟩
  | succ n ih =>
    intro x y z hx hx' hy hy' hz hz'
    obtain ⟨tx, ax, bx, cx, dx, ex⟩ := digit n hx hx'
    obtain ⟨ty, ay, by', cy, dy, ey⟩ := digit n hy hy'
    obtain ⟨tz, az, bz, cz, dz, ez⟩ := digit n hz hz'
    obtain ⟨hl, hb⟩ := ih ax bx ay by' az bz
    rw [bitLoop, cx, cy, cz, dx, dy, dz]
    refine ⟨by simp [hl]; ring, fun i hi => ?_⟩
    by_cases h : i = n
    · subst h
      rw [show 3 * (i + 1) - 1 - 3 * i = 2 by omega, show 3 * (i + 1) - 1 - (3 * i + 1) = 1 by omega,
        show 3 * (i + 1) - 1 - (3 * i + 2) = 0 by omega]
      exact ⟨rfl, rfl, rfl⟩
    · obtain ⟨b1, b2, b3⟩ := hb i (by omega)
      rw [show 3 * (n + 1) - 1 - 3 * i = (3 * n - 1 - 3 * i) + 3 by omega,
        show 3 * (n + 1) - 1 - (3 * i + 1) = (3 * n - 1 - (3 * i + 1)) + 3 by omega,
        show 3 * (n + 1) - 1 - (3 * i + 2) = (3 * n - 1 - (3 * i + 2)) + 3 by omega]
      simp only [List.getElem?_cons_succ]
      rw [ex i (by omega), ey i (by omega), ez i (by omega)]
      exact ⟨b1, b2, b3⟩
end
end Fcl.Morton
