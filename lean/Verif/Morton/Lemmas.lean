import Verif.Morton.Model
import Mathlib.Tactic.IntervalCases
import Mathlib.Tactic.Ring

/-! Auxiliary facts about Morton codes. -/

namespace Fcl.Morton

theorem getLsbD_spread (x : BitVec 32) (hx : x.toNat < 1024) (i : ℕ) :
    (spread x).getLsbD i = (decide (i % 3 = 0) && x.getLsbD (i / 3)) := by
  have hz : ∀ j, 10 ≤ j → x.getLsbD j = false := fun j hj => by
    rw [BitVec.getLsbD, Nat.testBit_lt_two_pow]
    exact lt_of_lt_of_le hx (show 2 ^ 10 ≤ 2 ^ j from Nat.pow_le_pow_right (by norm_num) hj)
  by_cases hi : i < 32
  · have h10 : x[10] = false := hz 10 (by omega)
    have h24 : x[24] = false := hz 24 (by omega)
    have h25 : x[25] = false := hz 25 (by omega)
    interval_cases i <;> simp [spread, h10, h24, h25]
  · rw [BitVec.getLsbD_of_ge _ _ (by omega), hz _ (by omega), Bool.and_false]

/-- Interleaving as a number. -/
def ilv : ℕ → ℕ → ℕ → ℕ → ℕ
  | 0, _, _, _ => 0
  | n + 1, x, y, z => (x % 2 + 2 * (y % 2) + 4 * (z % 2)) + 8 * ilv n (x / 2) (y / 2) (z / 2)

theorem testBit_ilv (n x y z i : ℕ) (hi : i < n) :
    (ilv n x y z).testBit (3 * i) = x.testBit i ∧ (ilv n x y z).testBit (3 * i + 1) = y.testBit i ∧
      (ilv n x y z).testBit (3 * i + 2) = z.testBit i := by
  induction n generalizing x y z i with
  | zero => omega
  | succ n ih =>
    have hl : x % 2 + 2 * (y % 2) + 4 * (z % 2) < 2 ^ 3 := by omega
    have e : ilv (n + 1) x y z = 2 ^ 3 * ilv n (x / 2) (y / 2) (z / 2) + (x % 2 + 2 * (y % 2) + 4 * (z % 2)) := by
      rw [ilv]; ring
    rw [e, Nat.testBit_two_pow_mul_add _ hl, Nat.testBit_two_pow_mul_add _ hl, Nat.testBit_two_pow_mul_add _ hl]
    cases i with
    | zero =>
      refine ⟨?_, ?_, ?_⟩
      · simp [Nat.testBit_eq_decide_div_mod_eq]; omega
      · simp [Nat.testBit_eq_decide_div_mod_eq]; omega
      · simp [Nat.testBit_eq_decide_div_mod_eq]; omega
    | succ i =>
      have := ih (x / 2) (y / 2) (z / 2) i (by omega)
      rw [if_neg (by omega), if_neg (by omega), if_neg (by omega)]
      simp only [Nat.testBit_succ]
      exact ⟨this.1, this.2.1, this.2.2⟩

theorem ilv_lt (n x y z : ℕ) : ilv n x y z < 8 ^ n := by
  induction n generalizing x y z with
  | zero => simp [ilv]
  | succ n ih => have := ih (x / 2) (y / 2) (z / 2); rw [ilv, pow_succ]; omega

theorem ilv_mono (n : ℕ) {x y z x' y' z' : ℕ} (hx : x ≤ x') (hy : y ≤ y') (hz : z ≤ z') (hx' : x' < 2 ^ n)
    (hy' : y' < 2 ^ n) (hz' : z' < 2 ^ n) : ilv n x y z ≤ ilv n x' y' z' := by
  -- the three spreads are monotone separately
  have sp : ∀ n x y z, ilv n x y z = ilv n x 0 0 + ilv n 0 y 0 + ilv n 0 0 z := by
    intro n
    induction n with
    | zero => intro x y z; simp [ilv]
    | succ n ih => intro x y z; simp only [ilv]; rw [ih (x / 2) (y / 2) (z / 2)]; simp; omega
  have s2 : ∀ n x, ilv n 0 x 0 = 2 * ilv n x 0 0 := by
    intro n
    induction n with
    | zero => intro x; simp [ilv]
    | succ n ih => intro x; simp only [ilv]; simp [ih (x / 2)]; omega
  have s4 : ∀ n x, ilv n 0 0 x = 4 * ilv n x 0 0 := by
    intro n
    induction n with
    | zero => intro x; simp [ilv]
    | succ n ih => intro x; simp only [ilv]; simp [ih (x / 2)]; omega
  have st : ∀ n x x', x < x' → x' < 2 ^ n → ilv n x 0 0 < ilv n x' 0 0 := by
    intro n
    induction n with
    | zero => intro x x' h h'; simp at h'; omega
    | succ n ih =>
      intro x x' h h'
      simp only [ilv]
      rw [pow_succ] at h'
      by_cases e : x / 2 = x' / 2
      · rw [e]; omega
      · have := ih (x / 2) (x' / 2) (by omega) (by omega)
        simp; omega
  have mo : ∀ x x', x ≤ x' → x' < 2 ^ n → ilv n x 0 0 ≤ ilv n x' 0 0 := by
    intro x x' h h'
    rcases h.eq_or_lt with rfl | h
    · exact le_rfl
    · exact (st n x x' h h').le
  rw [sp n x y z, sp n x' y' z', s2, s2, s4, s4]
  have h1 := mo _ _ hx hx'
  have h2 := mo _ _ hy hy'
  have h3 := mo _ _ hz hz'
  omega

theorem ilv_inj (n : ℕ) {x y z x' y' z' : ℕ} (hx : x < 2 ^ n) (hy : y < 2 ^ n) (hz : z < 2 ^ n)
    (hx' : x' < 2 ^ n) (hy' : y' < 2 ^ n) (hz' : z' < 2 ^ n) (h : ilv n x y z = ilv n x' y' z') :
    x = x' ∧ y = y' ∧ z = z' := by
  induction n generalizing x y z x' y' z' with
  | zero => simp at *; omega
  | succ n ih =>
    rw [pow_succ] at *
    simp only [ilv] at h
    have := @ih (x / 2) (y / 2) (z / 2) (x' / 2) (y' / 2) (z' / 2) (by omega) (by omega) (by omega) (by omega)
      (by omega) (by omega) (by omega)
    omega

theorem ilv_div (n j x y z : ℕ) : ilv (n + j) x y z / 8 ^ j = ilv n (x / 2 ^ j) (y / 2 ^ j) (z / 2 ^ j) := by
  induction j generalizing x y z with
  | zero => simp
  | succ j ih =>
    rw [← Nat.add_assoc, ilv, pow_succ', ← Nat.div_div_eq_div_mul]
    rw [show (x % 2 + 2 * (y % 2) + 4 * (z % 2) + 8 * ilv (n + j) (x / 2) (y / 2) (z / 2)) / 8 =
      ilv (n + j) (x / 2) (y / 2) (z / 2) by omega, ih]
    simp only [Nat.div_div_eq_div_mul, pow_succ']

theorem ilv_cell (n j : ℕ) (hj : j ≤ n) {x y z x' y' z' : ℕ} (hx : x < 2 ^ n) (hy : y < 2 ^ n) (hz : z < 2 ^ n)
    (hx' : x' < 2 ^ n) (hy' : y' < 2 ^ n) (hz' : z' < 2 ^ n) :
    ilv n x y z / 8 ^ j = ilv n x' y' z' / 8 ^ j ↔
      x / 2 ^ j = x' / 2 ^ j ∧ y / 2 ^ j = y' / 2 ^ j ∧ z / 2 ^ j = z' / 2 ^ j := by
  obtain ⟨m, rfl⟩ := Nat.exists_eq_add_of_le' hj
  rw [ilv_div, ilv_div]
  have key : ∀ a, a < 2 ^ (m + j) → a / 2 ^ j < 2 ^ m := fun a ha => by
    rw [Nat.div_lt_iff_lt_mul (by positivity), ← pow_add]; exact ha
  constructor
  · exact ilv_inj m (key _ hx) (key _ hy) (key _ hz) (key _ hx') (key _ hy') (key _ hz')
  · rintro ⟨h1, h2, h3⟩; rw [h1, h2, h3]

theorem ilv_append (n m x y z : ℕ) :
    ilv (n + m) x y z = 8 ^ n * ilv m (x / 2 ^ n) (y / 2 ^ n) (z / 2 ^ n) +
      ilv n (x % 2 ^ n) (y % 2 ^ n) (z % 2 ^ n) := by
  induction n generalizing x y z with
  | zero => simp [ilv]
  | succ n ih =>
    have hm : ∀ a, a % 2 ^ (n + 1) % 2 = a % 2 := fun a => by
      rw [Nat.mod_mod_of_dvd _ (dvd_pow_self 2 (Nat.succ_ne_zero n))]
    have hd : ∀ a, a % 2 ^ (n + 1) / 2 = a / 2 % 2 ^ n := fun a => by
      rw [pow_succ', Nat.mod_mul_right_div_self]
    rw [show n + 1 + m = (n + m) + 1 by omega, ilv, ih, ilv]
    simp only [hm, hd, Nat.div_div_eq_div_mul, ← pow_succ']
    rw [pow_succ']; ring
theorem eq_ilv (n c x y z : ℕ) (hc : c < 8 ^ n) (h : ∀ i < n, c.testBit (3 * i) = x.testBit i ∧
    c.testBit (3 * i + 1) = y.testBit i ∧ c.testBit (3 * i + 2) = z.testBit i) : c = ilv n x y z := by
  have e8 : (8 : ℕ) ^ n = 2 ^ (3 * n) := by rw [pow_mul]; norm_num
  refine Nat.eq_of_testBit_eq fun b => ?_
  by_cases hb : b / 3 < n
  · obtain ⟨h1, h2, h3⟩ := h _ hb
    obtain ⟨g1, g2, g3⟩ := testBit_ilv n x y z _ hb
    have : b = 3 * (b / 3) ∨ b = 3 * (b / 3) + 1 ∨ b = 3 * (b / 3) + 2 := by omega
    rcases this with e | e | e <;> rw [e]
    · rw [h1, g1]
    · rw [h2, g2]
    · rw [h3, g3]
  · have : (2 : ℕ) ^ (3 * n) ≤ 2 ^ b := Nat.pow_le_pow_right (by norm_num) (by omega)
    rw [Nat.testBit_lt_two_pow (by omega), Nat.testBit_lt_two_pow]
    have := ilv_lt n x y z
    omega

theorem getLsbD_code30 {x y z : BitVec 32} (hx : x.toNat < 1024) (hy : y.toNat < 1024) (hz : z.toNat < 1024)
    (i : ℕ) (hi : i < 10) : (code30 x y z).getLsbD (3 * i) = x.getLsbD i ∧
      (code30 x y z).getLsbD (3 * i + 1) = y.getLsbD i ∧ (code30 x y z).getLsbD (3 * i + 2) = z.getLsbD i := by
  have sp := fun (w : BitVec 32) (hw : w.toNat < 1024) j => getLsbD_spread w hw j
  interval_cases i <;>
    simp [code30, -BitVec.getLsbD_eq_getElem, BitVec.getLsbD_or, BitVec.getLsbD_shiftLeft, sp x hx, sp y hy, sp z hz]

theorem code30_lt {x y z : BitVec 32} (hx : x.toNat < 1024) (hy : y.toNat < 1024) (hz : z.toNat < 1024) :
    (code30 x y z).toNat < 8 ^ 10 := by
  have sp := fun (w : BitVec 32) (hw : w.toNat < 1024) j => getLsbD_spread w hw j
  have : ∀ w : BitVec 32, w.getLsbD 30 = false → w.getLsbD 31 = false → w.toNat < 8 ^ 10 := by
    intro w h0 h1
    rw [show (8 : ℕ) ^ 10 = 2 ^ 30 by norm_num]
    refine Nat.lt_pow_two_of_testBit _ fun i hi => ?_
    by_cases h : i < 32
    · interval_cases i
      · exact h0
      · exact h1
    · exact BitVec.getLsbD_of_ge _ _ (by omega)
  have hz10 : ∀ w : BitVec 32, w.toNat < 1024 → w.getLsbD 10 = false := fun w hw => by
    rw [BitVec.getLsbD, Nat.testBit_lt_two_pow]; exact hw
  refine this _ ?_ ?_ <;>
    simp [code30, -BitVec.getLsbD_eq_getElem, BitVec.getLsbD_or, BitVec.getLsbD_shiftLeft, sp x hx, sp y hy, sp z hz,
      hz10 x hx, hz10 y hy]

theorem code30_eq {x y z : BitVec 32} (hx : x.toNat < 1024) (hy : y.toNat < 1024) (hz : z.toNat < 1024) :
    (code30 x y z).toNat = ilv 10 x.toNat y.toNat z.toNat :=
  eq_ilv 10 _ _ _ _ (code30_lt hx hy hz) fun i hi => getLsbD_code30 hx hy hz i hi

theorem code60_eq {x y z : BitVec 32} (hx : x.toNat < 2 ^ 20) (hy : y.toNat < 2 ^ 20) (hz : z.toNat < 2 ^ 20) :
    (code60 x y z).toNat = ilv 20 x.toNat y.toNat z.toNat := by
  have hh : ∀ w : BitVec 32, w.toNat < 2 ^ 20 → (w >>> 10).toNat < 1024 := fun w hw => by
    rw [BitVec.toNat_ushiftRight, Nat.shiftRight_eq_div_pow]; omega
  have hl : ∀ w : BitVec 32, (w &&& 1023#32).toNat = w.toNat % 2 ^ 10 := fun w => by
    rw [BitVec.toNat_and]; exact Nat.and_two_pow_sub_one_eq_mod _ 10
  have hl' : ∀ w : BitVec 32, (w &&& 1023#32).toNat < 1024 := fun w => by rw [hl]; omega
  have lo := code30_lt (hl' x) (hl' y) (hl' z)
  have hi := code30_lt (hh x hx) (hh y hy) (hh z hz)
  have e8 : (8 : ℕ) ^ 10 = 2 ^ 30 := by norm_num
  rw [code60, BitVec.toNat_or, BitVec.toNat_shiftLeft, BitVec.toNat_setWidth, BitVec.toNat_setWidth,
    Nat.mod_eq_of_lt (by omega), Nat.mod_eq_of_lt (by omega), Nat.shiftLeft_eq, Nat.mod_eq_of_lt (by omega),
    Nat.mul_comm, ← Nat.two_pow_add_eq_or_of_lt (by omega), code30_eq (hh x hx) (hh y hy) (hh z hz),
    code30_eq (hl' x) (hl' y) (hl' z), ← e8, show (20 : ℕ) = 10 + 10 from rfl, ilv_append]
  simp only [hl, BitVec.toNat_ushiftRight, Nat.shiftRight_eq_div_pow]

end Fcl.Morton
