import Verif.Motion.TriCcd
import Mathlib.Tactic.FieldSimp
import Mathlib.Tactic.LinearCombination
import Mathlib.Tactic.Positivity
import Mathlib.Tactic.NormNum

/-!
# The interval Newton method of the polynomial solver
-/

namespace Fcl
namespace TriCcd

section
variable {K : Type*} [Field K] [LinearOrder K] [IsStrictOrderedRing K] {X : Type*}

/-- The value of the polynomial. -/
def Cubic.eval (p : Cubic K) (t : K) : K := p.c3 * t ^ 3 + p.c2 * t ^ 2 + p.c1 * t + p.c0

theorem sel_le {c x y s : K} (h1 : x ≤ s) (h2 : s ≤ y) : c * sel x y (signBit c) ≤ c * s := by
  unfold sel signBit
  by_cases h : c < 0
  · simpa [h] using mul_le_mul_of_nonpos_left h2 h.le
  · simpa [h] using mul_le_mul_of_nonneg_left h1 (not_lt.1 h)

theorem le_sel {c x y s : K} (h1 : x ≤ s) (h2 : s ≤ y) : c * s ≤ c * sel x y (!signBit c) := by
  unfold sel signBit
  by_cases h : c < 0
  · simpa [h] using mul_le_mul_of_nonpos_left h1 h.le
  · simpa [h] using mul_le_mul_of_nonneg_left h2 (not_lt.1 h)

omit [LinearOrder K] [IsStrictOrderedRing K] in
theorem sel3 (c l r : K) (b : Bool) : c * sel (l * l) (r * r) b * sel l r b = c * sel (l ^ 3) (r ^ 3) b := by
  cases b <;> simp [sel] <;> ring

variable {p : Cubic K} {l r t : K}

/-- The bounds of the values. -/
theorem bounds (h0 : 0 ≤ l) (h1 : l ≤ t) (h2 : t ≤ r) : minor p l r ≤ p.eval t ∧ p.eval t ≤ major p l r := by
  have q3 : l ^ 3 ≤ t ^ 3 ∧ t ^ 3 ≤ r ^ 3 := ⟨pow_le_pow_left₀ h0 h1 3, pow_le_pow_left₀ (h0.trans h1) h2 3⟩
  have q2 : l * l ≤ t ^ 2 ∧ t ^ 2 ≤ r * r := by
    rw [pow_two]; exact ⟨mul_self_le_mul_self h0 h1, mul_self_le_mul_self (h0.trans h1) h2⟩
  unfold minor major Cubic.eval
  rw [sel3, sel3]
  exact ⟨by linarith [sel_le (c := p.c3) q3.1 q3.2, sel_le (c := p.c2) q2.1 q2.2, sel_le (c := p.c1) h1 h2],
    by linarith [le_sel (c := p.c3) q3.1 q3.2, le_sel (c := p.c2) q2.1 q2.2, le_sel (c := p.c1) h1 h2]⟩

/-- The slope of a chord is between the bounds of the derivative. -/
theorem slope {m : K} (h0 : 0 ≤ l) (h1 : l ≤ t) (h2 : t ≤ r) (g1 : l ≤ m) (g2 : m ≤ r) :
    dminor p l r ≤ p.c3 * (m * m + m * t + t * t) + p.c2 * (m + t) + p.c1 ∧
    p.c3 * (m * m + m * t + t * t) + p.c2 * (m + t) + p.c1 ≤ dmajor p l r := by
  have a1 : l * l ≤ (m * m + m * t + t * t) / 3 := by nlinarith [mul_nonneg h0 (sub_nonneg.2 h1), mul_nonneg h0 (sub_nonneg.2 g1), mul_nonneg (sub_nonneg.2 h1) (sub_nonneg.2 g1)]
  have a2 : (m * m + m * t + t * t) / 3 ≤ r * r := by
    nlinarith [mul_nonneg (h0.trans h1) (sub_nonneg.2 h2), mul_nonneg (h0.trans g1) (sub_nonneg.2 g2), mul_nonneg (h0.trans h1) (sub_nonneg.2 g2),
      mul_nonneg (h0.trans (h1.trans h2)) (sub_nonneg.2 h2), mul_nonneg (h0.trans (h1.trans h2)) (sub_nonneg.2 g2)]
  have b1 : l ≤ (m + t) / 2 := by linarith
  have b2 : (m + t) / 2 ≤ r := by linarith
  unfold dminor dmajor
  constructor
  · linarith [sel_le (c := p.c3) a1 a2, sel_le (c := p.c2) b1 b2]
  · linarith [le_sel (c := p.c3) a1 a2, le_sel (c := p.c2) b1 b2]

/-- Between two bounds of the same sign, a quotient. -/
theorem div_bounds {f d lo hi q : K} (hq : lo ≤ q ∧ q ≤ hi) (hs : lo > 0 ∨ hi < 0) (h : d * q = f) :
    (f > 0 → f / hi ≤ d ∧ d ≤ f / lo) ∧ (¬ f > 0 → f / lo ≤ d ∧ d ≤ f / hi) := by
  obtain ⟨h1, h2⟩ := hq
  subst h
  rcases hs with hs | hs
  · have qp : 0 < q := hs.trans_le h1
    have hp : 0 < hi := qp.trans_le h2
    constructor
    · intro hf
      have hd : 0 < d := pos_of_mul_pos_left hf qp.le
      rw [div_le_iff₀ hp, le_div_iff₀ hs]
      exact ⟨mul_le_mul_of_nonneg_left h2 hd.le, mul_le_mul_of_nonneg_left h1 hd.le⟩
    · intro hf
      have hd : d ≤ 0 := by
        by_contra hc
        exact hf (mul_pos (not_le.1 hc) qp)
      rw [div_le_iff₀ hs, le_div_iff₀ hp]
      exact ⟨mul_le_mul_of_nonpos_left h1 hd, mul_le_mul_of_nonpos_left h2 hd⟩
  · have qn : q < 0 := h2.trans_lt hs
    have ln : lo < 0 := h1.trans_lt qn
    constructor
    · intro hf
      have hd : d < 0 := by
        by_contra hc
        exact absurd hf (not_lt.2 (mul_nonpos_of_nonneg_of_nonpos (not_lt.1 hc) qn.le))
      rw [div_le_iff_of_neg hs, le_div_iff_of_neg ln]
      exact ⟨mul_le_mul_of_nonpos_left h2 hd.le, mul_le_mul_of_nonpos_left h1 hd.le⟩
    · intro hf
      have hd : 0 ≤ d := by
        by_contra hc
        exact hf (mul_pos_of_neg_of_neg (not_le.1 hc) qn)
      rw [div_le_iff_of_neg ln, le_div_iff_of_neg hs]
      exact ⟨mul_le_mul_of_nonneg_left h1 hd, mul_le_mul_of_nonneg_left h2 hd⟩

/-- The step of Newton's method keeps the roots. -/
theorem contract_root (h0 : 0 ≤ l) (h1 : l ≤ t) (h2 : t ≤ r) (ht : p.eval t = 0) :
    ∃ l' r', contract p l r = some (l', r') ∧ l' ≤ t ∧ t ≤ r' := by
  unfold contract
  simp only
  by_cases hd : dminor p l r > 0 ∨ dmajor p l r < 0
  · rw [if_pos hd]
    have hm := slope (p := p) (m := 1 / 2 * (r + l)) h0 h1 h2 (by linarith) (by linarith)
    set m := 1 / 2 * (r + l) with hmdef
    set f := p.c3 * (m * m) * m + p.c2 * (m * m) + p.c1 * m + p.c0 with hf
    have e : (m - t) * (p.c3 * (m * m + m * t + t * t) + p.c2 * (m + t) + p.c1) = f := by
      unfold Cubic.eval at ht
      rw [hf]
      linear_combination -ht
    obtain ⟨k1, k2⟩ := div_bounds hm hd e
    set nl := (if f > 0 then m - f / dminor p l r else m - f / dmajor p l r) with hnl
    set nu := (if f > 0 then m - f / dmajor p l r else m - f / dminor p l r) with hnu
    have key : nl ≤ t ∧ t ≤ nu := by
      rw [hnl, hnu]
      by_cases hp : f > 0
      · simp only [if_pos hp]
        have := k1 hp
        constructor <;> linarith
      · simp only [if_neg hp]
        have := k2 hp
        constructor <;> linarith
    rw [if_neg (by linarith), if_neg (by linarith)]
    split_ifs
    · exact ⟨_, _, rfl, key⟩
    · exact ⟨_, _, rfl, key.1, h2⟩
    · exact ⟨_, _, rfl, h1, key.2⟩
    · exact ⟨_, _, rfl, h1, h2⟩
  · rw [if_neg hd]
    exact ⟨_, _, rfl, h1, h2⟩

/-- The step of Newton's method gives a part of the interval. -/
theorem contract_sub {l' r' : K} (h0 : 0 ≤ l) (h : l ≤ r) (e : contract p l r = some (l', r')) : l ≤ l' ∧ l' ≤ r' ∧ r' ≤ r := by
  unfold contract at e
  simp only at e
  by_cases hd : dminor p l r > 0 ∨ dmajor p l r < 0
  · rw [if_pos hd] at e
    have hm := slope (p := p) (t := l) (m := l) h0 le_rfl h le_rfl h
    have hdd := hm.1.trans hm.2
    set m := 1 / 2 * (r + l) with hmdef
    set f := p.c3 * (m * m) * m + p.c2 * (m * m) + p.c1 * m + p.c0 with hf
    have key : (if f > 0 then m - f / dminor p l r else m - f / dmajor p l r) ≤
        (if f > 0 then m - f / dmajor p l r else m - f / dminor p l r) := by
      have q1 := div_bounds (f := f) (d := f / dminor p l r) ⟨le_rfl, hdd⟩ hd (by
        refine div_mul_cancel₀ _ ?_
        rcases hd with hd | hd
        · exact hd.ne'
        · exact (hdd.trans_lt hd).ne)
      by_cases hp : f > 0
      · simp only [if_pos hp]
        linarith [(q1.1 hp).1]
      · simp only [if_neg hp]
        linarith [(q1.2 hp).2]
    revert e key
    generalize (if f > 0 then m - f / dminor p l r else m - f / dmajor p l r) = nl
    generalize (if f > 0 then m - f / dmajor p l r else m - f / dminor p l r) = nu
    intro e key
    split_ifs at e with c1 c2 c3 c4 c4 <;> simp only [Option.some.injEq, Prod.mk.injEq] at e <;> obtain ⟨rfl, rfl⟩ := e
    · exact ⟨c3.le, key, c4.le⟩
    · exact ⟨c3.le, not_lt.1 c1, le_rfl⟩
    · exact ⟨le_rfl, not_lt.1 c2, c4.le⟩
    · exact ⟨le_rfl, h, le_rfl⟩
  · rw [if_neg hd] at e
    simp only [Option.some.injEq, Prod.mk.injEq] at e
    obtain ⟨rfl, rfl⟩ := e
    exact ⟨le_rfl, h, le_rfl⟩

omit [IsStrictOrderedRing K] in
theorem newton_succ (valid : K → Option X) (p : Cubic K) (n : ℕ) (l r : K) :
    newton valid p (n + 1) l r =
      if major p l r < 0 then some none
      else if minor p l r > 0 then some none
      else
        match contract p l r with
        | none => some none
        | some (l, r) =>
          if r - l < resolution then some ((valid r).map fun x => (l, r, x))
          else
            match newton valid p n l (1 / 2 * (l + r)) with
            | none => none
            | some (some out) => some (some out)
            | some none => newton valid p n (1 / 2 * (l + r)) r := rfl

/-- The recursion ends. -/
theorem newton_ends (valid : K → Option X) (p : Cubic K) : ∀ (n : ℕ) (l r : K), 0 ≤ l → l ≤ r → r - l < resolution * 2 ^ n →
    newton valid p (n + 1) l r ≠ none := by
  intro n
  induction n with
  | zero =>
    intro l r h0 h1 h2
    rw [newton_succ]
    split_ifs
    · simp
    · simp
    · rcases e : contract p l r with _ | ⟨l', r'⟩
      · simp
      · have := contract_sub h0 h1 e
        simp only
        rw [if_pos (by linarith)]
        simp
  | succ n ih =>
    intro l r h0 h1 h2
    rw [newton_succ]
    split_ifs
    · simp
    · simp
    · rcases e : contract p l r with _ | ⟨l', r'⟩
      · simp
      · have hs := contract_sub h0 h1 e
        simp only
        split_ifs
        · simp
        · have w : r' - l' < resolution * 2 ^ n * 2 := by rw [pow_succ, ← mul_assoc] at h2; linarith
          rcases e1 : newton valid p (n + 1) l' (1 / 2 * (l' + r')) with _ | (_ | out)
          · exact absurd e1 (ih _ _ (by linarith) (by linarith) (by linarith))
          · simp only
            exact ih _ _ (by linarith) (by linarith) (by linarith)
          · simp

/-- What a positive answer says: an interval shorter than the resolution, at whose end the check succeeds. -/
theorem newton_some (valid : K → Option X) (p : Cubic K) : ∀ (n : ℕ) (l r l' r' : K) (x : X), 0 ≤ l → l ≤ r →
    newton valid p n l r = some (some (l', r', x)) → l ≤ l' ∧ l' ≤ r' ∧ r' ≤ r ∧ r' - l' < resolution ∧ valid r' = some x := by
  intro n
  induction n with
  | zero => intro l r l' r' x _ _ h; simp [newton] at h
  | succ n ih =>
    intro l r l' r' x h0 h1 h
    rw [newton_succ] at h
    split_ifs at h
    · simp at h
    · simp at h
    rcases e : contract p l r with _ | ⟨l2, r2⟩
    · rw [e] at h; simp at h
    · have hs := contract_sub h0 h1 e
      rw [e] at h
      simp only at h
      split_ifs at h with hw
      · rcases ev : valid r2 with _ | y
        · rw [ev] at h; simp at h
        · rw [ev] at h
          simp only [Option.map_some, Option.some.injEq, Prod.mk.injEq] at h
          obtain ⟨rfl, rfl, rfl⟩ := h
          exact ⟨hs.1, hs.2.1, hs.2.2, hw, ev⟩
      · rcases e1 : newton valid p n l2 (1 / 2 * (l2 + r2)) with _ | (_ | out)
        · rw [e1] at h; simp at h
        · rw [e1] at h
          have := ih _ _ _ _ _ (by linarith) (by linarith) h
          exact ⟨by linarith, this.2.1, by linarith, this.2.2.2⟩
        · rw [e1] at h
          simp only [Option.some.injEq] at h
          subst h
          have := ih _ _ _ _ _ (by linarith) (by linarith) e1
          exact ⟨by linarith, this.2.1, by linarith, this.2.2.2⟩

/-- What a negative answer says: at every root, or less than the resolution after it, the check fails. -/
theorem newton_none (valid : K → Option X) (p : Cubic K) : ∀ (n : ℕ) (l r : K), 0 ≤ l →
    newton valid p n l r = some none → ∀ t, l ≤ t → t ≤ r → p.eval t = 0 → ∃ s, t ≤ s ∧ s ≤ r ∧ s - t < resolution ∧ valid s = none := by
  intro n
  induction n with
  | zero => intro l r _ h; simp [newton] at h
  | succ n ih =>
    intro l r h0 h t h1 h2 ht
    rw [newton_succ] at h
    have hb := bounds (p := p) h0 h1 h2
    rw [ht] at hb
    rw [if_neg (not_lt.2 hb.2), if_neg (not_lt.2 hb.1)] at h
    obtain ⟨l', r', e, hl, hr⟩ := contract_root h0 h1 h2 ht
    have hs := contract_sub h0 (h1.trans h2) e
    rw [e] at h
    simp only at h
    split_ifs at h with hw
    · refine ⟨r', hr, hs.2.2, by linarith, ?_⟩
      rcases ev : valid r' with _ | y
      · rfl
      · rw [ev] at h; simp at h
    · rcases e1 : newton valid p n l' (1 / 2 * (l' + r')) with _ | (_ | out)
      · rw [e1] at h; simp at h
      · rw [e1] at h
        rcases le_total t (1 / 2 * (l' + r')) with hc | hc
        · obtain ⟨s, a, b, c⟩ := ih _ _ (by linarith) e1 t hl hc ht
          exact ⟨s, a, by linarith, c⟩
        · obtain ⟨s, a, b, c⟩ := ih _ _ (by linarith) h t hc hr ht
          exact ⟨s, a, by linarith, c⟩
      · rw [e1] at h; simp at h

/-! ### The call on `[0, 1]` -/

theorem solve_ends (valid : K → Option X) (p : Cubic K) : newton valid p 25 0 1 ≠ none :=
  newton_ends valid p 24 0 1 le_rfl zero_le_one (by unfold resolution; norm_num)

theorem solve_some {valid : K → Option X} {p : Cubic K} {x : X} (h : solve valid p = some (l, r, x)) :
    0 ≤ l ∧ l ≤ r ∧ r ≤ 1 ∧ r - l < resolution ∧ valid r = some x := by
  refine newton_some valid p 25 0 1 l r x le_rfl zero_le_one ?_
  unfold solve at h
  rcases e : newton valid p 25 0 1 with _ | o
  · rw [e] at h; simp at h
  · rw [e] at h; simpa using h

theorem solve_none {valid : K → Option X} {p : Cubic K} (h : solve valid p = none) {t : K} (h0 : 0 ≤ t) (h1 : t ≤ 1) (ht : p.eval t = 0) :
    ∃ s, t ≤ s ∧ s ≤ 1 ∧ s - t < resolution ∧ valid s = none := by
  refine newton_none valid p 25 0 1 le_rfl ?_ t h0 h1 ht
  unfold solve at h
  rcases e : newton valid p 25 0 1 with _ | o
  · exact absurd e (solve_ends valid p)
  · rw [e] at h
    rw [show o = none by simpa using h]

/-- On a linear polynomial the method is exact. -/
theorem solve_linear (valid : K → Option X) {p : Cubic K} (h3 : p.c3 = 0) (h2 : p.c2 = 0) (h1 : p.c1 ≠ 0) {s : K} (hs : p.c1 * s + p.c0 = 0) :
    solve valid p = if 0 ≤ s ∧ s ≤ 1 then (valid s).map fun x => (s, s, x) else none := by
  have hev : p.eval s = 0 := by unfold Cubic.eval; rw [h3, h2]; linear_combination hs
  have d1 : dminor p 0 1 = p.c1 := by simp [dminor, h3, h2]
  have d2 : dmajor p 0 1 = p.c1 := by simp [dmajor, h3, h2]
  have hroot : (1 : K) / 2 * (1 + 0) - (p.c3 * (1 / 2 * (1 + 0) * (1 / 2 * (1 + 0))) * (1 / 2 * (1 + 0)) +
      p.c2 * (1 / 2 * (1 + 0) * (1 / 2 * (1 + 0))) + p.c1 * (1 / 2 * (1 + 0)) + p.c0) / p.c1 = s := by
    rw [h3, h2]
    field_simp
    linear_combination -8 * hs
  have hc : contract p 0 1 = if s > 1 then none else if s < 0 then none else some (s, s) := by
    unfold contract
    simp only [d1, d2]
    rw [if_pos (by rcases lt_or_gt_of_ne h1 with h | h; exacts [Or.inr h, Or.inl h])]
    simp only [ite_self, hroot]
    by_cases c1 : s > 1
    · simp [c1]
    by_cases c2 : s < 0
    · simp [c1, c2]
    rw [if_neg c1, if_neg c2, if_neg c1, if_neg c2]
    by_cases c3 : s > 0
    · rw [if_pos c3]
      by_cases c4 : s < 1
      · rw [if_pos c4]
      · rw [if_neg c4, le_antisymm (not_lt.1 c1) (not_lt.1 c4)]
    · have : s = 0 := le_antisymm (not_lt.1 c3) (not_lt.1 c2)
      rw [if_neg c3, this, if_pos zero_lt_one]
  unfold solve
  rw [show (25 : ℕ) = 24 + 1 from rfl, newton_succ]
  by_cases hin : 0 ≤ s ∧ s ≤ 1
  · have hb := bounds (p := p) (l := 0) (r := 1) le_rfl hin.1 hin.2
    rw [hev] at hb
    rw [if_pos hin, if_neg (not_lt.2 hb.2), if_neg (not_lt.2 hb.1), hc, if_neg (not_lt.2 hin.2), if_neg (not_lt.2 hin.1)]
    simp only
    rw [if_pos (by rw [sub_self]; unfold resolution; norm_num)]
    rfl
  · rw [if_neg hin, hc]
    have : (if s > 1 then none else if s < 0 then none else some (s, s) : Option (K × K)) = none := by
      split_ifs with a b
      · rfl
      · rfl
      · exact absurd ⟨not_lt.1 b, not_lt.1 a⟩ hin
    rw [this]
    split_ifs <;> rfl

omit [IsStrictOrderedRing K] in
/-- On a constant polynomial that is not zero there is no answer. -/
theorem solve_constant (valid : K → Option X) {p : Cubic K} (h3 : p.c3 = 0) (h2 : p.c2 = 0) (h1 : p.c1 = 0) (h0 : p.c0 ≠ 0) :
    solve valid p = none := by
  unfold solve
  rw [show (25 : ℕ) = 24 + 1 from rfl, newton_succ]
  have e1 : major p 0 1 = p.c0 := by simp [major, h3, h2, h1]
  have e2 : minor p 0 1 = p.c0 := by simp [minor, h3, h2, h1]
  rw [e1, e2]
  rcases lt_or_gt_of_ne h0 with h | h
  · rw [if_pos h]; rfl
  · rw [if_neg (not_lt.2 (le_of_lt h)), if_pos h]; rfl

end

end TriCcd
end Fcl
