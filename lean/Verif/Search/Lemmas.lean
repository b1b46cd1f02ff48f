import Verif.Search.Model
import Verif.AABB.Spec
import Verif.AABB.Lemmas
import Mathlib.Algebra.Order.Archimedean.Basic
import Mathlib.Tactic.Linarith
import Mathlib.Tactic.Ring
import Mathlib.Tactic.FinCases
import Mathlib.Tactic.Positivity

/-! The distance search, for any way to find candidates that is complete. -/

set_option linter.unusedSectionVars false
set_option linter.unusedSimpArgs false

namespace Fcl

/-- The distance of these boxes is at least the gap on every axis, on either side. -/
def GapAt {K : Type*} [LinearOrder K] [Field K] (dist : AABB K → AABB K → K) (a b : AABB K) : Prop :=
  ∀ i : Fin 3, a.lo.get i - b.hi.get i ≤ dist a b ∧ b.lo.get i - a.hi.get i ≤ dist a b

/-- The distance of boxes that are not inverted is at least the gap on every axis. -/
def GapDist2 {K : Type*} [LinearOrder K] [Field K] (dist : AABB K → AABB K → K) : Prop :=
  ∀ a b : AABB K, a.Valid → b.Valid → GapAt dist a b

namespace Search
variable {K O σ : Type*} [Field K] [LinearOrder K] [IsStrictOrderedRing K] [LinearOrder O]
  {dist : AABB K → AABB K → K} {eqv : AABB K → AABB K → Bool} {big : K} {cands : AABB K → Option (List O)}
  {bx : O → AABB K} {bq : AABB K} {on : Bool}
  {cb : DCB σ K O} {P : σ → K → Prop} {d : O → O → K} {ps : List (O × O)}

theorem overlap_get (a b : AABB K) : a.overlap b = true ↔ ∀ i, a.lo.get i ≤ b.hi.get i ∧ b.lo.get i ≤ a.hi.get i := by
  rw [AABB.overlap_iff]
  constructor
  · rintro ⟨h0, h1, h2⟩ i
    fin_cases i
    · exact h0
    · exact h1
    · exact h2
  · intro h
    exact ⟨h 0, h 1, h 2⟩

theorem testedKey_d (hs : ∀ a b, d a b = d b a) (a b : O) : d (testedKey a b).1 (testedKey a b).2 = d a b := by
  unfold testedKey; split
  · rfl
  · exact hs b a

/-- The state of a search is consistent. -/
structure Good (P : σ → K → Prop) (d : O → O → K) (big : K) (ps : List (O × O)) (t : State σ K O) : Prop where
  rel : P t.s t.md
  cap : t.md ≤ big
  low : minDist d big ps ≤ t.md
  tst : ∀ p ∈ t.tested, t.md ≤ d p.1 p.2
  att : t.md < big → ∃ p ∈ ps, t.md = d p.1 p.2

theorem Good.init {s : σ} (h : P s big) : Good P d big ps ⟨s, big, []⟩ :=
  ⟨h, le_rfl, minDist_le_big _ _ _, by simp, fun h => absurd h (lt_irrefl _)⟩

/-- What a (partial) search for `q` through the objects satisfying `A` guarantees. -/
structure Found (P : σ → K → Prop) (d : O → O → K) (big : K) (ps : List (O × O)) (q : O) (A : O → Prop)
    (t : State σ K O) (r : State σ K O × Bool) : Prop where
  good : Good P d big ps r.1
  le : r.1.md ≤ t.md
  stop : r.2 = true → ∀ p ∈ ps, r.1.md ≤ d p.1 p.2
  all : r.2 = false → ∀ o, A o → o ≠ q → r.1.md ≤ d o q

theorem scan_spec (hcb : cb.Tracks P d ps) (hs : on = true → ∀ a b, d a b = d b a) (q : O) (l : List O)
    (hl : ∀ o ∈ l, o ≠ q → (o, q) ∈ ps) (hd : ∀ o, (o, q) ∈ ps → dist (bx o) bq ≤ d o q)
    (t : State σ K O) (ht : Good P d big ps t) :
    Found P d big ps q (· ∈ l) t (scan dist bx bq on cb q l t) := by
  induction l generalizing t with
  | nil => exact ⟨ht, le_rfl, by simp [scan], by simp⟩
  | cons o l ih =>
    have hl' : ∀ o ∈ l, o ≠ q → (o, q) ∈ ps := fun o ho => hl o (List.mem_cons_of_mem _ ho)
    have step : ∀ t', Good P d big ps t' → t'.md ≤ t.md → (o ≠ q → t'.md ≤ d o q) →
        Found P d big ps q (· ∈ o :: l) t (scan dist bx bq on cb q l t') := fun t' h1 h2 h3 => by
      obtain ⟨i1, i2, i3, i4⟩ := ih hl' t' h1
      refine ⟨i1, i2.trans h2, i3, fun hf p hp hpq => ?_⟩
      rcases List.mem_cons.mp hp with rfl | hp
      · exact i2.trans (h3 hpq)
      · exact i4 hf p hp hpq
    rw [scan]
    by_cases hq : o = q
    · rw [if_pos hq]
      exact step t ht le_rfl (fun h => absurd hq h)
    rw [if_neg hq]
    have hmem := hl o (List.mem_cons_self ..) hq
    by_cases hin : (on && decide (testedKey o q ∈ t.tested)) = true
    · rw [if_pos hin]
      simp only [Bool.and_eq_true, decide_eq_true_eq] at hin
      exact step t ht le_rfl (fun _ => by rw [← testedKey_d (hs hin.1) o q]; exact ht.tst _ hin.2)
    rw [if_neg hin]
    have htst : ∀ md', md' ≤ t.md → md' ≤ d o q →
        ∀ p ∈ (if on = true then testedKey o q :: t.tested else t.tested), md' ≤ d p.1 p.2 := by
      intro md' h1 h2 p hp
      split at hp
      · rename_i hon
        rcases List.mem_cons.mp hp with rfl | hp
        · rw [testedKey_d (hs hon)]; exact h2
        · exact h1.trans (ht.tst p hp)
      · exact h1.trans (ht.tst p hp)
    simp only
    split
    · obtain ⟨h0, h1, h2⟩ := hcb t.s t.md ht.rel o q
      have hlow : minDist d big ps ≤ (cb t.s t.md o q).2.1 := by
        rw [h1]; exact le_min ht.low (minDist_le _ _ _ _ hmem)
      have hle : (cb t.s t.md o q).2.1 ≤ t.md := by rw [h1]; exact min_le_left _ _
      have hle' : (cb t.s t.md o q).2.1 ≤ d o q := by rw [h1]; exact min_le_right _ _
      have hatt : (cb t.s t.md o q).2.1 < big → ∃ p ∈ ps, (cb t.s t.md o q).2.1 = d p.1 p.2 := by
        intro hb
        rcases min_choice t.md (d o q) with h | h
        · rw [h1, h] at hb ⊢; exact ht.att hb
        · rw [h1, h]; exact ⟨_, hmem, rfl⟩
      split
      · rename_i hstop
        exact ⟨⟨h0, hle.trans ht.cap, hlow, fun p hp => hle.trans (ht.tst p hp), hatt⟩, hle, fun _ => h2 hstop, by simp⟩
      · exact step _ ⟨h0, hle.trans ht.cap, hlow, htst _ hle hle', hatt⟩ hle (fun _ => hle')
    · rename_i hlt
      have hle' : t.md ≤ d o q := (not_lt.mp hlt).trans (hd _ hmem)
      exact step _ ⟨ht.rel, ht.cap, ht.low, htst _ le_rfl hle', ht.att⟩ le_rfl (fun _ => hle')

/-- The candidates are registered objects, and include those that overlap the box, at least for the boxes
in `B`. -/
def Complete (cands : AABB K → Option (List O)) (bx : O → AABB K) (R : O → Prop) (B : AABB K → Prop) : Prop :=
  ∀ b, ∃ l, cands b = some l ∧ (∀ o ∈ l, R o) ∧ (B b → ∀ o, R o → (bx o).overlap b = true → o ∈ l)

theorem overlap_expand {dist : AABB K → AABB K → K} {a b : AABB K} (hg : GapAt dist a b) {r : K} (h : dist a b < r) :
    a.overlap (b.expand ⟨r, r, r⟩) = true := by
  rw [overlap_get]
  intro i
  have e1 : (b.expand ⟨r, r, r⟩).lo.get i = b.lo.get i - r := by fin_cases i <;> rfl
  have e2 : (b.expand ⟨r, r, r⟩).hi.get i = b.hi.get i + r := by fin_cases i <;> rfl
  rw [e1, e2]
  obtain ⟨h1, h2⟩ := hg i
  constructor <;> linarith

variable {R : O → Prop} {B : AABB K → Prop}

theorem loop_spec (hc : Complete cands bx R B) (hg : ∀ o, R o → GapAt dist (bx o) bq) (hcb : cb.Tracks P d ps)
    (hs : on = true → ∀ a b, d a b = d b a) (q : O) (hl : ∀ o, R o → o ≠ q → (o, q) ∈ ps)
    (hd : ∀ o, (o, q) ∈ ps → dist (bx o) bq ≤ d o q)
    (hB : ∀ p ∈ ps, d p.1 p.2 < big → B (bq.expand ⟨d p.1 p.2, d p.1 p.2, d p.1 p.2⟩))
    (fuel : ℕ) (last : Bool) (b : AABB K) (t : State σ K O) (ht : Good P d big ps t)
    (hlast : last = true → t.md < big) (hb : t.md < big → b = bq.expand ⟨t.md, t.md, t.md⟩)
    {r : State σ K O × Bool} (hr : loop dist eqv big cands bx bq on cb q fuel last b t = .ok r) :
    Found P d big ps q R t r := by
  induction fuel generalizing last b t with
  | zero => simp [loop] at hr
  | succ fuel ih =>
    obtain ⟨l, e, h1, h2⟩ := hc b
    have hp := scan_spec (dist := dist) (bx := bx) (bq := bq) hcb hs q l (fun o ho => hl o (h1 o ho)) hd t ht
    rw [loop, e] at hr
    simp only at hr
    generalize scan dist bx bq on cb q l t = x at hr hp
    have hfin : t.md < big → x.2 = false → Found P d big ps q R t (x.1, false) := by
      intro hlt hf
      refine ⟨hp.good, hp.le, by simp, fun _ o ho hoq => ?_⟩
      by_cases hm : dist (bx o) bq < t.md
      · obtain ⟨p, hpm, hpe⟩ := ht.att hlt
        refine hp.all hf o (h2 ?_ o ho ?_) hoq
        · rw [hb hlt, hpe]; exact hB p hpm (hpe ▸ hlt)
        · rw [hb hlt]; exact overlap_expand (hg o ho) hm
      · exact hp.le.trans ((not_lt.mp hm).trans (hd _ (hl o ho hoq)))
    have hcomp : ∀ {r'}, Found P d big ps q R x.1 r' → Found P d big ps q R t r' :=
      fun h => ⟨h.good, h.le.trans hp.le, h.stop, h.all⟩
    split at hr
    · rename_i hst
      cases hr
      exact ⟨hp.good, hp.le, fun _ => hp.stop hst, by simp⟩
    · rename_i hst
      rw [Bool.not_eq_true] at hst
      split at hr
      · rename_i hla
        cases hr
        exact hfin (hlast hla) hst
      · split at hr
        · rename_i hlt
          cases hr
          exact hfin hlt hst
        · rename_i hlt
          split at hr
          · rename_i hmd
            exact hcomp (ih _ _ _ hp.good (fun _ => hmd.trans_le ht.cap) (fun _ => rfl) hr)
          · rename_i hne
            have hnb : ¬ x.1.md < big := fun h => hlt (lt_of_le_of_lt (not_lt.mp hne) h)
            split at hr
            · exact hcomp (ih _ _ _ hp.good (by simp) (fun h => absurd h hnb) hr)
            · exact hcomp (ih _ _ _ hp.good (by simp) (fun h => absurd h hnb) hr)

theorem search_spec (hc : Complete cands bx R B) (hg : ∀ o, R o → GapAt dist (bx o) bq) (hcb : cb.Tracks P d ps)
    (hs : on = true → ∀ a b, d a b = d b a) (q : O) (hl : ∀ o, R o → o ≠ q → (o, q) ∈ ps)
    (hd : ∀ o, (o, q) ∈ ps → dist (bx o) bq ≤ d o q)
    (hB : ∀ p ∈ ps, d p.1 p.2 < big → B (bq.expand ⟨d p.1 p.2, d p.1 p.2, d p.1 p.2⟩))
    (fuel : ℕ) (t : State σ K O) (ht : Good P d big ps t)
    {r : State σ K O × Bool} (hr : search dist eqv big cands bx bq on cb q fuel t = .ok r) :
    Found P d big ps q R t r :=
  loop_spec hc hg hcb hs q hl hd hB fuel _ _ t ht (by simp) (fun h => by rw [if_pos h]) hr

/-- No undefined behaviour in a search with total candidates. -/
theorem loop_ne_ub (hc : ∀ b, cands b ≠ none) (q : O) (fuel : ℕ) (last : Bool) (b : AABB K) (t : State σ K O) :
    loop dist eqv big cands bx bq on cb q fuel last b t ≠ .error .ub := by
  induction fuel generalizing last b t with
  | zero => simp [loop]
  | succ fuel ih =>
    rw [loop]
    split
    · exact absurd (by assumption) (hc b)
    · simp only
      split_ifs <;> first | exact ih _ _ _ | simp

/-- The query box grown by `c` times half its extents. -/
def grown (bq : AABB K) (c : K) : AABB K := bq.expand ⟨c * (half bq).x, c * (half bq).y, c * (half bq).z⟩

theorem grown_lo (bq : AABB K) (c : K) (i : Fin 3) :
    (grown bq c).lo.get i = bq.lo.get i - c * ((bq.hi.get i - bq.lo.get i) / 2) := by fin_cases i <;> rfl
theorem grown_hi (bq : AABB K) (c : K) (i : Fin 3) :
    (grown bq c).hi.get i = bq.hi.get i + c * ((bq.hi.get i - bq.lo.get i) / 2) := by fin_cases i <;> rfl

theorem aabb_ext {a b : AABB K} (h1 : ∀ i, a.lo.get i = b.lo.get i) (h2 : ∀ i, a.hi.get i = b.hi.get i) : a = b := by
  obtain ⟨⟨a1, a2, a3⟩, ⟨a4, a5, a6⟩⟩ := a
  obtain ⟨⟨b1, b2, b3⟩, ⟨b4, b5, b6⟩⟩ := b
  have := h1 0; have := h1 1; have := h1 2; have := h2 0; have := h2 1; have := h2 2
  simp only [V3.get] at *
  subst_vars
  rfl

theorem grown_zero (bq : AABB K) : grown bq 0 = bq :=
  aabb_ext (fun i => by rw [grown_lo]; ring) (fun i => by rw [grown_hi]; ring)

theorem grown_expand (bq : AABB K) (c : K) : (grown bq c).expand (half bq) = grown bq (c + 1) := by
  refine aabb_ext (fun i => ?_) (fun i => ?_)
  · have e : ((grown bq c).expand (half bq)).lo.get i = (grown bq c).lo.get i - (bq.hi.get i - bq.lo.get i) / 2 := by
      fin_cases i <;> rfl
    rw [e, grown_lo, grown_lo]; ring
  · have e : ((grown bq c).expand (half bq)).hi.get i = (grown bq c).hi.get i + (bq.hi.get i - bq.lo.get i) / 2 := by
      fin_cases i <;> rfl
    rw [e, grown_hi, grown_hi]; ring

theorem grown_ratio (bq : AABB K) (c : K) : (grown bq c).expandRatio bq 2 = grown bq (2 * c) := by
  refine aabb_ext (fun i => ?_) (fun i => ?_)
  · have e : ((grown bq c).expandRatio bq 2).lo.get i = (grown bq c).lo.get i * 2 - bq.lo.get i := by
      fin_cases i <;> rfl
    rw [e, grown_lo, grown_lo]; ring
  · have e : ((grown bq c).expandRatio bq 2).hi.get i = (grown bq c).hi.get i * 2 - bq.hi.get i := by
      fin_cases i <;> rfl
    rw [e, grown_hi, grown_hi]; ring

/-- Once something nearer than `big` has been seen, at most two passes are left; before that the box grows until it
covers a given object. -/
theorem loop_terminates (hc : Complete cands bx R B) (hcb : cb.Tracks P d ps)
    (hs : on = true → ∀ a b, d a b = d b a) (q : O) (hl : ∀ o, R o → o ≠ q → (o, q) ∈ ps)
    (hd : ∀ o, (o, q) ∈ ps → dist (bx o) bq ≤ d o q)
    (heq : eqv bq bq = true) (o : O) (ho : R o) (hoq : o ≠ q) (hfin : d o q < big) (N : ℕ)
    (hN : ∀ c : K, N ≤ c → c ≤ 2 * N → B (grown bq c) ∧ (bx o).overlap (grown bq c) = true)
    (k j : ℕ) (hk : N ≤ j + k) (c : K) (hj : (j : K) ≤ c) (hj0 : j = 0 → c = 0) (hcN : c < N ∨ (N ≤ c ∧ c ≤ 2 * N))
    (b : AABB K) (t : State σ K O) (ht : Good P d big ps t) (hb : ¬ t.md < big → b = grown bq c) :
    ∃ r, loop dist eqv big cands bx bq on cb q (k + 2) false b t = .ok r := by
  -- the last pass
  have last : ∀ fuel b t, ∃ r, loop dist eqv big cands bx bq on cb q (fuel + 1) true b t = .ok r := by
    intro fuel b t
    obtain ⟨l, e, -⟩ := hc b
    rw [loop, e]
    simp only [if_true]
    split_ifs <;> exact ⟨_, rfl⟩
  induction k generalizing j c b t with
  | zero =>
    obtain ⟨l, e, h1, h2⟩ := hc b
    have hp := scan_spec (dist := dist) (bx := bx) (bq := bq) hcb hs q l (fun o ho => hl o (h1 o ho)) hd t ht
    rw [loop, e]
    simp only
    generalize scan dist bx bq on cb q l t = x at hp
    split
    · exact ⟨_, rfl⟩
    · rename_i hst
      rw [Bool.not_eq_true] at hst
      rw [if_neg (by simp)]
      split
      · exact ⟨_, rfl⟩
      · rename_i hlt
        have hNj : (N : K) ≤ c := le_trans (by exact_mod_cast (show N ≤ j by omega)) hj
        have hN2 : c ≤ 2 * N := by
          rcases hcN with h | h
          · exact absurd h (not_lt.2 hNj)
          · exact h.2
        obtain ⟨hBc, hov⟩ := hN c hNj hN2
        have := hp.all hst o (h2 (by rw [hb hlt]; exact hBc) o ho (by rw [hb hlt]; exact hov)) hoq
        rw [if_pos (lt_of_lt_of_le (lt_of_le_of_lt this hfin) (not_lt.1 hlt))]
        exact last 0 _ _
  | succ k ih =>
    obtain ⟨l, e, h1, h2⟩ := hc b
    have hp := scan_spec (dist := dist) (bx := bx) (bq := bq) hcb hs q l (fun o ho => hl o (h1 o ho)) hd t ht
    rw [loop, e]
    simp only
    generalize scan dist bx bq on cb q l t = x at hp
    split
    · exact ⟨_, rfl⟩
    · rename_i hst
      rw [Bool.not_eq_true] at hst
      rw [if_neg (by simp)]
      split
      · exact ⟨_, rfl⟩
      · rename_i hlt
        split
        · exact last (k + 1) _ _
        · rename_i hmd
          have hbig : ¬ x.1.md < big := fun h => hlt (lt_of_le_of_lt (not_lt.1 hmd) h)
          rcases hcN with hlt' | ⟨hNc, hN2⟩
          swap
          · obtain ⟨hBc, hov⟩ := hN c hNc hN2
            have := hp.all hst o (h2 (by rw [hb hlt]; exact hBc) o ho (by rw [hb hlt]; exact hov)) hoq
            exact absurd (lt_of_le_of_lt this hfin) hbig
          have hc0 : (0 : K) ≤ c := le_trans (Nat.cast_nonneg j) hj
          have hN1 : (1 : K) ≤ N := by
            have : (0 : K) < N := lt_of_le_of_lt hc0 hlt'
            exact_mod_cast Nat.succ_le_of_lt (Nat.cast_pos.1 this)
          split
          · rw [hb hlt, grown_expand]
            refine ih (j + 1) (by omega) (c + 1) (by push_cast; linarith) (by omega) ?_ _ _ hp.good (fun _ => rfl)
            rcases lt_or_ge (c + 1) (N : K) with h | h
            · exact Or.inl h
            · exact Or.inr ⟨h, by linarith⟩
          · rename_i hne
            have hj1 : j ≠ 0 := fun h => hne (by rw [hb hlt, hj0 h, grown_zero]; exact heq)
            have hj1' : (1 : K) ≤ j := by exact_mod_cast Nat.one_le_iff_ne_zero.mpr hj1
            rw [hb hlt, grown_ratio]
            refine ih (j + 1) (by omega) (2 * c) (by push_cast; linarith) (by omega) ?_ _ _ hp.good (fun _ => rfl)
            rcases lt_or_ge (2 * c) (N : K) with h | h
            · exact Or.inl h
            · exact Or.inr ⟨h, by linarith⟩

theorem search_terminates (hc : Complete cands bx R B) (hcb : cb.Tracks P d ps)
    (hs : on = true → ∀ a b, d a b = d b a) (q : O) (hl : ∀ o, R o → o ≠ q → (o, q) ∈ ps)
    (hd : ∀ o, (o, q) ∈ ps → dist (bx o) bq ≤ d o q)
    (heq : eqv bq bq = true) (o : O) (ho : R o) (hoq : o ≠ q) (hfin : d o q < big) (N : ℕ)
    (hN : ∀ c : K, N ≤ c → c ≤ 2 * N → B (grown bq c) ∧ (bx o).overlap (grown bq c) = true)
    (fuel : ℕ) (hf : N + 2 ≤ fuel) (t : State σ K O) (ht : Good P d big ps t) :
    ∃ r, search dist eqv big cands bx bq on cb q fuel t = .ok r := by
  obtain ⟨k, rfl⟩ : ∃ k, fuel = k + 2 := ⟨fuel - 2, by omega⟩
  refine loop_terminates hc hcb hs q hl hd heq o ho hoq hfin N hN k 0 (by omega) 0 (by simp) (fun _ => rfl) ?_ _ t ht ?_
  · rcases Nat.eq_zero_or_pos N with rfl | h
    · right; simp
    · left; exact_mod_cast h
  · intro h; rw [if_neg h, grown_zero]

/-- A box with proper extents, grown far enough, meets any given box. -/
theorem exists_cover [Archimedean K] (hsolid : ∀ i : Fin 3, bq.lo.get i < bq.hi.get i) (a : AABB K) :
    ∃ N : ℕ, ∀ c : K, N ≤ c → a.overlap (grown bq c) = true := by
  have h1 : ∀ i : Fin 3, ∃ N : ℕ, bq.lo.get i - N * ((bq.hi.get i - bq.lo.get i) / 2) ≤ a.hi.get i ∧
      a.lo.get i ≤ bq.hi.get i + N * ((bq.hi.get i - bq.lo.get i) / 2) := fun i => by
    have hpos : 0 < (bq.hi.get i - bq.lo.get i) / 2 := by have := hsolid i; linarith
    obtain ⟨N1, h1⟩ := Archimedean.arch (bq.lo.get i - a.hi.get i) hpos
    obtain ⟨N2, h2⟩ := Archimedean.arch (a.lo.get i - bq.hi.get i) hpos
    rw [nsmul_eq_mul] at h1 h2
    have c1 : (N1 : K) ≤ ((max N1 N2 : ℕ) : K) := by exact_mod_cast le_max_left _ _
    have c2 : (N2 : K) ≤ ((max N1 N2 : ℕ) : K) := by exact_mod_cast le_max_right _ _
    have := mul_le_mul_of_nonneg_right c1 hpos.le
    have := mul_le_mul_of_nonneg_right c2 hpos.le
    exact ⟨max N1 N2, by linarith, by linarith⟩
  choose f hf using h1
  refine ⟨max (f 0) (max (f 1) (f 2)), fun c hc => (overlap_get _ _).2 fun i => ?_⟩
  have hfi : f i ≤ max (f 0) (max (f 1) (f 2)) := by fin_cases i <;> simp
  have c1 : (f i : K) ≤ c := le_trans (by exact_mod_cast hfi) hc
  have hpos : 0 ≤ (bq.hi.get i - bq.lo.get i) / 2 := by have := hsolid i; linarith
  have := mul_le_mul_of_nonneg_right c1 hpos
  have := hf i
  rw [grown_lo, grown_hi]
  constructor <;> linarith

theorem scan_only_self (q : O) (l : List O) (hl : ∀ o ∈ l, o = q) (t : State σ K O) :
    scan dist bx bq on cb q l t = (t, false) := by
  induction l with
  | nil => rfl
  | cons o l ih =>
    rw [scan, if_pos (hl o (List.mem_cons_self ..))]
    exact ih (fun o ho => hl o (List.mem_cons_of_mem _ ho))

/-- If the query object is the only one registered the search never ends. -/
theorem loop_diverges (hc : ∀ b, ∃ l, cands b = some l ∧ ∀ o ∈ l, o = q) (fuel : ℕ) (b : AABB K) (t : State σ K O)
    (ht : big ≤ t.md) : loop dist eqv big cands bx bq on cb q fuel false b t = .error .fuel := by
  induction fuel generalizing b with
  | zero => rfl
  | succ fuel ih =>
    obtain ⟨l, e, h⟩ := hc b
    rw [loop, e]
    simp only [scan_only_self q l h, Bool.false_eq_true, if_false, if_neg (not_lt.mpr ht), lt_irrefl]
    split
    · exact ih _
    · exact ih _

/-- A loop of searches: the bound in the end is the minimum over all pairs. -/
theorem each_spec {f : O → State σ K O → Except Halt (State σ K O × Bool)} {all : List O} (hall : ∀ p ∈ ps, p.2 ∈ all ∧ R p.1 ∧ p.1 ≠ p.2)
    (hf : ∀ q ∈ all, ∀ t r, Good P d big ps t → f q t = .ok r → Found P d big ps q R t r)
    (s : σ) (hP : P s big) {t : State σ K O} (ht : each f all ⟨s, big, []⟩ = .ok t) : t.md = minDist d big ps := by
  have key : ∀ (l : List O), (∀ q ∈ l, q ∈ all) → ∀ t r, Good P d big ps t → each f l t = .ok r →
      Good P d big ps r ∧ r.md ≤ t.md ∧ ((∀ p ∈ ps, r.md ≤ d p.1 p.2) ∨ ∀ q ∈ l, ∀ o, R o → o ≠ q → r.md ≤ d o q) := by
    intro l
    induction l with
    | nil =>
      intro _ t r ht hr
      cases hr
      exact ⟨ht, le_rfl, Or.inr (by simp)⟩
    | cons o l ih =>
      intro hl t r ht hr
      rw [each] at hr
      split at hr
      · cases hr
      · rename_i x hx
        have hx := hf o (hl o (List.mem_cons_self ..)) t x ht hx
        split at hr
        · rename_i hst
          cases hr
          exact ⟨hx.good, hx.le, Or.inl (hx.stop hst)⟩
        · rename_i hst
          obtain ⟨h1, h2, h3⟩ := ih (fun q hq => hl q (List.mem_cons_of_mem _ hq)) _ _ hx.good hr
          refine ⟨h1, h2.trans hx.le, h3.imp_right fun h3 q hq p hp hpq => ?_⟩
          rcases List.mem_cons.1 hq with rfl | hq
          · exact h2.trans (hx.all (by simpa using hst) p hp hpq)
          · exact h3 q hq p hp hpq
  obtain ⟨h1, h2, h3⟩ := key all (fun _ h => h) _ _ (Good.init hP) ht
  refine le_antisymm (le_minDist _ _ _ _ h2 fun p hp => ?_) h1.low
  rcases h3 with h3 | h3
  · exact h3 p hp
  · obtain ⟨g1, g2, g3⟩ := hall p hp
    exact h3 p.2 g1 p.1 g2 g3

theorem each_terminates {f : O → State σ K O → Except Halt (State σ K O × Bool)} {all : List O}
    (hf : ∀ q ∈ all, ∀ t, Good P d big ps t → ∃ r, f q t = .ok r ∧ Good P d big ps r.1)
    (t : State σ K O) (ht : Good P d big ps t) : ∃ r, each f all t = .ok r := by
  induction all generalizing t with
  | nil => exact ⟨_, rfl⟩
  | cons o l ih =>
    obtain ⟨r, hr, hg⟩ := hf o (List.mem_cons_self ..) t ht
    rw [each, hr]
    simp only
    split
    · exact ⟨_, rfl⟩
    · exact ih (fun q hq => hf q (List.mem_cons_of_mem _ hq)) _ hg

end Search
end Fcl
