import Verif.SSaP.Lemmas
import Verif.Base.Visits
import Mathlib.Algebra.Order.Archimedean.Basic
import Mathlib.Tactic.Linarith
import Mathlib.Tactic.Ring

/-! The distance search of the SSaP manager. -/

set_option linter.unusedSectionVars false
set_option linter.unusedSimpArgs false

namespace Fcl

/-- The box distance is at least the gap on every axis. -/
def GapDist {K : Type*} [LinearOrder K] [Field K] (dist : AABB K → AABB K → K) : Prop :=
  ∀ (a b : AABB K) (i : Fin 3), a.lo.get i - b.hi.get i ≤ dist a b

namespace SSaP
variable {K O σ : Type*} [LinearOrder K] [Field K] [IsStrictOrderedRing K] [DecidableEq O]
  {dist : AABB K → AABB K → K} {approx : V3 K → V3 K → Bool} {big : K} {w : O → AABB K}
  {cb : DCB σ K O} {P : σ → K → Prop}

theorem checkDis_visits (hcb : cb.NonInc P) (q : O) (l : List O) (s : σ) (md : K) (hP : P s md) :
    Visits cb (fun p => dist (w p.1) (w p.2)) (fun p => p.1 ∈ l ∧ p.1 ≠ q ∧ p.2 = q) s md
      (checkDis dist w cb q l s md) := by
  induction l generalizing s md with
  | nil => exact (Visits.nil s md).congr (by simp)
  | cons o l ih =>
    by_cases hq : o = q
    · simp only [checkDis, hq, ne_eq, not_true_eq_false, if_false]
      refine (ih s md hP).congr ?_
      intro p
      simp only [List.mem_cons]
      constructor
      · exact fun h => ⟨Or.inr h.1, h.2⟩
      · rintro ⟨rfl | h, h1, h2⟩
        · exact absurd rfl h1
        · exact ⟨h, h1, h2⟩
    · simp only [checkDis, hq, ne_eq, not_false_eq_true, if_true]
      split
      · have h1 : Visits cb (fun p => dist (w p.1) (w p.2)) (fun p => p = (o, q)) s md (cb s md o q) :=
          ⟨[(o, q)], by simp, (runUntilD_singleton cb s md (o, q)).symm, by simp⟩
        by_cases hs : (cb s md o q).2.2 = true
        · rw [if_pos hs]
          have : ((cb s md o q).1, (cb s md o q).2.1, true) = cb s md o q := by rw [← hs]
          rw [this]
          refine h1.stop hs ?_
          rintro p rfl
          exact ⟨List.mem_cons_self .., hq, rfl⟩
        · rw [if_neg hs]
          refine (h1.seq hcb hP (by simpa using hs) (ih _ _ (hcb s md hP o q).1)).congr ?_
          rintro ⟨a, b⟩
          simp only [List.mem_cons, Prod.mk.injEq]
          constructor
          · rintro (⟨rfl, rfl⟩ | h)
            · exact ⟨Or.inl rfl, hq, rfl⟩
            · exact ⟨Or.inr h.1, h.2⟩
          · rintro ⟨rfl | h, h1, h2⟩
            · exact Or.inl ⟨rfl, h2⟩
            · exact Or.inr ⟨h, h1, h2⟩
      · rename_i hlt
        obtain ⟨c, h1, h2, h3⟩ := ih s md hP
        have hle := (ih s md hP).nonInc hcb hP
        refine ⟨c, fun p hp => ⟨List.mem_cons_of_mem _ (h1 p hp).1, (h1 p hp).2⟩, h2, ?_⟩
        intro hs p hp
        rcases List.mem_cons.1 hp.1 with he | he
        · right
          show _ ≤ dist (w p.1) (w p.2)
          rw [he, hp.2.2]
          exact hle.trans (not_lt.1 hlt)
        · exact h3 hs p ⟨he, hp.2⟩

theorem distLoop_inv {m : SSaP O} (hcb : cb.NonInc P) (q : O) (fuel : Nat) (last : Bool) (v : V3 K)
    (s : σ) (md : K) (hP : P s md) {r : σ × K × Bool}
    (hr : distLoop dist approx big w m cb q fuel last v s md = some r) : P r.1 r.2.1 := by
  induction fuel generalizing last v s md with
  | zero => simp [distLoop] at hr
  | succ fuel ih =>
    have hp := (checkDis_visits (dist := dist) (w := w) hcb q (cands w m v) s md hP).inv hcb hP
    rw [distLoop] at hr
    split at hr
    · obtain rfl := Option.some.inj hr; exact hp
    · split at hr
      · obtain rfl := Option.some.inj hr; exact hp
      · split at hr
        · obtain rfl := Option.some.inj hr; exact hp
        · split at hr
          · exact ih _ _ _ _ hp hr
          · exact ih _ _ _ _ hp hr

/-- Objects that start beyond `hi + md` on some axis are at least `md` away. -/
theorem far (hg : GapDist dist) {q o : O} {md : K} {i : Fin 3}
    (h : ¬ key w i o ≤ (shift (w q).hi md).get i) : md ≤ dist (w o) (w q) := by
  refine le_trans ?_ (hg (w o) (w q) i)
  have : (shift (w q).hi md).get i = (w q).hi.get i + md := by fin_cases i <;> rfl
  rw [this] at h
  unfold key at h
  linarith [not_le.1 h]

theorem distLoop_visits {h : List (SCall K O)} {m : SSaP O} (hi : Inv h m) (hu : UpToDate h w)
    (hg : GapDist dist) (hcb : cb.NonInc P) (q : O) (fuel : Nat) (last : Bool) (v : V3 K) (s : σ) (md : K)
    (hP : P s md) (hv : last = true ∨ md < big → v = shift (w q).hi md) {r : σ × K × Bool}
    (hr : distLoop dist approx big w m cb q fuel last v s md = some r) :
    Visits cb (fun p => dist (w p.1) (w p.2)) (fun p => p.1 ∈ m.x ∧ p.1 ≠ q ∧ p.2 = q) s md r := by
  induction fuel generalizing last v s md with
  | zero => simp [distLoop] at hr
  | succ fuel ih =>
    obtain ⟨i, hc⟩ := cands_spec hi hu v
    have hpass := checkDis_visits (dist := dist) (w := w) hcb q (cands w m v) s md hP
    have hsub : ∀ o, o ∈ cands w m v → o ∈ m.x := fun o ho =>
      (List.mem_filter.1 (hc.mem_iff.1 ho)).1
    rw [distLoop] at hr
    generalize hR : checkDis dist w cb q (cands w m v) s md = R at hr hpass
    have hfin : (last = true ∨ md < big) → R.2.2 = false →
        Visits cb (fun p => dist (w p.1) (w p.2)) (fun p => p.1 ∈ m.x ∧ p.1 ≠ q ∧ p.2 = q) s md R := by
      intro hl _
      have hv := hv hl
      have hle := hpass.nonInc hcb hP
      obtain ⟨c, h1, h2, h3⟩ := hpass
      refine ⟨c, fun p hp => ⟨hsub _ (h1 p hp).1, (h1 p hp).2⟩, h2, ?_⟩
      intro hs p hp
      by_cases hk : key w i p.1 ≤ v.get i
      · exact h3 hs p ⟨hc.mem_iff.2 (List.mem_filter.2 ⟨hp.1, decide_eq_true hk⟩), hp.2⟩
      · right
        refine hle.trans ?_
        show md ≤ dist (w p.1) (w p.2)
        rw [hp.2.2]
        rw [hv] at hk
        exact far hg hk
    have hcomp : ∀ r', R.2.2 = false → Visits cb (fun p => dist (w p.1) (w p.2))
        (fun p => p.1 ∈ m.x ∧ p.1 ≠ q ∧ p.2 = q) R.1 R.2.1 r' →
        Visits cb (fun p => dist (w p.1) (w p.2)) (fun p => p.1 ∈ m.x ∧ p.1 ≠ q ∧ p.2 = q) s md r' := by
      intro r' hR2 hv'
      refine (hpass.seq hcb hP hR2 hv').congr ?_
      intro p
      exact ⟨fun hh => hh.elim (fun hh => ⟨hsub _ hh.1, hh.2⟩) id, Or.inr⟩
    by_cases hs : R.2.2 = true
    · rw [if_pos hs] at hr
      obtain rfl := Option.some.inj hr
      have : (R.1, R.2.1, true) = R := by rw [← hs]
      rw [this]
      exact hpass.stop hs (fun p hp => ⟨hsub _ hp.1, hp.2⟩)
    · rw [if_neg hs] at hr
      have hs' : R.2.2 = false := by simpa using hs
      have heta : (R.1, R.2.1, false) = R := by rw [← hs']
      by_cases hl : last = true
      · rw [if_pos hl, heta] at hr
        obtain rfl := Option.some.inj hr
        exact hfin (Or.inl hl) hs'
      · rw [if_neg hl] at hr
        by_cases hb : md < big
        · rw [if_pos hb, heta] at hr
          obtain rfl := Option.some.inj hr
          exact hfin (Or.inr hb) hs'
        · rw [if_neg hb] at hr
          by_cases hlt : R.2.1 < md
          · rw [if_pos hlt] at hr
            exact hcomp _ hs' (ih true _ _ _ (hpass.inv hcb hP) (fun _ => rfl) hr)
          · rw [if_neg hlt] at hr
            refine hcomp _ hs' (ih false _ _ _ (hpass.inv hcb hP) ?_ hr)
            rintro (hh | hh)
            · exact absurd hh (by simp)
            · exact absurd (lt_of_le_of_lt (not_lt.1 hlt) hh) hb

theorem distQ_visits {h : List (SCall K O)} {m : SSaP O} (hi : Inv h m) (hu : UpToDate h w)
    (hg : GapDist dist) (hcb : cb.NonInc P) (q : O) (fuel : Nat) (s : σ) (md : K) (hP : P s md)
    {r : σ × K × Bool} (hr : distQ dist approx big w m cb fuel q s md = some r) :
    Visits cb (fun p => dist (w p.1) (w p.2)) (fun p => p.1 ∈ m.x ∧ p.1 ≠ q ∧ p.2 = q) s md r := by
  refine distLoop_visits hi hu hg hcb q fuel false _ s md hP ?_ hr
  rintro (hh | hh)
  · exact absurd hh (by simp)
  · rw [if_pos hh]

theorem distEach_visits {h : List (SCall K O)} {m : SSaP O} (hi : Inv h m) (hu : UpToDate h w)
    (hg : GapDist dist) (hcb : cb.NonInc P) (fuel : Nat) (l : List O) (s : σ) (md : K) (hP : P s md)
    {r : σ × K × Bool} (hr : distEach dist approx big w m cb fuel l s md = some r) :
    Visits cb (fun p => dist (w p.1) (w p.2)) (fun p => p.1 ∈ m.x ∧ p.1 ≠ p.2 ∧ p.2 ∈ l) s md r := by
  induction l generalizing s md with
  | nil =>
    obtain rfl := Option.some.inj hr
    exact (Visits.nil s md).congr (by simp)
  | cons o l ih =>
    rw [distEach] at hr
    cases hq : distQ dist approx big w m cb fuel o s md with
    | none => rw [hq] at hr; exact absurd hr (by simp)
    | some r0 =>
      rw [hq] at hr
      have h0 := distQ_visits hi hu hg hcb o fuel s md hP hq
      simp only at hr
      by_cases hs : r0.2.2 = true
      · rw [if_pos hs] at hr
        obtain rfl := Option.some.inj hr
        exact h0.stop hs (fun p hp => ⟨hp.1, hp.2.2.symm ▸ hp.2.1, hp.2.2 ▸ List.mem_cons_self ..⟩)
      · rw [if_neg hs] at hr
        refine (h0.seq hcb hP (by simpa using hs) (ih _ _ (h0.inv hcb hP) hr)).congr ?_
        rintro ⟨a, b⟩
        simp only [List.mem_cons]
        constructor
        · rintro (⟨h1, h2, rfl⟩ | ⟨h1, h2, h3⟩)
          · exact ⟨h1, h2, Or.inl rfl⟩
          · exact ⟨h1, h2, Or.inr h3⟩
        · rintro ⟨h1, h2, rfl | h3⟩
          · exact Or.inl ⟨h1, h2, rfl⟩
          · exact Or.inr ⟨h1, h2, h3⟩

/-! ### termination -/

theorem distLoop_mono {m : SSaP O} (q : O) (fuel k : Nat) (last : Bool) (v : V3 K) (s : σ) (md : K)
    {r : σ × K × Bool} (hr : distLoop dist approx big w m cb q fuel last v s md = some r) :
    distLoop dist approx big w m cb q (fuel + k) last v s md = some r := by
  induction fuel generalizing last v s md with
  | zero => simp [distLoop] at hr
  | succ fuel ih =>
    rw [Nat.succ_add, distLoop]
    rw [distLoop] at hr
    split at hr
    · rename_i h; rw [if_pos h]; exact hr
    · rename_i h; rw [if_neg h]
      split at hr
      · rename_i h; rw [if_pos h]; exact hr
      · rename_i h; rw [if_neg h]
        split at hr
        · rename_i h; rw [if_pos h]; exact hr
        · rename_i h; rw [if_neg h]
          split at hr
          · rename_i h; rw [if_pos h]; exact ih _ _ _ _ hr
          · rename_i h; rw [if_neg h]; exact ih _ _ _ _ hr

/-- One pass is enough when the bound is finite or the pass is the last. -/
theorem distLoop_last {m : SSaP O} (q : O) (fuel : Nat) (last : Bool) (v : V3 K) (s : σ) (md : K)
    (hl : last = true ∨ md < big) :
    ∃ r, distLoop dist approx big w m cb q (fuel + 1) last v s md = some r := by
  rw [distLoop]
  split
  · exact ⟨_, rfl⟩
  · split
    · exact ⟨_, rfl⟩
    · rename_i h
      rw [if_pos (hl.resolve_left h)]
      exact ⟨_, rfl⟩

variable [Archimedean K]

/-- With a partner whose distance is finite and a query box with positive extents the search ends. -/
theorem distLoop_terminates {h : List (SCall K O)} {m : SSaP O} (hi : Inv h m) (hu : UpToDate h w)
    (hap : ∀ v, approx v v = true) {d : O → O → K} {ps : List (O × O)} (ht : cb.Tracks P d ps) {q o : O}
    (ho : o ∈ m.x) (hne : o ≠ q) (hps : (o, q) ∈ ps) (hd : dist (w o) (w q) ≤ d o q) (hfin : d o q < big)
    (δ : K) (hδ : ∀ i : Fin 3, δ ≤ ((w q).hi.get i - (w q).lo.get i) * (1 / 2)) (hδ0 : 0 < δ)
    (n : Nat) (v : V3 K) (s : σ) (md : K) (hP : P s md)
    (hv : v = (w q).hi ∨ ∀ i : Fin 3, (w q).hi.get i + δ ≤ v.get i)
    (hn : ∀ i : Fin 3, key w i o ≤ v.get i + n * δ) :
    ∃ r, distLoop dist approx big w m cb q (n + 2) false v s md = some r := by
  induction n generalizing v s md with
  | zero =>
    rw [distLoop]
    generalize hR : checkDis dist w cb q (cands w m v) s md = R
    split
    · exact ⟨_, rfl⟩
    · rename_i hs
      have hs : R.2.2 = false := by simpa using hs
      simp only [Bool.false_eq_true, if_false]
      split
      · exact ⟨_, rfl⟩
      · rename_i hb
        have hvis := checkDis_visits (dist := dist) (w := w) ht.nonInc q (cands w m v) s md hP
        rw [hR] at hvis
        obtain ⟨i, hc⟩ := cands_spec hi hu v
        have hoc : o ∈ cands w m v := by
          rw [hc.mem_iff, List.mem_filter]
          refine ⟨ho, decide_eq_true ?_⟩
          have := hn i
          simpa using this
        have hlt : R.2.1 < md := by
          refine lt_of_lt_of_le ?_ (not_lt.1 hb)
          obtain ⟨c, h1, h2, h3⟩ := hvis
          rcases h3 hs (o, q) ⟨hoc, hne, rfl⟩ with hx | hx
          · obtain ⟨-, -, t3, -⟩ := runUntilD_tracks ht hP c
            rw [h2] at hs ⊢
            rw [t3 hs]
            exact lt_of_le_of_lt (minDist_le _ _ _ _ hx) hfin
          · exact lt_of_le_of_lt hx (lt_of_le_of_lt hd hfin)
        rw [if_pos hlt]
        exact distLoop_last q 0 true _ _ _ (Or.inl rfl)
  | succ n ih =>
    rw [distLoop]
    generalize hR : checkDis dist w cb q (cands w m v) s md = R
    split
    · exact ⟨_, rfl⟩
    · simp only [Bool.false_eq_true, if_false]
      split
      · exact ⟨_, rfl⟩
      · split
        · exact distLoop_last q (n + 1) true _ _ _ (Or.inl rfl)
        · have hstep : ∀ i : Fin 3, v.get i + δ ≤ (widen approx (w q) v).get i := by
            intro i
            unfold widen
            split
            · have := hδ i
              fin_cases i <;> simp only [V3.get] at this ⊢ <;> linarith
            · rename_i hna
              have hv' := hv.resolve_left (fun e => hna (by rw [e]; exact hap _)) i
              fin_cases i <;> simp only [V3.get] at hv' ⊢ <;> linarith
          refine ih _ _ _ (hR ▸ (checkDis_visits (dist := dist) (w := w) ht.nonInc q _ s md hP).inv ht.nonInc hP)
            (Or.inr ?_) ?_
          · intro i
            refine le_trans ?_ (hstep i)
            rcases hv with e | hv
            · rw [e]
            · have := hv i; linarith
          · intro i
            have h1 := hn i
            have h2 := hstep i
            push_cast at h1
            have : (n : K) * δ + δ = (n + 1 : K) * δ := by ring
            linarith

theorem distQ_terminates {h : List (SCall K O)} {m : SSaP O} (hi : Inv h m) (hu : UpToDate h w)
    (hap : ∀ v, approx v v = true) {d : O → O → K} {ps : List (O × O)} (ht : cb.Tracks P d ps) {q o : O}
    (ho : o ∈ m.x) (hne : o ≠ q) (hps : (o, q) ∈ ps) (hd : dist (w o) (w q) ≤ d o q) (hfin : d o q < big)
    (hext : ∀ i : Fin 3, (w q).lo.get i < (w q).hi.get i) :
    ∃ fuel, ∀ s md, P s md → ∃ r, distQ dist approx big w m cb fuel q s md = some r := by
  let e : Fin 3 → K := fun i => ((w q).hi.get i - (w q).lo.get i) * (1 / 2)
  have he : ∀ i, 0 < e i := fun i => by
    have := hext i
    show 0 < ((w q).hi.get i - (w q).lo.get i) * (1 / 2)
    linarith
  let δ := min (e 0) (min (e 1) (e 2))
  have hδ : ∀ i, δ ≤ e i := by
    intro i
    fin_cases i
    · exact min_le_left _ _
    · exact (min_le_right _ _).trans (min_le_left _ _)
    · exact (min_le_right _ _).trans (min_le_right _ _)
  have hδ0 : 0 < δ := lt_min (he 0) (lt_min (he 1) (he 2))
  have hn : ∀ i : Fin 3, ∃ n : ℕ, key w i o - (w q).hi.get i ≤ n * δ := fun i => by
    obtain ⟨n, hn⟩ := Archimedean.arch (key w i o - (w q).hi.get i) hδ0
    exact ⟨n, by simpa [nsmul_eq_mul] using hn⟩
  choose N hN using hn
  let n := N 0 + N 1 + N 2
  have hNn : ∀ i, key w i o - (w q).hi.get i ≤ (n : K) * δ := by
    intro i
    refine (hN i).trans (mul_le_mul_of_nonneg_right ?_ hδ0.le)
    rw [Nat.cast_le]
    fin_cases i <;> simp [n] <;> omega
  refine ⟨n + 2, fun s md hP => ?_⟩
  by_cases hb : md < big
  · exact distLoop_last q (n + 1) false _ s md (Or.inr hb)
  · unfold distQ
    rw [if_neg hb]
    refine distLoop_terminates hi hu hap ht ho hne hps hd hfin δ hδ hδ0 n _ s md hP (Or.inl rfl) ?_
    intro i
    have := hNn i
    linarith

theorem distEach_terminates {h : List (SCall K O)} {m : SSaP O} (hi : Inv h m) (hu : UpToDate h w)
    (hap : ∀ v, approx v v = true) {d : O → O → K} {ps : List (O × O)} (ht : cb.Tracks P d ps) (l : List O)
    (hl : ∀ q ∈ l, ∃ o ∈ m.x, o ≠ q ∧ (o, q) ∈ ps ∧ dist (w o) (w q) ≤ d o q ∧ d o q < big)
    (hext : ∀ q ∈ l, ∀ i : Fin 3, (w q).lo.get i < (w q).hi.get i) :
    ∃ fuel, ∀ s md, P s md → ∃ r, distEach dist approx big w m cb fuel l s md = some r := by
  induction l with
  | nil => exact ⟨0, fun s md _ => ⟨_, rfl⟩⟩
  | cons q l ih =>
    obtain ⟨f1, h1⟩ := ih (fun q hq => hl q (List.mem_cons_of_mem _ hq))
      (fun q hq => hext q (List.mem_cons_of_mem _ hq))
    obtain ⟨o, ho, hne, hp, hd, hf⟩ := hl q (List.mem_cons_self ..)
    obtain ⟨f2, h2⟩ := distQ_terminates hi hu hap ht ho hne hp hd hf (hext q (List.mem_cons_self ..))
    have mono : ∀ (l : List O) s md r, distEach dist approx big w m cb f1 l s md = some r →
        distEach dist approx big w m cb (f2 + f1) l s md = some r := by
      intro l
      induction l with
      | nil => intro s md r hr; exact hr
      | cons a l ihl =>
        intro s md r hr
        rw [distEach] at hr ⊢
        cases hq : distQ dist approx big w m cb f1 a s md with
        | none => rw [hq] at hr; exact absurd hr (by simp)
        | some r0 =>
          have hm := distLoop_mono a f1 f2 _ _ _ _ hq
          rw [Nat.add_comm] at hm
          have hm' : distQ dist approx big w m cb (f2 + f1) a s md = some r0 := hm
          rw [hq] at hr
          rw [hm']
          simp only at hr ⊢
          split at hr
          · rename_i hx; rw [if_pos hx]; exact hr
          · rename_i hx; rw [if_neg hx]; exact ihl _ _ _ hr
    refine ⟨f2 + f1, fun s md hP => ?_⟩
    obtain ⟨r, hr⟩ := h2 s md hP
    have hr' : distQ dist approx big w m cb (f2 + f1) q s md = some r := distLoop_mono q f2 f1 _ _ _ _ hr
    rw [distEach, hr']
    simp only
    split
    · exact ⟨_, rfl⟩
    · obtain ⟨r', hr'⟩ := h1 r.1 r.2.1 (distLoop_inv ht.nonInc q f2 _ _ s md hP hr)
      exact ⟨r', mono l _ _ _ hr'⟩

end SSaP
end Fcl
