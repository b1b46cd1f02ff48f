import Verif.SSaP.Spec
import Verif.AABB.Lemmas
import Verif.Tree.QueryLemmas
import Mathlib.Tactic.FinCases

/-! Refinement of the sorted lists to the registered set, and the sweep as a filter of all pairs. -/

set_option linter.unusedSectionVars false
set_option linter.unusedSimpArgs false

namespace Fcl
namespace SSaP
variable {K O : Type*} [LinearOrder K] [DecidableEq O]

theorem run_snoc (h : List (SCall K O)) (c : SCall K O) :
    run (h ++ [c]) = (run h).step c.srt c.w c.op := by simp [run]

theorem regd_snoc (o : O) (h : List (SCall K O)) (c : SCall K O) :
    regd o (h ++ [c]) = registeredRev o (c.op :: (h.map (·.op)).reverse) := by
  simp [regd, registered]

theorem seen_snoc (h : List (SCall K O)) (c : SCall K O) :
    seen (h ++ [c]) = seenRev (c :: h.reverse) := by simp [seen]

/-- What holds of a reachable manager. -/
structure Inv (h : List (SCall K O)) (m : SSaP O) : Prop where
  y : m.y.Perm m.x
  z : m.z.Perm m.x
  nodup : m.x.Nodup
  mem : ∀ o, o ∈ m.x ↔ regd o h = true
  ready : m.ready = (seen h).isSome
  sorted : ∀ w0, seen h = some w0 → ∀ i, (m.axisList i).Pairwise (fun a b => key w0 i a ≤ key w0 i b)

theorem Inv.axis {h : List (SCall K O)} {m : SSaP O} (hi : Inv h m) (i : Fin 3) :
    (m.axisList i).Perm m.x := by
  fin_cases i
  · exact List.Perm.refl _
  · exact hi.y
  · exact hi.z

theorem mem_upTo_of_sorted {w : O → AABB K} {i : Fin 3} {v : K} {l : List O}
    (hs : l.Pairwise (fun a b => key w i a ≤ key w i b)) (o : O) :
    o ∈ upTo w i v l ↔ o ∈ l ∧ key w i o ≤ v := by
  induction l with
  | nil => simp [upTo]
  | cons a l ih =>
    obtain ⟨h1, h2⟩ := List.pairwise_cons.1 hs
    have ih := ih h2
    unfold upTo at ih ⊢
    rw [List.takeWhile_cons]
    by_cases ha : key w i a ≤ v
    · rw [if_pos (decide_eq_true ha), List.mem_cons, List.mem_cons, ih]
      constructor
      · rintro (rfl | h)
        · exact ⟨Or.inl rfl, ha⟩
        · exact ⟨Or.inr h.1, h.2⟩
      · rintro ⟨rfl | h, hv⟩
        · exact Or.inl rfl
        · exact Or.inr ⟨h, hv⟩
    · rw [if_neg (by simpa using ha)]
      simp only [List.not_mem_nil, List.mem_cons, false_iff, not_and]
      rintro (rfl | ho) hv
      · exact ha hv
      · exact ha ((h1 o ho).trans hv)

/-- On a sorted list, the prefix is the elements that start at or before `v`. -/
theorem upTo_eq_filter {w : O → AABB K} {i : Fin 3} {v : K} {l : List O}
    (hs : l.Pairwise (fun a b => key w i a ≤ key w i b)) :
    upTo w i v l = l.filter (fun o => decide (key w i o ≤ v)) := by
  induction l with
  | nil => rfl
  | cons a l ih =>
    obtain ⟨h1, h2⟩ := List.pairwise_cons.1 hs
    have ih := ih h2
    unfold upTo at ih ⊢
    by_cases ha : key w i a ≤ v
    · simp only [List.takeWhile_cons, List.filter_cons, decide_eq_true ha, if_true, ih]
    · simp only [List.takeWhile_cons, List.filter_cons, decide_eq_false ha, Bool.false_eq_true, if_false]
      symm
      rw [List.filter_eq_nil_iff]
      intro b hb hv
      exact ha ((h1 b hb).trans (of_decide_eq_true hv))

theorem key_congr {w w' : O → AABB K} {o : O} (h : w o = w' o) (i : Fin 3) : key w i o = key w' i o := by
  unfold key; rw [h]

theorem pairwise_congr {w w' : O → AABB K} {l : List O} {i : Fin 3} (h : ∀ o ∈ l, w o = w' o)
    (hs : l.Pairwise (fun a b => key w i a ≤ key w i b)) :
    l.Pairwise (fun a b => key w' i a ≤ key w' i b) := by
  refine hs.imp_of_mem ?_
  intro a b ha hb hab
  rwa [← key_congr (h a ha), ← key_congr (h b hb)]

theorem dropAxis_eq {w : O → AABB K} {i : Fin 3} {o : O} {l : List O}
    (hs : l.Pairwise (fun a b => key w i a ≤ key w i b)) (hn : l.Nodup) (hv : o ∈ l → (w o).lo.get i ≤ (w o).hi.get i) :
    dropAxis w i o l = l.filter (fun x => x ≠ o) := by
  unfold dropAxis
  by_cases ho : o ∈ l
  · rw [if_pos ((mem_upTo_of_sorted hs o).2 ⟨ho, hv ho⟩), hn.erase_eq_filter]
    apply List.filter_congr
    intro x _
    rw [Bool.eq_iff_iff]; simp
  · rw [if_neg (fun h => ho ((mem_upTo_of_sorted hs o).1 h).1)]
    symm
    rw [List.filter_eq_self]
    intro a ha
    exact decide_eq_true (fun e => ho (e ▸ ha))

theorem _root_.Fcl.AABB.Valid.get {b : AABB K} (h : b.Valid) (i : Fin 3) : b.lo.get i ≤ b.hi.get i := by
  fin_cases i
  · exact h.1
  · exact h.2.1
  · exact h.2.2

theorem setup_inv {h : List (SCall K O)} {m : SSaP O} (hi : Inv h m)
    {c : SCall K O} (hs : LawfulSort c.srt) :
    let m' := m.setup c.srt c.w
    m'.x.Perm m.x ∧ m'.y.Perm m.x ∧ m'.z.Perm m.x ∧ m'.ready = true ∧
    ∀ i, (m'.axisList i).Pairwise
      (fun a b => key ((seen h).getD c.w) i a ≤ key ((seen h).getD c.w) i b) := by
  intro m'
  have hr := hi.ready
  cases hse : seen h with
  | some w0 =>
    rw [hse] at hr
    have e : m' = m := by simp [m', setup, hr]
    rw [e]
    exact ⟨List.Perm.refl _, hi.y, hi.z, hr, hi.sorted w0 hse⟩
  | none =>
    rw [hse] at hr
    have e : m' = ⟨c.srt (key c.w 0) m.x, c.srt (key c.w 1) m.y, c.srt (key c.w 2) m.z, true⟩ := by
      simp [m', setup, hr]
    rw [e]
    refine ⟨(hs _ _).1, (hs _ _).1.trans hi.y, (hs _ _).1.trans hi.z, rfl, ?_⟩
    intro i
    fin_cases i <;> exact (hs _ _).2

theorem inv_empty : Inv ([] : List (SCall K O)) (empty : SSaP O) := by
  refine ⟨List.Perm.refl _, List.Perm.refl _, List.nodup_nil, ?_, rfl, ?_⟩
  · intro o; simp [empty, regd, registered, registeredRev]
  · intro w0 h; simp [seen, seenRev] at h

theorem foldl_register (os : List O) (m : SSaP O) :
    os.foldl register m = ⟨m.x ++ os, m.y ++ os, m.z ++ os, if os = [] then m.ready else false⟩ := by
  induction os generalizing m with
  | nil => simp
  | cons o os ih => rw [List.foldl_cons, ih]; simp [register]

theorem Inv.step {h : List (SCall K O)} {m : SSaP O} (hi : Inv h m) {c : SCall K O}
    (hs : LawfulSort c.srt) (hc : c.op.Fresh (h.map (·.op)))
    (hu : ∀ o, c.op = .unregister o → (regd o h = true → (c.w o).Valid) ∧
        ∀ w0, seen h = some w0 → ∀ p, regd p h = true → w0 p = c.w p) :
    Inv (h ++ [c]) (m.step c.srt c.w c.op) := by
  have hmany : ∀ os : List O, os.Nodup → (∀ o ∈ os, regd o h = false) → os ≠ [] →
      (∀ o, regd o (h ++ [c]) = (decide (o ∈ os) || regd o h)) → seen (h ++ [c]) = none →
      Inv (h ++ [c]) (os.foldl register m) := by
    intro os hn hf hne hr hse
    rw [foldl_register]
    refine ⟨hi.y.append_right _, hi.z.append_right _, ?_, ?_, ?_, ?_⟩
    · rw [List.nodup_append]
      refine ⟨hi.nodup, hn, ?_⟩
      rintro a ha b hb rfl
      rw [hi.mem, hf a hb] at ha; exact absurd ha (by simp)
    · intro o
      rw [List.mem_append, hi.mem, hr]
      simp [or_comm]
    · rw [hse]; simp [hne]
    · intro w0 h0; rw [hse] at h0; exact absurd h0 (by simp)
  have hset : ∀ (m' : SSaP O) (w0 : O → AABB K), m'.x.Perm m.x → m'.y.Perm m.x → m'.z.Perm m.x →
      m'.ready = true → seen (h ++ [c]) = some w0 → (∀ o, regd o (h ++ [c]) = regd o h) →
      (∀ i, (m'.axisList i).Pairwise (fun a b => key w0 i a ≤ key w0 i b)) → Inv (h ++ [c]) m' := by
    intro m' w0 hx hy hz hr hse hreg hp
    refine ⟨hy.trans hx.symm, hz.trans hx.symm, hx.nodup_iff.2 hi.nodup, ?_, ?_, ?_⟩
    · intro o; rw [hx.mem_iff, hi.mem, hreg]
    · rw [hr, hse]; rfl
    · intro w1 h1 i
      rw [hse] at h1
      obtain rfl := Option.some.inj h1
      exact hp i
  have hupd : seen (h ++ [c]) = some c.w → (∀ o, regd o (h ++ [c]) = regd o h) →
      Inv (h ++ [c]) (m.update c.srt c.w) := by
    intro hse hreg
    refine hset _ c.w ?_ ?_ ?_ ?_ hse hreg ?_
    · exact (hs _ _).1
    · exact (hs _ _).1.trans hi.y
    · exact (hs _ _).1.trans hi.z
    · simp [update, setup]
    · intro i; fin_cases i <;> exact (hs _ _).2
  cases hop : c.op with
  | register o =>
    rw [hop] at hc
    have := hmany [o] (List.nodup_singleton o) (fun p hp => by rw [List.mem_singleton] at hp; subst hp; exact hc) (by simp)
      (fun o' => by rw [regd_snoc, hop]; simp [registeredRev, regd, registered, eq_comm])
      (by rw [seen_snoc, seenRev, hop])
    simpa [SSaP.step] using this
  | registerMany os =>
    rw [hop] at hc
    by_cases hos : os = []
    · subst hos
      have e1 : seen (h ++ [c]) = seen h := by rw [seen_snoc, seenRev, hop]; simp [seen]
      have e2 : ∀ o, regd o (h ++ [c]) = regd o h := fun o => by
        rw [regd_snoc, hop]; simp [registeredRev, regd, registered]
      show Inv _ m
      exact ⟨hi.y, hi.z, hi.nodup, fun o => by rw [hi.mem, e2], by rw [hi.ready, e1], fun w0 h0 => hi.sorted w0 (e1 ▸ h0)⟩
    · exact hmany os hc.1 hc.2 hos
        (fun o' => by rw [regd_snoc, hop]; simp [registeredRev, regd, registered])
        (by rw [seen_snoc, seenRev, hop]; simp [hos])
  | unregister o =>
    obtain ⟨hv, hse0⟩ := hu o hop
    obtain ⟨hx, hy, hz, hr, hp⟩ := setup_inv hi hs
    have hse : seen (h ++ [c]) = some ((seen h).getD c.w) := by
      rw [seen_snoc, seenRev, hop]; rfl
    have hag : ∀ p ∈ m.x, (seen h).getD c.w p = c.w p := by
      intro p hp
      cases hse1 : seen h with
      | none => rfl
      | some w0 => exact hse0 w0 hse1 p ((hi.mem p).1 hp)
    have hdrop : ∀ i (l : List O), l.Perm m.x →
        l.Pairwise (fun a b => key ((seen h).getD c.w) i a ≤ key ((seen h).getD c.w) i b) →
        dropAxis c.w i o l = l.filter (fun x => x ≠ o) := by
      intro i l hl hlp
      refine dropAxis_eq (pairwise_congr (fun p hp => hag p (hl.mem_iff.1 hp)) hlp)
        (hl.nodup_iff.2 hi.nodup) ?_
      intro ho
      exact (hv ((hi.mem o).1 (hl.mem_iff.1 ho))).get i
    have hstep : m.step c.srt c.w (.unregister o) =
        ⟨(m.setup c.srt c.w).x.filter (fun x => x ≠ o), (m.setup c.srt c.w).y.filter (fun x => x ≠ o),
         (m.setup c.srt c.w).z.filter (fun x => x ≠ o), (m.setup c.srt c.w).ready⟩ := by
      simp only [SSaP.step, unregister]
      rw [hdrop 0 _ hx (hp 0), hdrop 1 _ hy (hp 1), hdrop 2 _ hz (hp 2)]
    rw [hstep]
    refine ⟨(hy.trans hx.symm).filter _, (hz.trans hx.symm).filter _,
      (hx.nodup_iff.2 hi.nodup).filter _, ?_, ?_, ?_⟩
    · intro p
      rw [List.mem_filter, hx.mem_iff, hi.mem, regd_snoc, hop]
      simp only [registeredRev, regd, registered, Bool.and_eq_true, decide_eq_true_eq, ne_eq]
      rw [and_comm, eq_comm (a := p)]
    · rw [hse]; exact hr
    · intro w1 h1 i
      rw [hse] at h1
      obtain rfl := Option.some.inj h1
      have := hp i
      fin_cases i <;> exact List.Pairwise.filter _ this
  | setup =>
    obtain ⟨hx, hy, hz, hr, hp⟩ := setup_inv hi hs
    exact hset _ _ hx hy hz hr (by rw [seen_snoc, seenRev, hop]; rfl)
      (fun o => by rw [regd_snoc, hop]; simp [registeredRev, regd, registered]) hp
  | update =>
    exact hupd (by rw [seen_snoc, seenRev, hop])
      (fun o => by rw [regd_snoc, hop]; simp [registeredRev, regd, registered])
  | updateObj _ =>
    exact hupd (by rw [seen_snoc, seenRev, hop])
      (fun o => by rw [regd_snoc, hop]; simp [registeredRev, regd, registered])
  | updateObjs _ =>
    exact hupd (by rw [seen_snoc, seenRev, hop])
      (fun o => by rw [regd_snoc, hop]; simp [registeredRev, regd, registered])
  | clear =>
    have e1 : seen (h ++ [c]) = none := by rw [seen_snoc, seenRev, hop]
    refine ⟨List.Perm.refl _, List.Perm.refl _, List.nodup_nil, ?_, ?_, ?_⟩
    · intro o; rw [regd_snoc, hop]; simp [registeredRev, SSaP.step, SSaP.clear]
    · rw [e1]; rfl
    · intro w0 h0; rw [e1] at h0; exact absurd h0 (by simp)

theorem inv_run {h : List (SCall K O)} (hh : SHistory h) : Inv h (run h) := by
  induction hh with
  | nil => exact inv_empty
  | snoc hh hs hc hu ih => rw [run_snoc]; exact ih.step hs hc hu

/-- A manager that is up to date is sorted on every axis for the current boxes. -/
theorem Inv.sortedNow {h : List (SCall K O)} {m : SSaP O} (hi : Inv h m) {w : O → AABB K}
    (hu : UpToDate h w) (i : Fin 3) :
    (m.axisList i).Pairwise (fun a b => key w i a ≤ key w i b) := by
  obtain ⟨w0, h0, h1⟩ := hu
  exact pairwise_congr (fun o ho => h1 o ((hi.mem o).1 ((hi.axis i).mem_iff.1 ho))) (hi.sorted w0 h0 i)

/-- The range scanned for a point at `v` is, for one of the axes, all objects that start at or before
`v` on that axis. -/
theorem cands_spec {h : List (SCall K O)} {m : SSaP O} (hi : Inv h m) {w : O → AABB K}
    (hu : UpToDate h w) (v : V3 K) :
    ∃ i : Fin 3, (cands w m v).Perm (m.x.filter (fun o => decide (key w i o ≤ v.get i))) := by
  have h1 : (upTo w 0 v.x m.x).Perm (m.x.filter (fun o => decide (key w 0 o ≤ v.get 0))) := by
    rw [upTo_eq_filter (l := m.x) (hi.sortedNow hu 0)]; rfl
  have h2 : (upTo w 1 v.y m.y).Perm (m.x.filter (fun o => decide (key w 1 o ≤ v.get 1))) := by
    rw [upTo_eq_filter (l := m.y) (hi.sortedNow hu 1)]; exact hi.y.filter _
  have h3 : (upTo w 2 v.z m.z).Perm (m.x.filter (fun o => decide (key w 2 o ≤ v.get 2))) := by
    rw [upTo_eq_filter (l := m.z) (hi.sortedNow hu 2)]; exact hi.z.filter _
  simp only [cands]
  split
  · split
    · split
      · split
        · exact ⟨2, h3⟩
        · split
          · exact ⟨1, h2⟩
          · exact ⟨0, h1⟩
      · exact ⟨2, h3⟩
    · exact ⟨1, h2⟩
  · exact ⟨0, h1⟩

theorem checkColl_eq {σ : Type*} (w : O → AABB K) (cb : CB σ O) (q : O) (l : List O) (s : σ) :
    checkColl w cb q l s =
      runUntil cb s ((l.filter (fun o => decide (o ≠ q) && (w o).overlap (w q))).map (fun o => (o, q))) := by
  induction l generalizing s with
  | nil => rfl
  | cons o l ih =>
    by_cases hq : o = q
    · simp [checkColl, hq, ih]
    · cases h : (w o).overlap (w q) with
      | true => simp [checkColl, h, hq, runUntil, ih]
      | false => simp [checkColl, h, hq, ih]

theorem overlap_get {a b : AABB K} : a.overlap b = true ↔
    ∀ i : Fin 3, a.lo.get i ≤ b.hi.get i ∧ b.lo.get i ≤ a.hi.get i := by
  rw [AABB.overlap_iff]
  constructor
  · intro h i
    fin_cases i <;> simp only [V3.get] <;> grind
  · intro h
    have h0 := h 0
    have h1 := h 1
    have h2 := h 2
    simp only [V3.get] at h0 h1 h2
    grind

theorem collideQ_spec.{v} {h : List (SCall K O)} {m : SSaP O} (hi : Inv h m) {w : O → AABB K}
    (hu : UpToDate h w) (q : O) :
    ∃ l : List O, l.Perm (m.x.filter (fun o => decide (o ≠ q) && (w o).overlap (w q))) ∧
      ∀ (σ : Type v) (cb : CB σ O) (s : σ),
        collideQ w m cb q s = runUntil cb s (l.map (fun o => (o, q))) := by
  obtain ⟨i, hc⟩ := cands_spec hi hu (w q).hi
  refine ⟨_, ?_, fun σ cb s => checkColl_eq w cb q _ s⟩
  refine (hc.filter _).trans ?_
  rw [List.filter_filter]
  apply List.Perm.of_eq
  apply List.filter_congr
  intro o _
  rw [Bool.eq_iff_iff]
  simp only [Bool.and_eq_true, decide_eq_true_eq]
  constructor
  · exact fun hh => hh.1
  · exact fun hh => ⟨hh, (overlap_get.1 hh.2 i).1⟩

/-! ### the sweep -/

theorem scan_eq {σ : Type*} {w : O → AABB K} {i : Fin 3} (cb : CB σ O) (o : O) (l : List O) (s : σ)
    (hs : (o :: l).Pairwise (fun a b => key w i a ≤ key w i b)) (hv : ∀ p ∈ l, (w p).Valid) :
    scan w i cb o l s =
      runUntil cb s ((l.filter (fun p => (w o).overlap (w p))).map (fun p => (o, p))) := by
  induction l generalizing s with
  | nil => rfl
  | cons p l ih =>
    have hs' : (o :: l).Pairwise (fun a b => key w i a ≤ key w i b) := by
      rw [List.pairwise_cons] at hs ⊢
      exact ⟨fun a ha => hs.1 a (List.mem_cons_of_mem _ ha), (List.pairwise_cons.1 hs.2).2⟩
    have ih := fun s => ih s hs' (fun p hp => hv p (List.mem_cons_of_mem _ hp))
    have hop : key w i o ≤ key w i p := (List.pairwise_cons.1 hs).1 p (List.mem_cons_self ..)
    by_cases hlt : key w i p ≤ (w o).hi.get i
    · have hiff : (w o).overlap (w p) = true ↔
          ((w o).hi.get (i + 1) ≥ (w p).lo.get (i + 1) ∧ (w p).hi.get (i + 1) ≥ (w o).lo.get (i + 1)) ∧
          ((w o).hi.get (i + 2) ≥ (w p).lo.get (i + 2) ∧ (w p).hi.get (i + 2) ≥ (w o).lo.get (i + 2)) := by
        rw [overlap_get]
        constructor
        · intro hh
          exact ⟨⟨(hh _).2, (hh _).1⟩, ⟨(hh _).2, (hh _).1⟩⟩
        · rintro ⟨⟨h1, h2⟩, h3, h4⟩ j
          have hself : (w o).lo.get i ≤ (w p).hi.get i ∧ (w p).lo.get i ≤ (w o).hi.get i :=
            ⟨hop.trans ((hv p (List.mem_cons_self ..)).get i), hlt⟩
          have hj : j = i ∨ j = i + 1 ∨ j = i + 2 := by
            revert hself; clear * - ; intro _; clear * -; revert i j; decide
          rcases hj with rfl | rfl | rfl
          · exact hself
          · exact ⟨h2, h1⟩
          · exact ⟨h4, h3⟩
      simp only [scan, if_pos hlt]
      by_cases ho : (w o).overlap (w p) = true
      · rw [List.filter_cons_of_pos (by simpa using ho), if_pos (hiff.1 ho).1, if_pos (hiff.1 ho).2]
        simp only [List.map_cons, runUntil, ih]
      · rw [List.filter_cons_of_neg (by simpa using ho)]
        rw [hiff, not_and_or] at ho
        rcases ho with ho | ho
        · rw [if_neg ho, ih]
        · rw [if_neg ho, ite_self, ih]
    · simp only [scan, if_neg hlt]
      have : (p :: l).filter (fun p => (w o).overlap (w p)) = [] := by
        rw [List.filter_eq_nil_iff]
        intro r hr ho
        have hpr : key w i p ≤ key w i r := by
          rcases List.mem_cons.1 hr with rfl | hr
          · exact le_refl _
          · exact (List.pairwise_cons.1 (List.pairwise_cons.1 hs).2).1 r hr
        exact hlt (hpr.trans (overlap_get.1 ho i).2)
      rw [this]; rfl

theorem skipLow_self (w : O → AABB K) (i : Fin 3) (o : O) (l : List O) :
    skipLow w i (key w i o) (o :: l) = l := by simp [skipLow]

theorem sweep_eq {σ : Type*} {w : O → AABB K} {i : Fin 3} (cb : CB σ O) (l : List O) (s : σ)
    (hs : l.Pairwise (fun a b => key w i a ≤ key w i b)) (hv : ∀ p ∈ l, (w p).Valid) :
    sweep w i cb l l s =
      runUntil cb s ((pairsUp l).filter (fun p => (w p.1).overlap (w p.2))) := by
  induction l generalizing s with
  | nil => rfl
  | cons o l ih =>
    have hv' : ∀ p ∈ l, (w p).Valid := fun p hp => hv p (List.mem_cons_of_mem _ hp)
    simp only [sweep, skipLow_self, pairsUp, List.filter_append, runUntil_append,
      scan_eq cb o l s hs hv', List.filter_map, Function.comp_def]
    congr 1
    funext s
    exact ih s (List.pairwise_cons.1 hs).2 hv'

end SSaP
end Fcl
