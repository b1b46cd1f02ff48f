import Verif.SaP.Update

/-! The sweep of `registerObjects`. -/

set_option linter.unusedSectionVars false
set_option linter.unusedVariables false

namespace Fcl
namespace SaP
variable {K O : Type*} [LinearOrder K] [LinearOrder O]

/-- The end points passed by the inner loop. -/
def scanned (a : O) (l : List (EP O)) : List (EP O) := l.takeWhile (fun e => decide (e.obj ≠ a))
/-- From the first lower end point, or the first end point of `a`. -/
def next (a : O) (l : List (EP O)) : List (EP O) := l.dropWhile (fun e => decide (e.obj ≠ a) && e.hi)

theorem scan_some (cached : O → AABB K) (a : O) (x : List (EP O)) (l : List (EP O)) :
    scan cached a (some x) l = (some x, ((scanned a l).filter (fun e => !e.hi && (cached e.obj).overlap (cached a))).map
      (fun e => mkPair e.obj a)) := by
  induction l with
  | nil => rfl
  | cons e l ih =>
    unfold scanned at *
    rw [scan]
    by_cases he : e.obj = a
    · simp [he]
    · rw [if_neg he]
      simp only [List.takeWhile_cons, decide_eq_true (show e.obj ≠ a from he), if_true]
      cases hh : e.hi
      · simp only [if_true, Option.orElse_some, ih]
        by_cases ho : (cached e.obj).overlap (cached a) = true
        · simp [hh, ho]
        · simp [hh, ho]
      · simp [hh, ih]

theorem scan_none (cached : O → AABB K) (a : O) (l : List (EP O)) :
    scan cached a none l = (if next a l = [] then none else some (next a l),
      ((scanned a l).filter (fun e => !e.hi && (cached e.obj).overlap (cached a))).map (fun e => mkPair e.obj a)) := by
  induction l with
  | nil => rfl
  | cons e l ih =>
    unfold scanned next at *
    rw [scan]
    by_cases he : e.obj = a
    · simp [he]
    · rw [if_neg he]
      simp only [List.takeWhile_cons, List.dropWhile_cons, decide_eq_true (show e.obj ≠ a from he), if_true,
        Bool.true_and]
      cases hh : e.hi
      · simp only [if_true, Option.orElse_none, scan_some, scanned]
        by_cases ho : (cached e.obj).overlap (cached a) = true
        · simp [hh, ho]
        · simp [hh, ho]
      · simp [hh, ih]

/-- The list is in strict order, and end points of an object in order. -/
structure Strict (f : EP O → K) (l : List (EP O)) : Prop where
  lt : l.Pairwise (fun a b => f a < f b)
  own : ∀ e ∈ l, f ⟨e.obj, false⟩ < f ⟨e.obj, true⟩
  closed : ∀ o, (⟨o, false⟩ : EP O) ∈ l → (⟨o, true⟩ : EP O) ∈ l

theorem mem_scanned_of_lt {f : EP O → K} {a : O} {l : List (EP O)} (hlt : l.Pairwise (fun a b => f a < f b))
    {x : EP O} (hx : x ∈ l) (h : ∀ e ∈ l, e.obj = a → f x < f e) (hxa : x.obj ≠ a) : x ∈ scanned a l := by
  unfold scanned
  induction l with
  | nil => cases hx
  | cons e l ih =>
    obtain ⟨h1, h2⟩ := List.pairwise_cons.1 hlt
    rw [List.takeWhile_cons]
    by_cases he : e.obj = a
    · have h3 := h e List.mem_cons_self he
      rcases List.mem_cons.1 hx with rfl | hx
      · exact absurd he hxa
      · exact absurd (h1 x hx) (not_lt.2 h3.le)
    · rw [if_pos (decide_eq_true he)]
      rcases List.mem_cons.1 hx with rfl | hx
      · exact List.mem_cons_self
      · exact List.mem_cons_of_mem _ (ih h2 hx (fun e he => h e (List.mem_cons_of_mem _ he)))

theorem scanned_lt {f : EP O → K} {a : O} {l : List (EP O)} (hlt : l.Pairwise (fun a b => f a < f b))
    {x e : EP O} (hx : x ∈ scanned a l) (he : e ∈ l) (hea : e.obj = a) : x ∈ l ∧ x.obj ≠ a ∧ f x < f e := by
  unfold scanned at hx
  induction l with
  | nil => cases he
  | cons y l ih =>
    obtain ⟨h1, h2⟩ := List.pairwise_cons.1 hlt
    rw [List.takeWhile_cons] at hx
    by_cases hy : y.obj = a
    · simp [hy] at hx
    · rw [if_pos (decide_eq_true hy)] at hx
      have he' : e ∈ l := by
        rcases List.mem_cons.1 he with rfl | h
        · exact absurd hea hy
        · exact h
      rcases List.mem_cons.1 hx with rfl | hx
      · exact ⟨List.mem_cons_self, hy, h1 e he'⟩
      · obtain ⟨i1, i2, i3⟩ := ih h2 hx he'
        exact ⟨List.mem_cons_of_mem _ i1, i2, i3⟩

theorem scanned_sub {a : O} {l : List (EP O)} {x : EP O} (hx : x ∈ scanned a l) : x ∈ l :=
  (List.takeWhile_sublist _).mem hx

theorem lo_mem_next {a o : O} {l : List (EP O)} (h : (⟨o, false⟩ : EP O) ∈ l) : (⟨o, false⟩ : EP O) ∈ next a l := by
  unfold next
  induction l with
  | nil => cases h
  | cons e l ih =>
    rw [List.dropWhile_cons]
    split
    · next hc =>
      rcases List.mem_cons.1 h with rfl | h
      · simp at hc
      · exact ih h
    · exact h

theorem next_sublist (a : O) (l : List (EP O)) : (next a l).Sublist l := List.dropWhile_sublist _

/-- A lower end point of `b` between the end points of `a`. -/
def Between (f : EP O → K) (l : List (EP O)) (a b : O) : Prop :=
  (⟨a, false⟩ : EP O) ∈ l ∧ (⟨b, false⟩ : EP O) ∈ l ∧ f ⟨a, false⟩ < f ⟨b, false⟩ ∧ f ⟨b, false⟩ < f ⟨a, true⟩

theorem strict_next {f : EP O → K} {e : EP O} {l : List (EP O)} (hs : Strict f (e :: l)) (a : O) :
    Strict f (next a l) := by
  obtain ⟨h1, h2⟩ := List.pairwise_cons.1 hs.lt
  refine ⟨h2.sublist (next_sublist a l),
    fun x hx => hs.own x (List.mem_cons_of_mem _ ((next_sublist a l).mem hx)), ?_⟩
  intro o ho
  have hol := (next_sublist a l).mem ho
  have hil : (⟨o, true⟩ : EP O) ∈ l := by
    rcases List.mem_cons.1 (hs.closed o (List.mem_cons_of_mem _ hol)) with h | h
    · exfalso
      have := h1 _ hol
      rw [← h] at this
      exact lt_asymm this (hs.own _ (List.mem_cons_of_mem _ hol))
    · exact h
  -- everything behind the lower end point is kept
  have key : ∀ l' : List (EP O), l'.Pairwise (fun a b => f a < f b) → (⟨o, false⟩ : EP O) ∈ l' →
      (⟨o, true⟩ : EP O) ∈ l' → (⟨o, true⟩ : EP O) ∈ next a l' := by
    intro l'
    induction l' with
    | nil => intro _ h; cases h
    | cons y l' ih =>
      intro hp hlo hhi
      obtain ⟨k1, k2⟩ := List.pairwise_cons.1 hp
      unfold next at ih ⊢
      rw [List.dropWhile_cons]
      split
      · next hc =>
        have hlo' : (⟨o, false⟩ : EP O) ∈ l' := by
          rcases List.mem_cons.1 hlo with rfl | h
          · simp at hc
          · exact h
        rcases List.mem_cons.1 hhi with rfl | h
        · exact absurd (k1 _ hlo') (not_lt.2 (hs.own _ (List.mem_cons_of_mem _ hol)).le)
        · exact ih k2 hlo' h
      · exact hhi
  exact key l h2 hol hil

theorem sweep_nil (cached : O → AABB K) (fuel : ℕ) : sweep cached fuel [] = [] := by cases fuel <;> rfl

theorem sweep_cons (cached : O → AABB K) (fuel : ℕ) (e : EP O) (l : List (EP O)) :
    sweep cached (fuel + 1) (e :: l) =
      ((scanned e.obj l).filter (fun x => !x.hi && (cached x.obj).overlap (cached e.obj))).map
        (fun x => mkPair x.obj e.obj) ++ sweep cached fuel (next e.obj l) := by
  rw [sweep]
  simp only [scan_none]
  by_cases hn : next e.obj l = []
  · simp [hn, sweep_nil]
  · simp [hn]

theorem sweep_mem {cached : O → AABB K} {f : EP O → K} (hf : ∀ a b, (cached b).overlap (cached a) = true → f ⟨b, false⟩ ≤ f ⟨a, true⟩)
    (fuel : ℕ) (l : List (EP O)) (hs : Strict f l) (hfu : l.length ≤ fuel) (y : O × O) :
    y ∈ sweep cached fuel l ↔ ∃ a b, Between f l a b ∧ (cached b).overlap (cached a) = true ∧ y = mkPair b a := by
  induction fuel generalizing l with
  | zero =>
    have : l = [] := List.length_eq_zero_iff.1 (by omega)
    subst this
    simp [sweep, Between]
  | succ fuel ih =>
    cases l with
    | nil => simp [sweep, Between]
    | cons e l =>
      obtain ⟨h1, h2⟩ := List.pairwise_cons.1 hs.lt
      have hfu' : (next e.obj l).length ≤ fuel := by
        have := (next_sublist e.obj l).length_le
        simp only [List.length_cons] at hfu
        omega
      rw [sweep_cons, List.mem_append, ih _ (strict_next hs e.obj) hfu']
      simp only [List.mem_map, List.mem_filter, Bool.and_eq_true, Bool.not_eq_eq_eq_not, Bool.not_true]
      constructor
      · rintro (⟨x, ⟨hx, hxl, hov⟩, rfl⟩ | ⟨a, b, hbt, hov, rfl⟩)
        · obtain ⟨xo, xh⟩ := x
          simp only at hxl; subst hxl
          have hxm := scanned_sub hx
          obtain ⟨a, eh⟩ := e
          cases eh
          · have hhi : (⟨a, true⟩ : EP O) ∈ l := by
              rcases List.mem_cons.1 (hs.closed a List.mem_cons_self) with h | h
              · simp at h
              · exact h
            have h3 := (scanned_lt h2 hx hhi rfl).2.2
            exact ⟨a, xo, ⟨List.mem_cons_self, List.mem_cons_of_mem _ hxm, h1 _ hxm, h3⟩, hov, rfl⟩
          · exact absurd (h1 _ hxm) (not_lt.2 (hf _ _ hov))
        · refine ⟨a, b, ⟨?_, ?_, hbt.2.2.1, hbt.2.2.2⟩, hov, rfl⟩
          · exact List.mem_cons_of_mem _ ((next_sublist _ _).mem hbt.1)
          · exact List.mem_cons_of_mem _ ((next_sublist _ _).mem hbt.2.1)
      · rintro ⟨a, b, ⟨hal, hbl, hlt1, hlt2⟩, hov, rfl⟩
        have hbl' : (⟨b, false⟩ : EP O) ∈ l := by
          rcases List.mem_cons.1 hbl with h | h
          · exfalso
            rcases List.mem_cons.1 hal with h' | h'
            · rw [h, ← h'] at hlt1; exact lt_irrefl _ hlt1
            · have := h1 _ h'
              rw [← h] at this
              exact lt_asymm this hlt1
          · exact h
        rcases List.mem_cons.1 hal with h | h
        · left
          refine ⟨⟨b, false⟩, ⟨?_, rfl, ?_⟩, ?_⟩
          · apply mem_scanned_of_lt h2 hbl'
            · intro x hx hxo
              obtain ⟨xo, xh⟩ := x
              rw [← h] at hxo
              simp only at hxo; subst hxo
              cases xh
              · have := h1 _ hx
                rw [← h] at this
                exact absurd this (lt_irrefl _)
              · exact hlt2
            · rw [← h]
              intro hba
              simp only at hba
              rw [hba] at hlt1
              exact lt_irrefl _ hlt1
          · rw [← h]; exact hov
          · rw [← h]
        · right
          exact ⟨a, b, ⟨lo_mem_next h, lo_mem_next hbl', hlt1, hlt2⟩, hov, rfl⟩

theorem sweep_nodup {cached : O → AABB K} {f : EP O → K} (hf : ∀ a b, (cached b).overlap (cached a) = true → f ⟨b, false⟩ ≤ f ⟨a, true⟩)
    (fuel : ℕ) (l : List (EP O)) (hs : Strict f l) (hfu : l.length ≤ fuel) : (sweep cached fuel l).Nodup := by
  induction fuel generalizing l with
  | zero => exact List.nodup_nil
  | succ fuel ih =>
    cases l with
    | nil => exact List.nodup_nil
    | cons e l =>
      obtain ⟨h1, h2⟩ := List.pairwise_cons.1 hs.lt
      have hfu' : (next e.obj l).length ≤ fuel := by
        have := (next_sublist e.obj l).length_le
        simp only [List.length_cons] at hfu
        omega
      have hnd : l.Nodup := h2.imp (fun h he => absurd (he ▸ h) (lt_irrefl _))
      rw [sweep_cons, List.nodup_append]
      refine ⟨?_, ?_, ?_⟩
      · refine (List.Nodup.filter _ (hnd.sublist (List.takeWhile_sublist _))).map_on ?_
        intro x hx y hy hxy
        have e1 := mkPair_inj hxy
        have hx2 := (List.mem_filter.1 hx).2
        have hy2 := (List.mem_filter.1 hy).2
        simp only [Bool.and_eq_true, Bool.not_eq_eq_eq_not, Bool.not_true] at hx2 hy2
        cases x; cases y
        simp_all
      · exact ih _ (strict_next hs e.obj) hfu'
      · intro y hy z hz hyz
        subst hyz
        simp only [List.mem_map, List.mem_filter, Bool.and_eq_true, Bool.not_eq_eq_eq_not, Bool.not_true] at hy
        obtain ⟨x, ⟨hx, hxl, hov⟩, rfl⟩ := hy
        obtain ⟨a, b, hbt, hov', heq⟩ := (sweep_mem hf fuel _ (strict_next hs e.obj) hfu' _).1 hz
        -- the object of the head is one of the pair, so its lower end point is behind it
        have hh : (⟨e.obj, false⟩ : EP O) ∈ l := by
          have hor : e.obj = a ∨ e.obj = b := by
            unfold mkPair at heq
            split_ifs at heq <;> simp only [Prod.mk.injEq] at heq
            · exact Or.inl heq.2
            · exact Or.inr heq.2
            · exact Or.inr heq.1
            · exact Or.inl heq.1
          rcases hor with h | h
          · rw [h]; exact (next_sublist _ _).mem hbt.1
          · rw [h]; exact (next_sublist _ _).mem hbt.2.1
        have := h1 _ hh
        obtain ⟨eo, eh⟩ := e
        cases eh
        · exact lt_irrefl _ this
        · exact absurd this (not_lt.2 (hs.own _ List.mem_cons_self).le)

end SaP
end Fcl
