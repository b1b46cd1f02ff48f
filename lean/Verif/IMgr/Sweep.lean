import Verif.IMgr.Invariant

/-! The sweep of the interval tree manager. -/

set_option linter.unusedSectionVars false

namespace Fcl
namespace IMgr

variable {K O σ : Type*} [LinearOrder K] [LinearOrder O] {w : O → AABB K} {ax : Fin 3}

/-- The test on the two other axes. -/
def wanted (w : O → AABB K) (ax : Fin 3) (a o : O) : Bool :=
  (w a).axisOverlap (w o) (ax + 1) && (w a).axisOverlap (w o) (ax + 2)

/-- The pairs called back if the callback never stops and no pair comes up twice. -/
def calls (w : O → AABB K) (ax : Fin 3) : List (IEnd K O) → List O → List (O × O)
  | [], _ => []
  | e :: es, act =>
    if e.hi then calls w ax es (act.erase e.obj)
    else (act.filter (fun a => wanted w ax a e.obj)).map (fun a => (a, e.obj)) ++ calls w ax es (setInsert e.obj act)

theorem pairKey_inj {a a' o : O} (h : pairKey a o = pairKey a' o) : a = a' := by
  unfold pairKey at h
  split_ifs at h <;> simp_all

theorem pairKey_mem (a o : O) : pairKey a o = (a, o) ∨ pairKey a o = (o, a) := by
  unfold pairKey; split_ifs <;> simp

theorem meet_spec (cb : CB σ O) (o : O) (as : List O) (hn : as.Nodup) (P : List (O × O))
    (hP : ∀ a ∈ as, pairKey a o ∉ P) (s : σ) :
    (meet w ax cb o as P s).2 = runUntil cb s ((as.filter (fun a => wanted w ax a o)).map (fun a => (a, o))) ∧
    ∀ k ∈ (meet w ax cb o as P s).1, k ∈ P ∨ ∃ a ∈ as, k = pairKey a o := by
  induction as generalizing P s with
  | nil => exact ⟨rfl, fun k hk => Or.inl hk⟩
  | cons a as ih =>
    obtain ⟨h1, h2⟩ := List.nodup_cons.1 hn
    rw [meet]
    by_cases hw : wanted w ax a o = true
    · have hw' : ((w a).axisOverlap (w o) (ax + 1) && (w a).axisOverlap (w o) (ax + 2)) = true := hw
      rw [if_pos hw', if_neg (hP a (List.mem_cons_self ..)), List.filter_cons_of_pos (p := fun a => wanted w ax a o) hw, List.map_cons, runUntil]
      simp only
      split
      · exact ⟨rfl, fun k hk => by
          rcases List.mem_cons.1 hk with rfl | hk
          · exact Or.inr ⟨a, List.mem_cons_self .., rfl⟩
          · exact Or.inl hk⟩
      · obtain ⟨i1, i2⟩ := ih h2 (pairKey a o :: P) (fun a' ha' hk => by
          rcases List.mem_cons.1 hk with hk | hk
          · exact h1 (pairKey_inj hk ▸ ha')
          · exact hP a' (List.mem_cons_of_mem _ ha') hk) (cb s a o).1
        refine ⟨i1, fun k hk => ?_⟩
        rcases i2 k hk with hk | ⟨a', ha', rfl⟩
        · rcases List.mem_cons.1 hk with rfl | hk
          · exact Or.inr ⟨a, List.mem_cons_self .., rfl⟩
          · exact Or.inl hk
        · exact Or.inr ⟨a', List.mem_cons_of_mem _ ha', rfl⟩
    · have hw' : ¬ ((w a).axisOverlap (w o) (ax + 1) && (w a).axisOverlap (w o) (ax + 2)) = true := hw
      rw [if_neg hw', List.filter_cons_of_neg (p := fun a => wanted w ax a o) hw]
      obtain ⟨i1, i2⟩ := ih h2 P (fun a' ha' => hP a' (List.mem_cons_of_mem _ ha')) s
      refine ⟨i1, fun k hk => ?_⟩
      rcases i2 k hk with hk | ⟨a', ha', rfl⟩
      · exact Or.inl hk
      · exact Or.inr ⟨a', List.mem_cons_of_mem _ ha', rfl⟩

theorem mem_setInsert {o a : O} {l : List O} : a ∈ setInsert o l ↔ a = o ∨ a ∈ l := by
  unfold setInsert
  split
  · rename_i h
    exact ⟨Or.inr, fun h' => h'.elim (fun e => e ▸ h) id⟩
  · rw [List.mem_orderedInsert]

theorem nodup_setInsert {o : O} {l : List O} (h : l.Nodup) : (setInsert o l).Nodup := by
  unfold setInsert
  split
  · exact h
  · rename_i h'
    exact ((List.perm_orderedInsert _ _ _).nodup_iff).2 (List.nodup_cons.2 ⟨h', h⟩)

/-- The state of the sweep before the end points `l`. -/
structure Before (l : List (IEnd K O)) (act : List O) : Prop where
  nodup : (l.map key).Nodup
  nd : act.Nodup
  done : ∀ a ∈ act, (a, false) ∉ l.map key

theorem Before.hi {e : IEnd K O} {l : List (IEnd K O)} {act : List O} (h : Before (e :: l) act) :
    Before l (act.erase e.obj) :=
  ⟨(List.nodup_cons.1 h.nodup).2, h.nd.erase _, fun a ha hm => h.done a (List.mem_of_mem_erase ha) (List.mem_cons_of_mem _ hm)⟩

theorem Before.lo {e : IEnd K O} {l : List (IEnd K O)} {act : List O} (h : Before (e :: l) act) (he : e.hi = false) :
    Before l (setInsert e.obj act) := by
  refine ⟨(List.nodup_cons.1 h.nodup).2, nodup_setInsert h.nd, fun a ha hm => ?_⟩
  rcases mem_setInsert.1 ha with rfl | ha
  · exact (List.nodup_cons.1 h.nodup).1 (by rw [show key e = (e.obj, false) from by simp [key, he]]; exact hm)
  · exact h.done a ha (List.mem_cons_of_mem _ hm)

/-- The sweep calls back `calls`. -/
theorem sweep_eq (cb : CB σ O) (l : List (IEnd K O)) (act : List O) (hb : Before l act) (P : List (O × O))
    (hP : ∀ k ∈ P, (k.1, false) ∉ l.map key ∧ (k.2, false) ∉ l.map key) (s : σ) :
    sweep w ax cb l act P s = runUntil cb s (calls w ax l act) := by
  induction l generalizing act P s with
  | nil => rfl
  | cons e l ih =>
    have hP' : ∀ k ∈ P, (k.1, false) ∉ l.map key ∧ (k.2, false) ∉ l.map key := fun k hk =>
      ⟨fun h => (hP k hk).1 (List.mem_cons_of_mem _ h), fun h => (hP k hk).2 (List.mem_cons_of_mem _ h)⟩
    rw [sweep, calls]
    rcases he : e.hi with _ | _
    · simp only [Bool.false_eq_true, if_false]
      have hlo : (e.obj, false) ∈ (e :: l).map key := by simp [key, he]
      have hnl : (e.obj, false) ∉ l.map key := fun hm => (List.nodup_cons.1 hb.nodup).1 (by rw [show key e = (e.obj, false) from by simp [key, he]]; exact hm)
      obtain ⟨m1, m2⟩ := meet_spec (w := w) (ax := ax) cb e.obj act hb.nd P (fun a ha hk => by
        rcases pairKey_mem a e.obj with h | h <;> rw [h] at hk
        · exact (hP _ hk).2 hlo
        · exact (hP _ hk).1 hlo) s
      rw [runUntil_append, ← m1]
      unfold andThen
      split
      · rfl
      · refine ih _ (hb.lo he) _ (fun k hk => ?_) _
        rcases m2 k hk with hk | ⟨a, ha, rfl⟩
        · exact hP' k hk
        · have hna : (a, false) ∉ l.map key := fun hm => hb.done a ha (List.mem_cons_of_mem _ hm)
          rcases pairKey_mem a e.obj with h | h <;> rw [h]
          · exact ⟨hna, hnl⟩
          · exact ⟨hnl, hna⟩
    · simp only [if_true]
      exact ih _ hb.hi _ hP' s

theorem calls_mem (l : List (IEnd K O)) (act : List O) {p : O × O} (hp : p ∈ calls w ax l act) :
    (p.2, false) ∈ l.map key ∧ (p.1 ∈ act ∨ (p.1, false) ∈ l.map key) := by
  induction l generalizing act with
  | nil => simp [calls] at hp
  | cons e l ih =>
    rw [calls] at hp
    rcases he : e.hi with _ | _
    · rw [he] at hp
      simp only [Bool.false_eq_true, if_false] at hp
      rcases List.mem_append.1 hp with hp | hp
      · obtain ⟨a, ha, rfl⟩ := List.mem_map.1 hp
        exact ⟨by simp [key, he], Or.inl (List.mem_filter.1 ha).1⟩
      · obtain ⟨h1, h2⟩ := ih _ hp
        refine ⟨List.mem_cons_of_mem _ h1, ?_⟩
        rcases h2 with h2 | h2
        · rcases mem_setInsert.1 h2 with h2 | h2
          · exact Or.inr (by rw [h2]; simp [key, he])
          · exact Or.inl h2
        · exact Or.inr (List.mem_cons_of_mem _ h2)
    · rw [he] at hp
      simp only [if_true] at hp
      obtain ⟨h1, h2⟩ := ih _ hp
      exact ⟨List.mem_cons_of_mem _ h1, h2.imp List.mem_of_mem_erase (List.mem_cons_of_mem _)⟩

/-- No pair is called back twice, in either order, and no object with itself. -/
theorem calls_once (l : List (IEnd K O)) (act : List O) (hb : Before l act) :
    (calls w ax l act).Pairwise (fun p q => p ≠ q ∧ p ≠ q.swap) ∧ ∀ p ∈ calls w ax l act, p.1 ≠ p.2 := by
  induction l generalizing act with
  | nil => simp [calls]
  | cons e l ih =>
    rw [calls]
    rcases he : e.hi with _ | _
    · simp only [Bool.false_eq_true, if_false]
      obtain ⟨i1, i2⟩ := ih _ (hb.lo he)
      have hnl : (e.obj, false) ∉ l.map key := fun hm => (List.nodup_cons.1 hb.nodup).1 (by rw [show key e = (e.obj, false) from by simp [key, he]]; exact hm)
      have hne : ∀ a ∈ act, a ≠ e.obj := fun a ha h => hb.done a ha (by rw [h]; simp [key, he])
      refine ⟨List.pairwise_append.2 ⟨?_, i1, ?_⟩, ?_⟩
      · rw [List.pairwise_map]
        refine ((hb.nd.filter _).imp_of_mem ?_)
        intro a b ha _ hab
        have := hne a (List.mem_filter.1 ha).1
        simp [hab, this]
      · intro p hp q hq
        obtain ⟨a, ha, rfl⟩ := List.mem_map.1 hp
        obtain ⟨q1, -⟩ := calls_mem _ _ hq
        refine ⟨fun h => ?_, fun h => ?_⟩
        · rw [← h] at q1; exact hnl q1
        · have : a = q.2 := congrArg Prod.fst h
          exact hb.done a (List.mem_filter.1 ha).1 (by rw [this]; exact List.mem_cons_of_mem _ q1)
      · intro p hp
        rcases List.mem_append.1 hp with hp | hp
        · obtain ⟨a, ha, rfl⟩ := List.mem_map.1 hp
          exact hne a (List.mem_filter.1 ha).1
        · exact i2 p hp
    · simp only [if_true]
      exact ih _ hb.hi

/-- Values of the end points, and their order. -/
structure Ordered (L H : O → K) (l : List (IEnd K O)) : Prop where
  sorted : l.Pairwise (fun a b => a.val ≤ b.val)
  vals : ∀ e ∈ l, e.val = if e.hi then H e.obj else L e.obj

theorem Ordered.tail {L H : O → K} {e : IEnd K O} {l : List (IEnd K O)} (h : Ordered L H (e :: l)) : Ordered L H l :=
  ⟨(List.pairwise_cons.1 h.sorted).2, fun x hx => h.vals x (List.mem_cons_of_mem _ hx)⟩

/-- Every pair called back overlaps on the axis of the sweep and on the others. -/
theorem calls_sound {L H : O → K} (l : List (IEnd K O)) (act : List O) (ho : Ordered L H l) (hn : (l.map key).Nodup)
    (hLH : ∀ e ∈ l, L e.obj < H e.obj) (hcl : ∀ a, (a, false) ∈ l.map key → (a, true) ∈ l.map key)
    (ha1 : ∀ a ∈ act, (a, true) ∈ l.map key) (ha2 : ∀ a ∈ act, ∀ e ∈ l, L a ≤ e.val) (ha3 : act.Nodup)
    {p : O × O} (hp : p ∈ calls w ax l act) :
    wanted w ax p.1 p.2 = true ∧ L p.1 ≤ H p.2 ∧ L p.2 ≤ H p.1 := by
  induction l generalizing act with
  | nil => simp [calls] at hp
  | cons e l ih =>
    obtain ⟨hs, -⟩ := List.pairwise_cons.1 ho.sorted
    have hev := ho.vals e (List.mem_cons_self ..)
    have hx := hLH e (List.mem_cons_self ..)
    obtain ⟨n1, n2⟩ := List.nodup_cons.1 hn
    -- an upper end point of `a` cannot come before a lower one
    have back : ∀ a, (a, false) ∈ l.map key → (a, true) ∈ l.map key := by
      intro a ha
      rcases List.mem_cons.1 (hcl a (List.mem_cons_of_mem _ ha)) with h | h
      · exfalso
        obtain ⟨x, hx1, hx2⟩ := List.mem_map.1 ha
        simp only [key, Prod.mk.injEq] at h hx2
        have h1 := hs x hx1
        rw [hev, ho.vals x (List.mem_cons_of_mem _ hx1), ← h.2, hx2.2, hx2.1, ← h.1] at h1
        simp only [if_true, Bool.false_eq_true, if_false] at h1
        rw [← h.1] at hx
        exact absurd hx (not_lt.2 h1)
      · exact h
    have hLH' : ∀ e ∈ l, L e.obj < H e.obj := fun x hx => hLH x (List.mem_cons_of_mem _ hx)
    rw [calls] at hp
    rcases he : e.hi with _ | _
    · rw [he] at hp hev
      simp only [Bool.false_eq_true, if_false] at hp hev
      rcases List.mem_append.1 hp with hp | hp
      · obtain ⟨a, ha, rfl⟩ := List.mem_map.1 hp
        obtain ⟨h1, h2⟩ := List.mem_filter.1 ha
        refine ⟨h2, ?_, ?_⟩
        · have := ha2 a h1 e (List.mem_cons_self ..)
          rw [hev] at this
          exact this.trans hx.le
        · rcases List.mem_cons.1 (ha1 a h1) with h | h
          · simp [key, he] at h
          · obtain ⟨x, hx1, hx2⟩ := List.mem_map.1 h
            simp only [key, Prod.mk.injEq] at hx2
            have h3 := hs x hx1
            rw [hev, ho.vals x (List.mem_cons_of_mem _ hx1), hx2.2, hx2.1] at h3
            exact h3
      · refine ih _ ho.tail n2 hLH' back (fun a ha => ?_) (fun a ha x hx => ?_) (nodup_setInsert ha3) hp
        · rcases mem_setInsert.1 ha with rfl | ha
          · rcases List.mem_cons.1 (hcl e.obj (by simp [key, he])) with h | h
            · simp [key, he] at h
            · exact h
          · rcases List.mem_cons.1 (ha1 a ha) with h | h
            · simp [key, he] at h
            · exact h
        · rcases mem_setInsert.1 ha with rfl | ha
          · rw [← hev]; exact hs x hx
          · exact ha2 a ha x (List.mem_cons_of_mem _ hx)
    · rw [he] at hp
      simp only [if_true] at hp
      refine ih _ ho.tail n2 hLH' back (fun a ha => ?_) (fun a ha x hx => ?_) (ha3.erase _) hp
      · have ha' := (ha3.mem_erase_iff).1 ha
        rcases List.mem_cons.1 (ha1 a ha'.2) with h | h
        · simp only [key, Prod.mk.injEq] at h
          exact absurd h.1 ha'.1
        · exact h
      · exact ha2 a (List.mem_of_mem_erase ha) x (List.mem_cons_of_mem _ hx)

theorem calls_late {L H : O → K} (l : List (IEnd K O)) (act : List O) (ho : Ordered L H l) (hact : act.Nodup)
    {a o : O} (ha : a ∈ act) (hlo : (o, false) ∈ l.map key) (hst : L o < H a) (hw : wanted w ax a o = true) :
    (a, o) ∈ calls w ax l act := by
  induction l generalizing act with
  | nil => simp at hlo
  | cons e l ih =>
    obtain ⟨hs, -⟩ := List.pairwise_cons.1 ho.sorted
    have hev := ho.vals e (List.mem_cons_self ..)
    rw [calls]
    rcases he : e.hi with _ | _
    · simp only [Bool.false_eq_true, if_false]
      rcases List.mem_cons.1 hlo with h | h
      · simp only [key, Prod.mk.injEq] at h
        refine List.mem_append_left _ (List.mem_map.2 ⟨a, List.mem_filter.2 ⟨ha, ?_⟩, ?_⟩)
        · rw [← h.1]; exact hw
        · rw [← h.1]
      · exact List.mem_append_right _ (ih _ ho.tail (nodup_setInsert hact) (mem_setInsert.2 (Or.inr ha)) h)
    · simp only [if_true]
      rcases List.mem_cons.1 hlo with h | h
      · simp [key, he] at h
      · refine ih _ ho.tail (hact.erase _) (hact.mem_erase_iff.2 ⟨fun hae => ?_, ha⟩) h
        obtain ⟨x, hx1, hx2⟩ := List.mem_map.1 h
        simp only [key, Prod.mk.injEq] at hx2
        have h1 := hs x hx1
        rw [hev, ho.vals x (List.mem_cons_of_mem _ hx1), he, hx2.2, hx2.1, ← hae] at h1
        exact absurd hst (not_lt.2 h1)

theorem wanted_comm (a o : O) : wanted w ax a o = wanted w ax o a := by
  have h : ∀ (x y : AABB K) i, x.axisOverlap y i = y.axisOverlap x i := fun x y i => by
    unfold AABB.axisOverlap
    split_ifs <;> simp_all
  unfold wanted
  rw [h (w a) (w o) (ax + 1), h (w a) (w o) (ax + 2)]

/-- A pair that overlaps on the axis in more than a point is called back. -/
theorem calls_complete {L H : O → K} (l : List (IEnd K O)) (act : List O) (ho : Ordered L H l) (hact : act.Nodup)
    {a o : O} (hao : a ≠ o) (hla : (a, false) ∈ l.map key) (hlo : (o, false) ∈ l.map key)
    (h1 : L a < H o) (h2 : L o < H a) (hw : wanted w ax a o = true) :
    (a, o) ∈ calls w ax l act ∨ (o, a) ∈ calls w ax l act := by
  induction l generalizing act with
  | nil => simp at hla
  | cons e l ih =>
    rw [calls]
    rcases he : e.hi with _ | _
    · simp only [Bool.false_eq_true, if_false]
      rcases List.mem_cons.1 hla with h | h
      · simp only [key, Prod.mk.injEq] at h
        rcases List.mem_cons.1 hlo with h' | h'
        · simp only [key, Prod.mk.injEq] at h'
          exact absurd (h.1.trans h'.1.symm) hao
        · exact Or.inl (List.mem_append_right _
            (calls_late l _ ho.tail (nodup_setInsert hact) (mem_setInsert.2 (Or.inl h.1)) h' h2 hw))
      · rcases List.mem_cons.1 hlo with h' | h'
        · simp only [key, Prod.mk.injEq] at h'
          exact Or.inr (List.mem_append_right _
            (calls_late l _ ho.tail (nodup_setInsert hact) (mem_setInsert.2 (Or.inl h'.1)) h h1 (by rw [wanted_comm]; exact hw)))
        · exact (ih _ ho.tail (nodup_setInsert hact) h h').imp (List.mem_append_right _) (List.mem_append_right _)
    · simp only [if_true]
      refine ih _ ho.tail (hact.erase _) ?_ ?_
      · rcases List.mem_cons.1 hla with h | h
        · simp [key, he] at h
        · exact h
      · rcases List.mem_cons.1 hlo with h | h
        · simp [key, he] at h
        · exact h

end IMgr
end Fcl
