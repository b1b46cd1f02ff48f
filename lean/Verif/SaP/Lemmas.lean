import Verif.SaP.Sweep

/-! The state of the manager after a history. -/

set_option linter.unusedSectionVars false
set_option linter.unusedVariables false

namespace Fcl
namespace SaP
variable {K O : Type*} [LinearOrder K] [LinearOrder O]

theorem run_snoc (approx : AABB K → AABB K → Bool) (b : AABB K) (h : List (PCall K O)) (c : PCall K O) :
    run approx b (h ++ [c]) = (run approx b h).bind (fun m => step approx m c) := by
  unfold run
  rw [List.foldlM_append]
  simp only [List.foldlM_cons, List.foldlM_nil, Option.bind_eq_bind]
  congr 1
  funext m
  cases step approx m c <;> rfl

theorem lastBox_snoc (o : O) (h : List (PCall K O)) (c : PCall K O) :
    lastBox o (h ++ [c]) = lastStep o (lastBox o h) c := by
  unfold lastBox; rw [List.foldl_append]; rfl

theorem val_congr {f g : O → AABB K} {e : EP O} (h : f e.obj = g e.obj) (c : Fin 3) : val f c e = val g c e := by
  unfold val; rw [h]

theorem inv_empty (b : AABB K) : Inv (empty b : SaP K O) := by
  refine ⟨List.nodup_nil, ?_, fun _ => List.nodup_nil, fun _ => List.Pairwise.nil⟩
  intro c e; simp [empty]

theorem register_inv {w : O → AABB K} {m : SaP K O} {o : O} (hi : Inv m) (ho : o ∉ m.arr) (hv : (w o).Valid) :
    Inv (m.register w o) := by
  have hne : ∀ c, ∀ e ∈ m.elist c, e.obj ≠ o := fun c e he h => ho (h ▸ (hi.mem c e).1 he)
  have hs : ∀ c, Srt (val (Function.update m.cached o (w o)) c) (m.elist c) := fun c =>
    srt_congr (fun e he => val_congr (Function.update_of_ne (hne c e he) _ _) c) (hi.sorted c)
  have hlohi : ∀ c : Fin 3, val (Function.update m.cached o (w o)) c ⟨o, false⟩ ≤
      val (Function.update m.cached o (w o)) c ⟨o, true⟩ := by
    intro c
    simp only [val, Function.update_self, Bool.false_eq_true, if_false, if_true]
    fin_cases c
    · exact hv.1
    · exact hv.2.1
    · exact hv.2.2
  have heq := fun c => insertBoth_eq (hs c) (hlohi c)
  have hperm : ∀ c, (insertBoth (val (Function.update m.cached o (w o)) c) o (m.elist c)).Perm
      (⟨o, true⟩ :: ⟨o, false⟩ :: m.elist c) := by
    intro c
    rw [heq c]
    exact (insertAt_perm _ _ _ _).trans ((insertAt_perm _ _ _ _).cons _)
  refine ⟨?_, ?_, ?_, ?_⟩
  · show (m.arr ++ [o]).Nodup
    rw [List.nodup_append]
    exact ⟨hi.nodup, List.nodup_singleton _, by
      intro x hx y hy; rw [List.mem_singleton.1 hy]; rintro rfl; exact ho hx⟩
  · intro c e
    show e ∈ insertBoth _ _ _ ↔ e.obj ∈ m.arr ++ [o]
    rw [(hperm c).mem_iff, List.mem_cons, List.mem_cons, hi.mem, List.mem_append, List.mem_singleton]
    constructor
    · rintro (rfl | rfl | h)
      · exact Or.inr rfl
      · exact Or.inr rfl
      · exact Or.inl h
    · rintro (h | h)
      · exact Or.inr (Or.inr h)
      · obtain ⟨p, b⟩ := e
        simp only at h; subst h
        cases b
        · exact Or.inr (Or.inl rfl)
        · exact Or.inl rfl
  · intro c
    show (insertBoth _ _ _).Nodup
    rw [(hperm c).nodup_iff, List.nodup_cons, List.nodup_cons]
    refine ⟨?_, fun h => hne c _ h rfl, hi.enodup c⟩
    intro h
    rcases List.mem_cons.1 h with h | h
    · simp at h
    · exact hne c _ h rfl
  · intro c
    show Srt _ (insertBoth _ _ _)
    rw [heq c]
    exact insertAt_sorted (insertAt_sorted (hs c))

theorem foldl_register_inv {w : O → AABB K} (os : List O) {m : SaP K O} (hi : Inv m) (hn : os.Nodup)
    (ho : ∀ o ∈ os, o ∉ m.arr ∧ (w o).Valid) :
    Inv (os.foldl (register w) m) ∧ (os.foldl (register w) m).arr = m.arr ++ os ∧
    (∀ p, (os.foldl (register w) m).cached p = if p ∈ os then w p else m.cached p) ∧
    (os.foldl (register w) m).axis = m.axis ∧ (os ≠ [] → (os.foldl (register w) m).fresh = true) := by
  induction os generalizing m with
  | nil => exact ⟨hi, by simp, fun p => by simp, rfl, fun h => absurd rfl h⟩
  | cons o os ih =>
    obtain ⟨hno, hn'⟩ := List.nodup_cons.1 hn
    have h1 := register_inv hi (ho o List.mem_cons_self).1 (ho o List.mem_cons_self).2
    obtain ⟨i1, i2, i3, i4, i5⟩ := ih h1 hn' (fun p hp => by
      refine ⟨?_, (ho p (List.mem_cons_of_mem _ hp)).2⟩
      show p ∉ m.arr ++ [o]
      rw [List.mem_append, List.mem_singleton]
      rintro (h | rfl)
      · exact (ho p (List.mem_cons_of_mem _ hp)).1 h
      · exact hno hp)
    refine ⟨i1, ?_, ?_, i4, ?_⟩
    · rw [List.foldl_cons, i2]
      show (m.arr ++ [o]) ++ os = _
      simp
    · intro p
      rw [List.foldl_cons, i3]
      show (if p ∈ os then w p else Function.update m.cached o (w o) p) = _
      by_cases hp : p ∈ os
      · simp [hp]
      · by_cases hpo : p = o
        · subst hpo; simp
        · simp [hp, hpo]
    · intro _
      rw [List.foldl_cons]
      cases os with
      | nil => rfl
      | cons x xs => exact i5 (by simp)

theorem mem_eps (os : List O) (e : EP O) :
    e ∈ os.flatMap (fun o => [(⟨o, false⟩ : EP O), ⟨o, true⟩]) ↔ e.obj ∈ os := by
  rw [List.mem_flatMap]
  constructor
  · rintro ⟨o, ho, h⟩
    simp only [List.mem_cons, List.not_mem_nil, or_false] at h
    rcases h with rfl | rfl <;> exact ho
  · intro h
    refine ⟨e.obj, h, ?_⟩
    obtain ⟨p, b⟩ := e
    cases b <;> simp

theorem nodup_eps {os : List O} (hn : os.Nodup) :
    (os.flatMap (fun o => [(⟨o, false⟩ : EP O), ⟨o, true⟩])).Nodup := by
  induction os with
  | nil => exact List.nodup_nil
  | cons o os ih =>
    obtain ⟨h1, h2⟩ := List.nodup_cons.1 hn
    rw [List.flatMap_cons, List.nodup_append]
    refine ⟨by simp, ih h2, ?_⟩
    intro x hx y hy hxy
    subst hxy
    have h3 := (mem_eps os x).1 hy
    have h4 : x.obj = o := by
      simp only [List.mem_cons, List.not_mem_nil, or_false] at hx
      rcases hx with rfl | rfl <;> rfl
    rw [h4] at h3
    exact h1 h3

/-- The lists built by `registerObjects` on an empty manager. -/
theorem registerMany_empty {srt : (EP O → K) → List (EP O) → List (EP O)} (hsrt : LawfulSortE srt) {ax : Fin 3}
    {w : O → AABB K} {m : SaP K O} {os : List O} (hos : os ≠ []) (hm : m.arr = []) (hn : os.Nodup) :
    let m' := m.registerMany srt ax w os
    Inv m' ∧ m'.arr = os ∧ (∀ p, m'.cached p = if p ∈ os then w p else m.cached p) ∧ m'.axis = m.axis ∧
    m'.fresh = true ∧ m'.pairs = m.pairs ++ sweep m'.cached (m'.elist ax).length (m'.elist ax) := by
  intro m'
  have hsz : ¬ m.size > 0 := by simp [size, hm]
  have he : ∀ c, (m'.elist c).Perm (os.flatMap (fun o => [(⟨o, false⟩ : EP O), ⟨o, true⟩])) ∧
      Srt (val m'.cached c) (m'.elist c) := by
    intro c
    simp only [m', registerMany, hos, hsz, if_false]
    fin_cases c
    · exact hsrt _ _
    · exact ⟨(hsrt _ _).1.trans (hsrt _ _).1, (hsrt _ _).2⟩
    · exact ⟨((hsrt _ _).1.trans (hsrt _ _).1).trans (hsrt _ _).1, (hsrt _ _).2⟩
  have harr : m'.arr = os := by
    simp only [m', registerMany, hos, hsz, if_false, hm, List.nil_append]
  refine ⟨⟨?_, ?_, ?_, fun c => (he c).2⟩, harr, ?_, ?_, ?_, ?_⟩
  · rw [harr]; exact hn
  · intro c e; rw [(he c).1.mem_iff, mem_eps, harr]
  · intro c; rw [(he c).1.nodup_iff]; exact nodup_eps hn
  · intro p
    simp only [m', registerMany, hos, hsz, if_false]
  · simp only [m', registerMany, hos, hsz, if_false]
  · simp only [m', registerMany, hos, hsz, if_false]
  · simp only [m', registerMany, hos, hsz, if_false]

/-- With boxes of positive extent and no two ends at the same coordinate the sweep is exact. -/
theorem registerMany_exact {srt : (EP O → K) → List (EP O) → List (EP O)} (hsrt : LawfulSortE srt) {ax : Fin 3}
    {w : O → AABB K} {m : SaP K O} {os : List O} (hos : os ≠ []) (hm : m.arr = []) (hp : m.pairs = []) (hn : os.Nodup)
    (hsol : ∀ o ∈ os, (w o).Solid) (hap : ∀ o ∈ os, ∀ p ∈ os, o ≠ p → (w o).Apart (w p)) :
    Exact (m.registerMany srt ax w os) := by
  obtain ⟨hi, harr, hca, -, -, hpa⟩ := registerMany_empty hsrt (ax := ax) (w := w) hos hm hn
  set m' := m.registerMany srt ax w os
  have hca' : ∀ p ∈ os, m'.cached p = w p := fun p hp => by rw [hca, if_pos hp]
  have hmem : ∀ e, e ∈ m'.elist ax ↔ e.obj ∈ os := fun e => by rw [hi.mem, harr]
  set f := val m'.cached ax with hf
  have flo : ∀ p, f ⟨p, false⟩ = (m'.cached p).lo.get ax := fun p => by simp [hf, val]
  have fhi : ∀ p, f ⟨p, true⟩ = (m'.cached p).hi.get ax := fun p => by simp [hf, val]
  have hstrict : Strict f (m'.elist ax) := by
    refine ⟨?_, ?_, ?_⟩
    · have h1 := hi.sorted ax
      have h2 := hi.enodup ax
      refine (h1.and h2).imp_of_mem ?_
      intro a b ha hb ⟨hle, hne⟩
      refine lt_of_le_of_ne hle ?_
      intro heq
      have ha' := (hmem a).1 ha
      have hb' := (hmem b).1 hb
      by_cases hab : a.obj = b.obj
      · obtain ⟨p, x⟩ := a
        obtain ⟨q, y⟩ := b
        simp only at hab ha' hb'
        subst hab
        have hs := hsol p ha' ax
        rw [← hca' p ha'] at hs
        cases x <;> cases y
        · exact hne rfl
        · rw [flo, fhi] at heq; exact absurd heq hs.ne
        · rw [flo, fhi] at heq; exact absurd heq hs.ne'
        · exact hne rfl
      · have hA := hap _ ha' _ hb' hab ax
        rw [← hca' _ ha', ← hca' _ hb'] at hA
        obtain ⟨p, x⟩ := a
        obtain ⟨q, y⟩ := b
        simp only at hA
        cases x <;> cases y
        · rw [flo, flo] at heq; exact hA.1 heq
        · rw [flo, fhi] at heq; exact hA.2.1 heq
        · rw [flo, fhi] at heq; exact hA.2.2.1 heq
        · rw [fhi, fhi] at heq; exact hA.2.2.2 heq
    · intro e he
      have h' := (hmem e).1 he
      rw [flo, fhi, hca' _ h']
      exact hsol _ h' ax
    · intro o ho
      rw [hmem] at ho ⊢; exact ho
  have hf' : ∀ a b, (m'.cached b).overlap (m'.cached a) = true → f ⟨b, false⟩ ≤ f ⟨a, true⟩ := by
    intro a b h
    rw [flo, fhi]
    exact ((overlap_iff_ov _ _).1 h ax).1
  have hmemp := sweep_mem hf' _ _ hstrict (le_refl _)
  have hnd := sweep_nodup hf' _ _ hstrict (le_refl _)
  rw [hp, List.nil_append] at hpa
  rw [← hpa] at hmemp hnd
  refine ⟨hnd, ?_⟩
  intro a b
  rw [hmemp, harr]
  constructor
  · rintro ⟨x, y, ⟨h1, h2, h3, h4⟩, hov, heq⟩
    rw [hmem] at h1 h2
    have hne : y ≠ x := by rintro rfl; exact lt_irrefl _ h3
    have hlt := mkPair_lt hne
    rw [← heq] at hlt
    unfold mkPair at heq
    split at heq
    · simp only [Prod.mk.injEq] at heq
      obtain ⟨rfl, rfl⟩ := heq
      exact ⟨h2, h1, hlt, hov⟩
    · simp only [Prod.mk.injEq] at heq
      obtain ⟨rfl, rfl⟩ := heq
      exact ⟨h1, h2, hlt, by rw [overlap_symm']; exact hov⟩
  · rintro ⟨ha, hb, hlt, hov⟩
    have hA := hap a ha b hb hlt.ne ax
    rw [← hca' _ ha, ← hca' _ hb] at hA
    have hO := (overlap_iff_ov _ _).1 hov ax
    rcases lt_or_gt_of_ne hA.1 with h | h
    · refine ⟨a, b, ⟨(hmem _).2 ha, (hmem _).2 hb, by rw [flo, flo]; exact h, ?_⟩,
        by rw [overlap_symm']; exact hov, ?_⟩
      · rw [flo, fhi]
        exact lt_of_le_of_ne hO.2 hA.2.2.1.symm
      · rw [mkPair_comm, mkPair, if_pos hlt]
    · refine ⟨b, a, ⟨(hmem _).2 hb, (hmem _).2 ha, by rw [flo, flo]; exact h, ?_⟩, hov, ?_⟩
      · rw [flo, fhi]
        exact lt_of_le_of_ne hO.1 hA.2.1
      · rw [mkPair, if_pos hlt]

theorem unregister_step {m : SaP K O} {o : O} (hi : Inv m) (ho : o ∈ m.arr) (hsol : (m.cached o).Solid) :
    ∃ m', m.unregister true o = some m' ∧ Inv m' ∧ m'.arr = m.arr.erase o ∧ m'.cached = m.cached ∧
      m'.axis = m.axis ∧ m'.fresh = false ∧ (Exact m → Exact m') := by
  have hlast : ¬ ∃ c : Fin 3, (m.elist c).getLast? = some ⟨o, false⟩ := by
    rintro ⟨c, hc⟩
    have hlo : (⟨o, false⟩ : EP O) ∈ m.elist c := (hi.mem c _).2 ho
    have hhi : (⟨o, true⟩ : EP O) ∈ m.elist c := (hi.mem c _).2 ho
    have := mem_dropLast_of_lt (hi.sorted c) hlo hhi (by simpa [val] using hsol c)
    have hnd := hi.enodup c
    have hne : m.elist c ≠ [] := List.ne_nil_of_mem hlo
    rw [List.getLast?_eq_some_getLast hne, Option.some.injEq] at hc
    rw [← List.dropLast_append_getLast hne, List.nodup_append] at hnd
    exact hnd.2.2 _ this _ (List.mem_singleton_self _) hc.symm
  have herase : ∀ x, x ∈ m.arr.erase o ↔ x ≠ o ∧ x ∈ m.arr := fun x => hi.nodup.mem_erase_iff
  refine ⟨{ m with
    elist := fun c => (m.elist c).filter (fun e => decide (e.obj ≠ o))
    arr := m.arr.erase o
    pairs := m.pairs.filter (fun p => decide (p.1 ≠ o ∧ p.2 ≠ o))
    fresh := false }, ?_, ?_, rfl, rfl, rfl, rfl, ?_⟩
  · unfold unregister
    rw [if_neg (by simp [ho]), if_neg hlast]
  · refine ⟨hi.nodup.erase _, ?_, ?_, ?_⟩
    · intro c e
      show e ∈ (m.elist c).filter _ ↔ _
      rw [List.mem_filter, hi.mem, herase]
      simp only [decide_eq_true_eq]
      exact and_comm
    · intro c; exact (hi.enodup c).filter _
    · intro c; exact (hi.sorted c).filter _
  · intro hex
    refine ⟨hex.nodup.filter _, ?_⟩
    intro a b
    show (a, b) ∈ m.pairs.filter _ ↔ a ∈ m.arr.erase o ∧ b ∈ m.arr.erase o ∧ _
    rw [List.mem_filter, hex.mem, herase, herase]
    simp only [decide_eq_true_eq]
    tauto

theorem updateAll_step {approx : AABB K → AABB K → Bool} (hap : ∀ a b, approx a b = true → a = b)
    {w : O → AABB K} (os : List O) {m : SaP K O} (hi : Inv m)
    (h : ∀ o ∈ os, o ∈ m.arr ∧ (m.cached o).Solid ∧ (w o).Solid ∧ (m.cached o).Shifted (w o)) :
    ∃ m', os.foldlM (update1 approx w) m = some m' ∧ Inv m' ∧ m'.arr = m.arr ∧ m'.axis = m.axis ∧
      m'.fresh = m.fresh ∧ (∀ p, m'.cached p = if p ∈ os then w p else m.cached p) ∧
      ((∀ p ∈ m.arr, (m.cached p).Solid) →
        (∀ o p, o ∈ m.arr → p ∈ m.arr → o ≠ p → ∀ b b', (b = m.cached o ∨ o ∈ os ∧ b = w o) →
          (b' = m.cached p ∨ p ∈ os ∧ b' = w p) → b.Apart b') → Exact m → Exact m') := by
  induction os generalizing m with
  | nil => exact ⟨m, rfl, hi, rfl, rfl, rfl, fun p => by simp, fun _ _ h => h⟩
  | cons o os ih =>
    obtain ⟨ho, s1, s2, s3⟩ := h o List.mem_cons_self
    obtain ⟨m1, e1, i1, a1, x1, f1, c1, p1⟩ := update1_step hap hi ho s1 s2 s3
    obtain ⟨m2, e2, i2, a2, x2, f2, c2, p2⟩ := ih i1 (by
      intro p hp
      obtain ⟨q1, q2, q3, q4⟩ := h p (List.mem_cons_of_mem _ hp)
      rw [a1, c1]
      by_cases hpo : p = o
      · subst hpo
        rw [Function.update_self]
        exact ⟨q1, q3, q3, fun c => Or.inr (Or.inr ⟨rfl, rfl⟩)⟩
      · rw [Function.update_of_ne hpo]
        exact ⟨q1, q2, q3, q4⟩)
    refine ⟨m2, ?_, i2, a2.trans a1, x2.trans x1, f2.trans f1, ?_, ?_⟩
    · rw [List.foldlM_cons, e1]; exact e2
    · intro p
      rw [c2, c1]
      by_cases hp : p ∈ os
      · simp [hp]
      · by_cases hpo : p = o
        · subst hpo; simp
        · simp [hp, hpo]
    · intro hS hA hex
      refine p2 ?_ ?_ (p1 ?_ hex)
      · intro p hp
        rw [a1] at hp
        rw [c1]
        by_cases hpo : p = o
        · subst hpo; rw [Function.update_self]; exact s2
        · rw [Function.update_of_ne hpo]; exact hS p hp
      · intro q p hq hp hne b b' hb hb'
        rw [a1] at hq hp
        apply hA q p hq hp hne b b'
        · rcases hb with hb | ⟨hb1, hb2⟩
          · rw [c1] at hb
            by_cases hqo : q = o
            · subst hqo; rw [Function.update_self] at hb
              exact Or.inr ⟨List.mem_cons_self, hb⟩
            · rw [Function.update_of_ne hqo] at hb
              exact Or.inl hb
          · exact Or.inr ⟨List.mem_cons_of_mem _ hb1, hb2⟩
        · rcases hb' with hb | ⟨hb1, hb2⟩
          · rw [c1] at hb
            by_cases hqo : p = o
            · subst hqo; rw [Function.update_self] at hb
              exact Or.inr ⟨List.mem_cons_self, hb⟩
            · rw [Function.update_of_ne hqo] at hb
              exact Or.inl hb
          · exact Or.inr ⟨List.mem_cons_of_mem _ hb1, hb2⟩
      · intro p hp hpo
        exact ⟨hS p hp, hA p o hp ho hpo _ _ (Or.inl rfl) (Or.inl rfl),
          hA p o hp ho hpo _ _ (Or.inl rfl) (Or.inr ⟨List.mem_cons_self, rfl⟩)⟩

/-- The manager agrees with its history. -/
structure Agrees (h : List (PCall K O)) (m : SaP K O) : Prop where
  inv : Inv m
  arr : ∀ o, o ∈ m.arr ↔ InMgr o h
  cached : ∀ o b, lastBox o h = some b → m.cached o = b
  fresh : removedLast h = false → m.fresh = true

theorem removedLast_snoc (h : List (PCall K O)) (c : PCall K O) :
    removedLast (h ++ [c]) = (match c.op with
      | .unregister _ => true
      | .setup => removedLast h
      | .registerMany [] => removedLast h
      | _ => false) := by
  unfold removedLast; rw [List.foldl_append]; rfl

theorem lastBox_of_mem {h : List (PCall K O)} {o : O} (hm : InMgr o h) : ∃ b, lastBox o h = some b :=
  Option.ne_none_iff_exists'.1 hm

/-- The update calls. -/
theorem updateObjs_agrees {approx : AABB K → AABB K → Bool} (hap : ∀ a b, approx a b = true → a = b)
    {h : List (PCall K O)} {m : SaP K O} (ha : Agrees h m) (c : PCall K O) (os : List O)
    (hos : ∀ o, InMgr o h → (o ∈ os ↔ c.Updates o)) (hreg : ∀ o ∈ os, InMgr o h)
    (hg : ∀ o b, c.Updates o → lastBox o h = some b → b.Solid ∧ (c.w o).Solid ∧ b.Shifted (c.w o)) :
    ∃ m', m.updateObjs approx c.ax c.w os = some m' ∧ Inv m' ∧ m'.arr = m.arr ∧ m'.fresh = true ∧
      (∀ p, m'.cached p = if p ∈ os then c.w p else m.cached p) ∧
      ((∀ p b, lastBox p h = some b → b.Solid) →
        (∀ o p b b', o ≠ p → (lastBox o h = some b ∨ c.Updates o ∧ InMgr o h ∧ b = c.w o) →
          (lastBox p h = some b' ∨ c.Updates p ∧ InMgr p h ∧ b' = c.w p) → b.Apart b') → Exact m → Exact m') := by
  obtain ⟨m1, e1, i1, a1, x1, f1, c1, p1⟩ := updateAll_step hap (w := c.w) os ha.inv (by
    intro o ho
    obtain ⟨b, hb⟩ := lastBox_of_mem (hreg o ho)
    rw [ha.cached o b hb]
    exact ⟨(ha.arr o).2 (hreg o ho), hg o b ((hos o (hreg o ho)).1 ho) hb⟩)
  have hset : ∃ m', setup c.ax (updateVelist m1) = some m' ∧ m'.elist = m1.elist ∧ m'.cached = m1.cached ∧
      m'.arr = m1.arr ∧ m'.pairs = m1.pairs ∧ m'.fresh = true := by
    unfold setup updateVelist
    by_cases hz : (SaP.size { m1 with fresh := true }) = 0
    · rw [if_pos hz]; exact ⟨_, rfl, rfl, rfl, rfl, rfl, rfl⟩
    · rw [if_neg hz]; exact ⟨_, rfl, rfl, rfl, rfl, rfl, rfl⟩
  obtain ⟨m', hm', q1, q2, q3, q4, q5⟩ := hset
  refine ⟨m', ?_, ?_, q3.trans a1, q5, ?_, ?_⟩
  · unfold updateObjs; rw [e1]; exact hm'
  · refine ⟨by rw [q3]; exact i1.nodup, ?_, ?_, ?_⟩
    · intro k e; rw [q1, q3]; exact i1.mem k e
    · intro k; rw [q1]; exact i1.enodup k
    · intro k; rw [q1, q2]; exact i1.sorted k
  · intro p; rw [q2]; exact c1 p
  · intro hS hA hex
    have hE := p1 (by
      intro p hp
      obtain ⟨b, hb⟩ := lastBox_of_mem ((ha.arr p).1 hp)
      rw [ha.cached p b hb]; exact hS p b hb) (by
      intro o p ho hp hne b b' hb hb'
      have ho' := (ha.arr o).1 ho
      have hp' := (ha.arr p).1 hp
      apply hA o p b b' hne
      · rcases hb with hb | ⟨hb1, hb2⟩
        · obtain ⟨b0, hb0⟩ := lastBox_of_mem ho'
          rw [ha.cached o b0 hb0] at hb
          rw [hb]; exact Or.inl hb0
        · exact Or.inr ⟨(hos o ho').1 hb1, ho', hb2⟩
      · rcases hb' with hb | ⟨hb1, hb2⟩
        · obtain ⟨b0, hb0⟩ := lastBox_of_mem hp'
          rw [ha.cached p b0 hb0] at hb
          rw [hb]; exact Or.inl hb0
        · exact Or.inr ⟨(hos p hp').1 hb1, hp', hb2⟩) hex
    refine ⟨by rw [q4]; exact hE.nodup, ?_⟩
    intro a b; rw [q4, q3, q2]; exact hE.mem a b

theorem updates_agrees {h : List (PCall K O)} {m m' : SaP K O} (ha : Agrees h m) {c : PCall K O} {os : List O}
    (hos : ∀ o, InMgr o h → (o ∈ os ↔ c.Updates o)) (hi : Inv m') (harr : m'.arr = m.arr) (hf : m'.fresh = true)
    (hc : ∀ p, m'.cached p = if p ∈ os then c.w p else m.cached p)
    (hlast : ∀ o, (c.Updates o → lastBox o (h ++ [c]) = (lastBox o h).map (fun _ => c.w o)) ∧
      (¬ c.Updates o → lastBox o (h ++ [c]) = lastBox o h)) : Agrees (h ++ [c]) m' := by
  have hin : ∀ o, InMgr o (h ++ [c]) ↔ InMgr o h := by
    intro o
    unfold InMgr
    by_cases hu : c.Updates o
    · rw [(hlast o).1 hu]; cases lastBox o h <;> simp
    · rw [(hlast o).2 hu]
  refine ⟨hi, ?_, ?_, fun _ => hf⟩
  · intro o; rw [harr, ha.arr, hin]
  · intro o b hb
    have ho : InMgr o h := (hin o).1 (by unfold InMgr; rw [hb]; simp)
    obtain ⟨b0, hb0⟩ := lastBox_of_mem ho
    rw [hc]
    by_cases hu : c.Updates o
    · rw [(hlast o).1 hu, hb0] at hb
      rw [if_pos ((hos o ho).2 hu)]
      simpa using hb
    · rw [(hlast o).2 hu] at hb
      rw [if_neg (fun hm => hu ((hos o ho).1 hm))]
      exact ha.cached o b hb

/-- One call. -/
theorem step_agrees {approx : AABB K → AABB K → Bool} (hap : ∀ a b, approx a b = true → a = b)
    {h : List (PCall K O)} {m : SaP K O} (ha : Agrees h m) {c : PCall K O} (hc : c.Good h) :
    ∃ m', step approx m c = some m' ∧ Agrees (h ++ [c]) m' ∧
      (c.General h → (∀ p b, lastBox p h = some b → b.Solid) → Exact m →
        Exact m' ∧ ∀ p b, lastBox p (h ++ [c]) = some b → b.Solid) := by
  obtain ⟨op, w, srt, axR, ax, intact⟩ := c
  obtain ⟨hc1, hc2⟩ := hc
  have hsolU : ∀ c : PCall K O, (∀ o b, c.Updates o → lastBox o h = some b → b.Solid ∧ (c.w o).Solid ∧ b.Shifted (c.w o)) →
      (∀ o, (c.Updates o → lastBox o (h ++ [c]) = (lastBox o h).map (fun _ => c.w o)) ∧
      (¬ c.Updates o → lastBox o (h ++ [c]) = lastBox o h)) → (∀ p b, lastBox p h = some b → b.Solid) →
      ∀ p b, lastBox p (h ++ [c]) = some b → b.Solid := by
    intro c hg hl hS p b hb
    by_cases hu : c.Updates p
    · rw [(hl p).1 hu] at hb
      cases hb0 : lastBox p h with
      | none => rw [hb0] at hb; simp at hb
      | some b0 =>
        rw [hb0] at hb
        simp only [Option.map_some, Option.some.injEq] at hb
        rw [← hb]; exact (hg p b0 hu hb0).2.1
    · rw [(hl p).2 hu] at hb; exact hS p b hb
  cases op with
  | register o =>
    obtain ⟨hno, hv⟩ := hc1
    have hno' : o ∉ m.arr := fun hm => hno ((ha.arr o).1 hm)
    refine ⟨m.register w o, rfl, ⟨register_inv ha.inv hno' hv, ?_, ?_, fun _ => rfl⟩, ?_⟩
    · intro p
      show p ∈ m.arr ++ [o] ↔ lastBox p (h ++ [_]) ≠ none
      rw [lastBox_snoc, List.mem_append, List.mem_singleton, ha.arr]
      unfold lastStep InMgr
      by_cases hp : p = o
      · simp [hp]
      · simp [hp]
    · intro p b hb
      rw [lastBox_snoc] at hb
      show Function.update m.cached o (w o) p = b
      unfold lastStep at hb
      by_cases hp : p = o
      · subst hp; simpa using hb
      · simp only [hp, if_false] at hb
        rw [Function.update_of_ne hp]; exact ha.cached p b hb
    · rintro ⟨hg, -⟩ hS hex
      obtain ⟨hemp, hsol⟩ := hg
      have harr : m.arr = [] := by
        rw [List.eq_nil_iff_forall_not_mem]
        intro p hp; exact hemp p ((ha.arr p).1 hp)
      have hel : ∀ k, m.elist k = [] := by
        intro k
        rw [List.eq_nil_iff_forall_not_mem]
        intro e he
        have := (ha.inv.mem k e).1 he
        rw [harr] at this; cases this
      have hpairs : m.pairs = [] := by
        rw [List.eq_nil_iff_forall_not_mem]
        rintro ⟨a, b⟩ hab
        have := ((hex.mem a b).1 hab).1
        rw [harr] at this; cases this
      have hp' : (m.register w o).pairs = [] := by
        simp [register, hpairs, hel, walked]
      refine ⟨⟨by rw [hp']; exact List.nodup_nil, ?_⟩, ?_⟩
      · intro a b
        rw [hp']
        show _ ↔ a ∈ m.arr ++ [o] ∧ b ∈ m.arr ++ [o] ∧ _
        rw [harr]
        simp only [List.not_mem_nil, List.nil_append, List.mem_singleton, false_iff]
        rintro ⟨rfl, rfl, h, -⟩
        exact lt_irrefl _ h
      · intro p b hb
        rw [lastBox_snoc] at hb
        unfold lastStep at hb
        by_cases hp : p = o
        · subst hp
          simp only [if_true, Option.some.injEq] at hb
          rw [← hb]; exact hsol
        · simp only [hp, if_false] at hb
          exact hS p b hb
  | registerMany os =>
    obtain ⟨hnd, hno, hsrt⟩ := hc1
    have hno' : ∀ o ∈ os, o ∉ m.arr ∧ (w o).Valid := fun o ho =>
      ⟨fun hm => (hno o ho).1 ((ha.arr o).1 hm), (hno o ho).2⟩
    have key : ∃ m', m.registerMany srt axR w os = m' ∧ Inv m' ∧ (∀ o, o ∈ m'.arr ↔ o ∈ m.arr ∨ o ∈ os) ∧
        (∀ p, m'.cached p = if p ∈ os then w p else m.cached p) ∧ (os ≠ [] → m'.fresh = true) ∧
        (os = [] → m' = m) := by
      by_cases hos : os = []
      · refine ⟨m, by simp [registerMany, hos], ha.inv, by simp [hos], by simp [hos], fun h => absurd hos h,
          fun _ => rfl⟩
      · by_cases hsz : m.size > 0
        · obtain ⟨i1, i2, i3, i4, i5⟩ := foldl_register_inv os ha.inv hnd hno'
          refine ⟨os.foldl (register w) m, by simp [registerMany, hos, hsz], i1, ?_, i3, i5, fun h => absurd h hos⟩
          intro o; rw [i2, List.mem_append]
        · have harr : m.arr = [] := by
            have : m.arr.length = 0 := by unfold size at hsz; omega
            exact List.length_eq_zero_iff.1 this
          obtain ⟨i1, i2, i3, i4, i5, -⟩ := registerMany_empty hsrt (ax := axR) (w := w) hos harr hnd
          refine ⟨_, rfl, i1, ?_, i3, fun _ => i5, fun h => absurd h hos⟩
          intro o; rw [i2, harr]; simp
    obtain ⟨m', hm', k1, k2, k3, k4, k5⟩ := key
    refine ⟨m', by show some (m.registerMany srt axR w os) = _; rw [hm'], ⟨k1, ?_, ?_, ?_⟩, ?_⟩
    · intro p
      rw [k2, ha.arr]
      unfold InMgr
      rw [lastBox_snoc]
      unfold lastStep
      by_cases hp : p ∈ os
      · simp [hp]
      · simp [hp]
    · intro p b hb
      rw [lastBox_snoc] at hb
      unfold lastStep at hb
      rw [k3]
      by_cases hp : p ∈ os
      · simp only [hp, if_true, Option.some.injEq] at hb ⊢; exact hb
      · simp only [hp, if_false] at hb ⊢
        exact ha.cached p b hb
    · rw [removedLast_snoc]
      by_cases hos : os = []
      · subst hos
        rw [k5 rfl]; exact ha.fresh
      · intro _; exact k4 hos
    · rintro ⟨hg, -⟩ hS hex
      obtain ⟨hemp, hsol, hapt⟩ := hg
      have harr : m.arr = [] := by
        rw [List.eq_nil_iff_forall_not_mem]
        intro p hp; exact hemp p ((ha.arr p).1 hp)
      have hpairs : m.pairs = [] := by
        rw [List.eq_nil_iff_forall_not_mem]
        rintro ⟨a, b⟩ hab
        have := ((hex.mem a b).1 hab).1
        rw [harr] at this; cases this
      constructor
      · by_cases hos : os = []
        · rw [k5 hos]; exact hex
        · rw [← hm']
          exact registerMany_exact hsrt hos harr hpairs hnd hsol hapt
      · intro p b hb
        rw [lastBox_snoc] at hb
        unfold lastStep at hb
        by_cases hp : p ∈ os
        · simp only [hp, if_true, Option.some.injEq] at hb
          rw [← hb]; exact hsol p hp
        · simp only [hp, if_false] at hb
          exact hS p b hb
  | unregister o =>
    obtain ⟨⟨b, hb, hs⟩, hin⟩ := hc1
    have ho : InMgr o h := by unfold InMgr; rw [hb]; simp
    simp only at hin
    subst hin
    obtain ⟨m', e1, e2, e3, e4, e5, e6, e7⟩ := unregister_step ha.inv ((ha.arr o).2 ho)
      (by rw [ha.cached o b hb]; exact hs)
    refine ⟨m', e1, ⟨e2, ?_, ?_, ?_⟩, ?_⟩
    · intro p
      rw [e3, ha.inv.nodup.mem_erase_iff, ha.arr]
      unfold InMgr
      rw [lastBox_snoc]
      unfold lastStep
      by_cases hp : p = o
      · simp [hp]
      · simp [hp]
    · intro p b' hb'
      rw [lastBox_snoc] at hb'
      unfold lastStep at hb'
      rw [e4]
      by_cases hp : p = o
      · simp [hp] at hb'
      · simp only [hp, if_false] at hb'
        exact ha.cached p b' hb'
    · rw [removedLast_snoc]; intro h; simp at h
    · intro _ hS hex
      refine ⟨e7 hex, ?_⟩
      intro p b' hb'
      rw [lastBox_snoc] at hb'
      unfold lastStep at hb'
      by_cases hp : p = o
      · simp [hp] at hb'
      · simp only [hp, if_false] at hb'
        exact hS p b' hb'
  | setup =>
    have hset : ∃ m', setup ax m = some m' ∧ m'.elist = m.elist ∧ m'.cached = m.cached ∧ m'.arr = m.arr ∧
        m'.pairs = m.pairs ∧ m'.fresh = m.fresh := by
      unfold setup
      by_cases hz : m.size = 0
      · rw [if_pos hz]; exact ⟨_, rfl, rfl, rfl, rfl, rfl, rfl⟩
      · rw [if_neg hz]
        have hfr : m.fresh = true := by
          rcases hc1 with h' | h'
          · exact ha.fresh h'
          · exfalso
            apply hz
            have : m.arr = [] := by
              rw [List.eq_nil_iff_forall_not_mem]
              intro p hp; exact h' p ((ha.arr p).1 hp)
            simp [size, this]
        rw [if_pos hfr]; exact ⟨_, rfl, rfl, rfl, rfl, rfl, rfl⟩
    obtain ⟨m', hm', q1, q2, q3, q4, q5⟩ := hset
    refine ⟨m', hm', ⟨?_, ?_, ?_, ?_⟩, ?_⟩
    · refine ⟨by rw [q3]; exact ha.inv.nodup, ?_, ?_, ?_⟩
      · intro k e; rw [q1, q3]; exact ha.inv.mem k e
      · intro k; rw [q1]; exact ha.inv.enodup k
      · intro k; rw [q1, q2]; exact ha.inv.sorted k
    · intro p; rw [q3, ha.arr]; unfold InMgr; rw [lastBox_snoc]; rfl
    · intro p b hb
      rw [lastBox_snoc] at hb
      rw [q2]; exact ha.cached p b hb
    · rw [removedLast_snoc, q5]; exact ha.fresh
    · intro _ hS hex
      refine ⟨⟨by rw [q4]; exact hex.nodup, ?_⟩, ?_⟩
      · intro a b; rw [q4, q3, q2]; exact hex.mem a b
      · intro p b hb
        rw [lastBox_snoc] at hb
        exact hS p b hb
  | update =>
    set c : PCall K O := ⟨.update, w, srt, axR, ax, intact⟩ with hcdef
    have hl : ∀ o, (c.Updates o → lastBox o (h ++ [c]) = (lastBox o h).map (fun _ => c.w o)) ∧
        (¬ c.Updates o → lastBox o (h ++ [c]) = lastBox o h) := by
      intro o; rw [lastBox_snoc]; exact ⟨fun _ => rfl, fun hn => absurd trivial hn⟩
    have hos : ∀ o, InMgr o h → (o ∈ m.arr ↔ c.Updates o) := fun o ho =>
      ⟨fun _ => trivial, fun _ => (ha.arr o).2 ho⟩
    obtain ⟨m', e1, e2, e3, e4, e5, e6⟩ := updateObjs_agrees hap ha c m.arr hos (fun o ho => (ha.arr o).1 ho) hc2
    exact ⟨m', e1, updates_agrees ha hos e2 e3 e4 e5 hl, fun hg hS hex => ⟨e6 hS hg.2 hex, hsolU c hc2 hl hS⟩⟩
  | updateObj p =>
    set c : PCall K O := ⟨.updateObj p, w, srt, axR, ax, intact⟩ with hcdef
    have hl : ∀ o, (c.Updates o → lastBox o (h ++ [c]) = (lastBox o h).map (fun _ => c.w o)) ∧
        (¬ c.Updates o → lastBox o (h ++ [c]) = lastBox o h) := by
      intro o; rw [lastBox_snoc]
      constructor
      · intro hu; show (if o = p then _ else _) = _; rw [if_pos (show o = p from hu)]
      · intro hu; show (if o = p then _ else _) = _; rw [if_neg (show ¬ o = p from hu)]
    have hos : ∀ o, InMgr o h → (o ∈ [p] ↔ c.Updates o) := fun o ho => List.mem_singleton
    obtain ⟨m', e1, e2, e3, e4, e5, e6⟩ := updateObjs_agrees hap ha c [p] hos (fun o ho => by
      rw [List.mem_singleton.1 ho]; exact hc1) hc2
    exact ⟨m', e1, updates_agrees ha hos e2 e3 e4 e5 hl, fun hg hS hex => ⟨e6 hS hg.2 hex, hsolU c hc2 hl hS⟩⟩
  | updateObjs os =>
    set c : PCall K O := ⟨.updateObjs os, w, srt, axR, ax, intact⟩ with hcdef
    have hl : ∀ o, (c.Updates o → lastBox o (h ++ [c]) = (lastBox o h).map (fun _ => c.w o)) ∧
        (¬ c.Updates o → lastBox o (h ++ [c]) = lastBox o h) := by
      intro o; rw [lastBox_snoc]
      constructor
      · intro hu; show (if o ∈ os then _ else _) = _; rw [if_pos (show o ∈ os from hu)]
      · intro hu; show (if o ∈ os then _ else _) = _; rw [if_neg (show o ∉ os from hu)]
    have hos : ∀ o, InMgr o h → (o ∈ os ↔ c.Updates o) := fun o ho => Iff.rfl
    obtain ⟨m', e1, e2, e3, e4, e5, e6⟩ := updateObjs_agrees hap ha c os hos hc1 hc2
    exact ⟨m', e1, updates_agrees ha hos e2 e3 e4 e5 hl, fun hg hS hex => ⟨e6 hS hg.2 hex, hsolU c hc2 hl hS⟩⟩
  | clear =>
    refine ⟨m.clear, rfl, ⟨⟨List.nodup_nil, ?_, fun _ => List.nodup_nil, fun _ => List.Pairwise.nil⟩, ?_, ?_,
      fun _ => rfl⟩, ?_⟩
    · intro k e; simp [clear]
    · intro p
      unfold InMgr
      rw [lastBox_snoc]
      simp [clear, lastStep]
    · intro p b hb
      rw [lastBox_snoc] at hb
      simp [lastStep] at hb
    · intro _ _ _
      refine ⟨⟨List.nodup_nil, ?_⟩, ?_⟩
      · intro a b; simp [clear]
      · intro p b hb
        rw [lastBox_snoc] at hb
        simp [lastStep] at hb

/-- Every good history runs to the end, and the manager agrees with it. -/
theorem run_agrees {approx : AABB K → AABB K → Bool} (hap : ∀ a b, approx a b = true → a = b) (b0 : AABB K)
    {h : List (PCall K O)} (hh : PHistory h) : ∃ m, run approx b0 h = some m ∧ Agrees h m := by
  induction hh with
  | nil =>
    refine ⟨empty b0, rfl, inv_empty b0, ?_, ?_, fun _ => rfl⟩
    · intro o; simp [empty, InMgr, lastBox]
    · intro o b hb; simp [lastBox] at hb
  | @snoc h c hh hc ih =>
    obtain ⟨m, hm, ha⟩ := ih
    obtain ⟨m', h1, h2, -⟩ := step_agrees hap ha hc
    exact ⟨m', by rw [run_snoc, hm]; exact h1, h2⟩

theorem GenHistory.good {h : List (PCall K O)} (hh : GenHistory h) : PHistory h := by
  induction hh with
  | nil => exact .nil
  | snoc _ hc _ ih => exact .snoc ih hc

theorem run_exact {approx : AABB K → AABB K → Bool} (hap : ∀ a b, approx a b = true → a = b) (b0 : AABB K)
    {h : List (PCall K O)} (hh : GenHistory h) : ∃ m, run approx b0 h = some m ∧ Agrees h m ∧ Exact m ∧
      ∀ p b, lastBox p h = some b → b.Solid := by
  induction hh with
  | nil =>
    refine ⟨empty b0, rfl, ⟨inv_empty b0, ?_, ?_, fun _ => rfl⟩, ⟨List.nodup_nil, ?_⟩, ?_⟩
    · intro o; simp [empty, InMgr, lastBox]
    · intro o b hb; simp [lastBox] at hb
    · intro a b; simp [empty]
    · intro p b hb; simp [lastBox] at hb
  | @snoc h c hh hc hg ih =>
    obtain ⟨m, hm, ha, hex, hS⟩ := ih
    obtain ⟨m', h1, h2, h3⟩ := step_agrees hap ha hc
    exact ⟨m', by rw [run_snoc, hm]; exact h1, h2, h3 hg hS hex⟩

end SaP
end Fcl
