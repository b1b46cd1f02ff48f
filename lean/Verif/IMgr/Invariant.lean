import Verif.IMgr.Lemmas

/-! The invariant of the interval tree manager, over all histories. -/

set_option linter.unusedSectionVars false

namespace Fcl
namespace IMgr
open ITree (Ivl St toList)

variable {K O : Type*} [LinearOrder K] [LinearOrder O] {bot : K}

/-- What holds of the manager after the calls `h`. -/
structure Inv (bot : K) (h : List (ICall K O)) (m : IMgr K O) : Prop where
  nodup : ∀ i, ((m.ends i).map key).Nodup
  mem : ∀ i o b, (o, b) ∈ (m.ends i).map key ↔ Registered o h
  vals : spoiled h = false → ∀ i, ∀ e ∈ m.ends i, ∀ b, regBox e.obj h = some b → e.val = side b e.hi i
  unmapped : ∀ o, ¬ Registered o h → m.maps o = none
  ready : m.ready = (seen h).isSome
  fit : ∀ f, seen h = some f → ∀ o, Registered o h → Fit bot (f o)
  sorted : seen h ≠ none → ∀ i, (m.ends i).Pairwise (fun a b => a.val ≤ b.val)
  mapped : seen h ≠ none → ∀ o, Registered o h → m.maps o ≠ none
  trees : ∀ f, seen h = some f → ∃ ts, m.trees = some ts ∧ ∀ i, Holds bot (fun o => Registered o h) f i (ts i)

theorem Inv.empty : Inv bot [] (IMgr.empty : IMgr K O) :=
  ⟨fun _ => List.nodup_nil, fun _ _ _ => ⟨fun h => (by simp [IMgr.empty] at h), fun h => absurd rfl h⟩,
    fun _ _ e he => (by simp [IMgr.empty] at he), fun _ _ => rfl, rfl, fun _ h => (by cases h), fun h => absurd rfl h,
    fun h => absurd rfl h, fun _ h => (by cases h)⟩

theorem Inv.mem_end {h : List (ICall K O)} {m : IMgr K O} (hi : Inv bot h m) {i : Fin 3} {e : IEnd K O}
    (he : e ∈ m.ends i) : Registered e.obj h :=
  (hi.mem i e.obj e.hi).1 (List.mem_map.2 ⟨e, he, rfl⟩)

/-- What `setup()` does when it has something to do. -/
theorem setup_spec {srt : List (IEnd K O) → List (IEnd K O)} (hsrt : LawfulSortI srt) {w : O → AABB K} {m : IMgr K O}
    {R : O → Prop} (hr : m.ready = false) (hn : ((m.ends 0).map key).Nodup)
    (hm : ∀ o b, (o, b) ∈ (m.ends 0).map key ↔ R o) (hf : ∀ o, R o → Fit bot (w o)) :
    ∃ m', m.setup bot srt w = some m' ∧ m'.ready = true ∧ (∀ i, m'.ends i = srt (m.ends i)) ∧
      (∀ o, R o → m'.maps o = some (w o)) ∧ (∀ o, ¬ R o → m'.maps o = m.maps o) ∧
      ∃ ts, m'.trees = some ts ∧ ∀ i, Holds bot R w i (ts i) := by
  set os := ((srt (m.ends 0)).filter (fun p => !p.hi)).map (·.obj) with hos
  have hmem : ∀ o, o ∈ os ↔ R o := by
    intro o
    rw [← hm o false, hos]
    constructor
    · intro h
      obtain ⟨e, he, rfl⟩ := List.mem_map.1 h
      obtain ⟨h1, h2⟩ := List.mem_filter.1 he
      exact List.mem_map.2 ⟨e, (hsrt _).1.mem_iff.1 h1, by simp [key] at h2 ⊢; exact h2⟩
    · intro h
      obtain ⟨e, he, hk⟩ := List.mem_map.1 h
      simp only [key, Prod.mk.injEq] at hk
      exact List.mem_map.2 ⟨e, List.mem_filter.2 ⟨(hsrt _).1.mem_iff.2 he, by simp [hk.2]⟩, hk.1⟩
  have hnod : os.Nodup := by
    have h1 : ((srt (m.ends 0)).map key).Nodup := (((hsrt _).1.map key).nodup_iff).2 hn
    have h2 : (((srt (m.ends 0)).filter (fun p => !p.hi)).map key).Nodup := h1.sublist (List.filter_sublist.map _)
    refine List.Nodup.map_on ?_ (List.Nodup.of_map _ h2)
    intro x hx y hy hxy
    refine key_inj h2 hx hy ?_
    have h3 := (List.mem_filter.1 hx).2
    have h4 := (List.mem_filter.1 hy).2
    simp only [Bool.not_eq_true'] at h3 h4
    simp [key, hxy, h3, h4]
  have htree : ∀ i, ∃ t, insertAll bot w i os St.empty = some t ∧ Holds bot R w i t := by
    intro i
    obtain ⟨t, e, ht⟩ := insertAll_spec w i os hnod
      (fun o ho => ((hf o ((hmem o).1 ho) i).1.trans_le (hf o ((hmem o).1 ho) i).2).le) St.empty (holds_empty w i) (by simp)
    exact ⟨t, e, ht.congr (fun o => by rw [← hmem o]; simp) (fun _ _ => rfl)⟩
  choose ts hts htsH using htree
  have hon : onAxes (fun i => insertAll bot w i os St.empty) = some ts := onAxes_some.2 hts
  refine ⟨⟨fun i => srt (m.ends i), some ts, fun o => if o ∈ os then some (w o) else m.maps o, true⟩, ?_, rfl,
    fun _ => rfl, fun o ho => if_pos ((hmem o).2 ho), fun o ho => if_neg (fun h => ho ((hmem o).1 h)), ts, rfl, htsH⟩
  unfold setup
  rw [hr]
  simp only [Bool.false_eq_true, if_false]
  rw [← hos, hon]
  rfl

theorem registered_of_regStep {o : O} {h : List (ICall K O)} {c : ICall K O}
    (hc : ∀ x, regStep o x c = x) : Registered o (h ++ [c]) ↔ Registered o h := by
  unfold Registered
  rw [regBox_snoc, hc]

/-- `setup()`. -/
theorem Inv.setup {h : List (ICall K O)} {m : IMgr K O} (hi : Inv bot h m) {c : ICall K O} (hop : c.op = .setup)
    (hsrt : LawfulSortI c.srt) (hf : ∀ o, Registered o h → Fit bot (c.w o)) :
    ∃ m', m.setup bot c.srt c.w = some m' ∧ Inv bot (h ++ [c]) m' := by
  have hreg : ∀ o, regBox o (h ++ [c]) = regBox o h := fun o => by rw [regBox_snoc]; unfold regStep; rw [hop]
  have hR : ∀ o, Registered o (h ++ [c]) ↔ Registered o h := fun o => by unfold Registered; rw [hreg]
  have hsp : spoiled (h ++ [c]) = spoiled h := by rw [spoiled_snoc, hop]
  have hse : seen (h ++ [c]) = some ((seen h).getD c.w) := by rw [seen_snoc]; unfold seenStep; rw [hop]
  rcases hs : seen h with _ | f
  · have hr : m.ready = false := by rw [hi.ready, hs]; rfl
    obtain ⟨m', e, r', ends', map', unm', ts, ets, hts⟩ := setup_spec hsrt hr (hi.nodup 0) (hi.mem 0) hf
    rw [hs] at hse
    refine ⟨m', e, ⟨fun i => ?_, fun i o b => ?_, fun hsf i e he b hb => ?_, fun o ho => ?_, ?_, fun f hf' => ?_, fun _ i => ?_,
      fun _ o ho => ?_, fun f hf' => ?_⟩⟩
    · rw [ends']; exact (((hsrt _).1.map key).nodup_iff).2 (hi.nodup i)
    · rw [ends', ((hsrt _).1.map key).mem_iff, hi.mem, hR]
    · rw [ends', (hsrt _).1.mem_iff] at he
      rw [hreg] at hb
      exact hi.vals (hsp ▸ hsf) i e he b hb
    · rw [hR] at ho
      rw [unm' o ho, hi.unmapped o ho]
    · rw [hse, r']; rfl
    · rw [hse] at hf'; cases hf'
      intro o ho; exact hf o ((hR o).1 ho)
    · rw [ends']; exact (hsrt _).2
    · rw [map' o ((hR o).1 ho)]; simp
    · rw [hse] at hf'; cases hf'
      exact ⟨ts, ets, fun i => (hts i).congr (fun o => (hR o).symm) (fun _ _ => rfl)⟩
  · have hr : m.ready = true := by rw [hi.ready, hs]; rfl
    rw [hs] at hse
    have hne : seen h ≠ none := by rw [hs]; simp
    refine ⟨m, by unfold IMgr.setup; rw [hr]; rfl, ⟨hi.nodup, fun i o b => ?_, fun hsf i e he b hb => ?_, fun o ho => ?_, ?_,
      fun f' hf' => ?_, fun _ => hi.sorted hne, fun _ o ho => hi.mapped hne o ((hR o).1 ho), fun f' hf' => ?_⟩⟩
    · rw [hi.mem, hR]
    · rw [hreg] at hb; exact hi.vals (hsp ▸ hsf) i e he b hb
    · exact hi.unmapped o (fun h => ho ((hR o).2 h))
    · rw [hse, hr]; rfl
    · rw [hse] at hf'; cases hf'
      intro o ho; exact hi.fit f hs o ((hR o).1 ho)
    · rw [hse] at hf'; cases hf'
      obtain ⟨ts, e, ht⟩ := hi.trees f hs
      exact ⟨ts, e, fun i => (ht i).congr (fun o => (hR o).symm) (fun _ _ => rfl)⟩

theorem Inv.register {h : List (ICall K O)} {m : IMgr K O} (hi : Inv bot h m) {c : ICall K O} {o : O}
    (hop : c.op = .register o) (ho : ¬ Registered o h) : Inv bot (h ++ [c]) (m.register c.w o) := by
  have hreg : ∀ p, regBox p (h ++ [c]) = if p = o then some (c.w p) else regBox p h := fun p => by
    rw [regBox_snoc]; unfold regStep; rw [hop]
  have hR : ∀ p, Registered p (h ++ [c]) ↔ Registered p h ∨ p = o := fun p => by
    unfold Registered; rw [hreg]; split
    · simp [*]
    · simp [*]
  have hsp : spoiled (h ++ [c]) = spoiled h := by rw [spoiled_snoc, hop]
  have hse : seen (h ++ [c]) = none := by rw [seen_snoc]; unfold seenStep; rw [hop]
  have hkey : ∀ i, ((m.register c.w o).ends i).map key = (m.ends i).map key ++ [(o, false), (o, true)] := by
    intro i; simp [IMgr.register, key]
  refine ⟨fun i => ?_, fun i p b => ?_, fun hsf i e he b hb => ?_, fun p hp => ?_, ?_, ?_, ?_, ?_, ?_⟩
  · rw [hkey, List.nodup_append]
    refine ⟨hi.nodup i, by simp, ?_⟩
    intro x hx y hy hxy
    subst hxy
    obtain ⟨p, b⟩ := x
    have h1 := (hi.mem i p b).1 hx
    simp only [List.mem_cons, Prod.mk.injEq, List.not_mem_nil, or_false] at hy
    rcases hy with ⟨rfl, -⟩ | ⟨rfl, -⟩ <;> exact ho h1
  · rw [hkey, List.mem_append, hi.mem, hR]
    refine or_congr_right ?_
    rcases b with _ | _ <;> simp
  · simp only [IMgr.register, List.mem_append, List.mem_cons, List.not_mem_nil, or_false] at he
    rw [hreg] at hb
    rcases he with he | rfl | rfl
    · have hne : e.obj ≠ o := fun h => ho (h ▸ hi.mem_end he)
      rw [if_neg hne] at hb
      exact hi.vals (hsp ▸ hsf) i e he b hb
    · simp only [if_pos, Option.some.injEq] at hb; rw [← hb]
    · simp only [if_pos, Option.some.injEq] at hb; rw [← hb]
  · rw [hR] at hp; exact hi.unmapped p (fun h => hp (Or.inl h))
  · rw [hse]; rfl
  · rw [hse]; intro f hf; cases hf
  · rw [hse]; intro h; exact absurd rfl h
  · rw [hse]; intro h; exact absurd rfl h
  · rw [hse]; intro f hf; cases hf

/-- The state does not depend on how the same registrations are told. -/
theorem Inv.congr {h h' : List (ICall K O)} {m : IMgr K O} (hi : Inv bot h m) (h1 : ∀ o, regBox o h' = regBox o h)
    (h2 : spoiled h' = spoiled h) (h3 : seen h' = seen h) : Inv bot h' m := by
  have hR : ∀ o, Registered o h' ↔ Registered o h := fun o => by unfold Registered; rw [h1]
  refine ⟨hi.nodup, fun i o b => by rw [hi.mem, hR], fun hs i e he b hb => ?_, fun o ho => ?_, by rw [h3]; exact hi.ready,
    fun f hf o ho => hi.fit f (h3 ▸ hf) o ((hR o).1 ho), fun h => hi.sorted (h3 ▸ h),
    fun h o ho => hi.mapped (h3 ▸ h) o ((hR o).1 ho), fun f hf => ?_⟩
  · exact hi.vals (h2 ▸ hs) i e he b (h1 _ ▸ hb)
  · exact hi.unmapped o (fun h => ho ((hR o).2 h))
  · obtain ⟨ts, e, ht⟩ := hi.trees f (h3 ▸ hf)
    exact ⟨ts, e, fun i => (ht i).congr (fun o => (hR o).symm) (fun _ _ => rfl)⟩

theorem Inv.registerMany {h : List (ICall K O)} {m : IMgr K O} (hi : Inv bot h m) {c : ICall K O} {os : List O}
    (hop : c.op = .registerMany os) (hn : os.Nodup) (ho : ∀ o ∈ os, ¬ Registered o h) :
    Inv bot (h ++ [c]) (os.foldl (IMgr.register c.w) m) := by
  -- one registration after the other
  have key : ∀ (os : List O) (g : List (ICall K O)) (m : IMgr K O), Inv bot g m → os.Nodup → (∀ o ∈ os, ¬ Registered o g) →
      Inv bot (g ++ os.map (fun o => ⟨.register o, c.w, c.srt⟩)) (os.foldl (IMgr.register c.w) m) := by
    intro os
    induction os with
    | nil => intro g m hi _ _; simpa using hi
    | cons o os ih =>
      intro g m hi hn ho
      obtain ⟨h1, h2⟩ := List.nodup_cons.1 hn
      have := ih (g ++ [⟨.register o, c.w, c.srt⟩]) _ (hi.register rfl (ho o (List.mem_cons_self ..))) h2 (fun p hp hreg => by
        unfold Registered at hreg
        rw [regBox_snoc] at hreg
        simp only [regStep] at hreg
        have hne : p ≠ o := fun e => h1 (by rw [← e]; exact hp)
        rw [if_neg hne] at hreg
        exact ho p (List.mem_cons_of_mem _ hp) hreg)
      simpa using this
  refine (key os h m hi hn ho).congr (fun o => ?_) ?_ ?_
  · rw [regBox_snoc]
    simp only [regStep, hop]
    have : ∀ (os : List O) (g : List (ICall K O)), regBox o (g ++ os.map (fun o => (⟨.register o, c.w, c.srt⟩ : ICall K O))) =
        if o ∈ os then some (c.w o) else regBox o g := by
      intro os
      induction os with
      | nil => intro g; simp
      | cons p os ih =>
        intro g
        have := ih (g ++ [⟨.register p, c.w, c.srt⟩])
        rw [List.append_assoc] at this
        rw [List.map_cons, show ∀ (x : ICall K O) l, x :: l = [x] ++ l from fun _ _ => rfl, this, regBox_snoc]
        simp only [regStep, List.mem_cons]
        by_cases h1 : o ∈ os <;> by_cases h2 : o = p <;> simp [h1, h2]
    rw [this]
  · rw [spoiled_snoc, hop]
    simp only
    have : ∀ (os : List O) (g : List (ICall K O)), spoiled (g ++ os.map (fun o => (⟨.register o, c.w, c.srt⟩ : ICall K O))) =
        spoiled g := by
      intro os
      induction os with
      | nil => intro g; simp
      | cons p os ih =>
        intro g
        have := ih (g ++ [⟨.register p, c.w, c.srt⟩])
        rw [List.append_assoc] at this
        rw [List.map_cons, show ∀ (x : ICall K O) l, x :: l = [x] ++ l from fun _ _ => rfl, this, spoiled_snoc]
    rw [this]
  · rw [seen_snoc]
    simp only [seenStep, hop]
    have : ∀ (os : List O) (g : List (ICall K O)), seen (g ++ os.map (fun o => (⟨.register o, c.w, c.srt⟩ : ICall K O))) =
        if os = [] then seen g else none := by
      intro os
      induction os with
      | nil => intro g; simp
      | cons p os ih =>
        intro g
        have := ih (g ++ [⟨.register p, c.w, c.srt⟩])
        rw [List.append_assoc] at this
        rw [List.map_cons, show ∀ (x : ICall K O) l, x :: l = [x] ++ l from fun _ _ => rfl, this, seen_snoc]
        simp [seenStep]
    rw [this]

/-- `update()`. -/
theorem Inv.update {h : List (ICall K O)} {m : IMgr K O} (hi : Inv bot h m) {c : ICall K O} (hop : c.op = .update)
    (hsrt : LawfulSortI c.srt) (hf : ∀ o, Registered o h → Fit bot (c.w o)) :
    ∃ m', m.update bot c.srt c.w = some m' ∧ Inv bot (h ++ [c]) m' := by
  have hreg : ∀ o, regBox o (h ++ [c]) = (regBox o h).map (fun _ => c.w o) := fun o => by
    rw [regBox_snoc]; unfold regStep; rw [hop]
  have hR : ∀ o, Registered o (h ++ [c]) ↔ Registered o h := fun o => by unfold Registered; rw [hreg]; simp
  have hse : seen (h ++ [c]) = some c.w := by rw [seen_snoc]; unfold seenStep; rw [hop]
  set m1 : IMgr K O :=
    { m with ends := (fun i => (m.ends i).map (fun e => { e with val := side (c.w e.obj) e.hi i })), ready := false } with hm1
  have hkey : ∀ i, (m1.ends i).map key = (m.ends i).map key := fun i => by
    simp only [hm1, List.map_map]; rfl
  obtain ⟨m', e, r', ends', map', unm', ts, ets, hts⟩ := setup_spec (m := m1) (R := fun o => Registered o h) hsrt rfl
    (by rw [hkey]; exact hi.nodup 0) (fun o b => by rw [hkey]; exact hi.mem 0 o b) hf
  refine ⟨m', e, ⟨fun i => ?_, fun i o b => ?_, fun hsf i e he b hb => ?_, fun o ho => ?_, ?_, fun f hf' => ?_, fun _ i => ?_,
    fun _ o ho => ?_, fun f hf' => ?_⟩⟩
  · rw [ends']; exact (((hsrt _).1.map key).nodup_iff).2 (by rw [hkey]; exact hi.nodup i)
  · rw [ends', ((hsrt _).1.map key).mem_iff, hkey, hi.mem, hR]
  · rw [ends', (hsrt _).1.mem_iff] at he
    obtain ⟨e', he', rfl⟩ := List.mem_map.1 he
    rw [hreg] at hb
    rcases hx : regBox e'.obj h with _ | x
    · rw [hx] at hb; cases hb
    · rw [hx] at hb; cases hb; rfl
  · rw [hR] at ho
    rw [unm' o ho]; exact hi.unmapped o ho
  · rw [hse, r']; rfl
  · rw [hse] at hf'; cases hf'
    intro o ho; exact hf o ((hR o).1 ho)
  · rw [ends']; exact (hsrt _).2
  · rw [map' o ((hR o).1 ho)]; simp
  · rw [hse] at hf'; cases hf'
    exact ⟨ts, ets, fun i => (hts i).congr (fun o => (hR o).symm) (fun _ _ => rfl)⟩

theorem Inv.clear {h : List (ICall K O)} {m : IMgr K O} {c : ICall K O} (hop : c.op = .clear) :
    Inv bot (h ++ [c]) m.clear := by
  refine Inv.congr (h := []) Inv.empty (fun o => ?_) ?_ ?_
  · rw [regBox_snoc]; unfold regStep; rw [hop]; rfl
  · rw [spoiled_snoc, hop]; rfl
  · rw [seen_snoc]; unfold seenStep; rw [hop]; rfl

/-- The end points of a registered object. -/
theorem Inv.ends_of {h : List (ICall K O)} {m : IMgr K O} (hi : Inv bot h m) {w : O → AABB K} (hst : Still h w) {o : O}
    (ho : Registered o h) (hf : Fit bot (w o)) (i : Fin 3) : Ends i o (w o) (m.ends i) := by
  obtain ⟨b, hb⟩ := Option.ne_none_iff_exists'.1 ho
  have hbw := hst.2 o b hb
  subst hbw
  refine ⟨hi.nodup i, ?_, ?_, (hf i).2⟩
  · obtain ⟨e, he, hk⟩ := List.mem_map.1 ((hi.mem i o false).2 ho)
    simp only [key, Prod.mk.injEq] at hk
    have := hi.vals hst.1 i e he (w o) (by rw [hk.1]; exact hb)
    obtain ⟨p, s, v⟩ := e
    simp only at hk this
    obtain ⟨rfl, rfl⟩ := hk
    rw [this] at he
    exact he
  · obtain ⟨e, he, hk⟩ := List.mem_map.1 ((hi.mem i o true).2 ho)
    simp only [key, Prod.mk.injEq] at hk
    have := hi.vals hst.1 i e he (w o) (by rw [hk.1]; exact hb)
    obtain ⟨p, s, v⟩ := e
    simp only at hk this
    obtain ⟨rfl, rfl⟩ := hk
    rw [this] at he
    exact he

theorem Inv.val_le {h : List (ICall K O)} {m : IMgr K O} (hi : Inv bot h m) {w : O → AABB K} (hst : Still h w)
    (hf : ∀ o, Registered o h → Fit bot (w o)) {i : Fin 3} {e : IEnd K O} (he : e ∈ m.ends i) :
    e.val ≤ (w e.obj).hi.get i := by
  obtain ⟨b, hb⟩ := Option.ne_none_iff_exists'.1 (hi.mem_end he)
  have hbw := hst.2 _ b hb
  subst hbw
  rw [hi.vals hst.1 i e he _ hb]
  unfold side
  split
  · exact le_refl _
  · exact (hf _ (hi.mem_end he) i).2

/-- `unregisterObject` after `setup()` has done its part. -/
theorem Inv.unregister {h : List (ICall K O)} {m m' : IMgr K O} (hi : Inv bot h m) {c : ICall K O} {o : O}
    (hop : c.op = .unregister o) (hc : c.Good bot h) (hm' : m.unregister bot c.srt c.w o = some m') :
    Inv bot (h ++ [c]) m' := by
  obtain ⟨hsrt, hfit, hc⟩ := hc
  rw [hop] at hc
  simp only at hc
  have hreg : ∀ p, regBox p (h ++ [c]) = if p = o then none else regBox p h := fun p => by
    rw [regBox_snoc]; unfold regStep; rw [hop]
  have hR : ∀ p, Registered p (h ++ [c]) ↔ Registered p h ∧ p ≠ o := fun p => by
    unfold Registered; rw [hreg]; split <;> simp [*]
  have hsp : spoiled (h ++ [c]) = spoiled h := by rw [spoiled_snoc, hop]
  have hfit' : ∀ p, Registered p h → Fit bot (c.w p) := fun p hp => by
    by_cases hpo : p = o
    · subst hpo; exact (hc hp).1
    · exact hfit p ((hR p).2 ⟨hp, hpo⟩)
  -- the call of `setup()`
  set c1 : ICall K O := ⟨.setup, c.w, c.srt⟩ with hc1
  obtain ⟨m1, e1, hi1⟩ := hi.setup (c := c1) rfl hsrt hfit'
  have hreg1 : ∀ p, regBox p (h ++ [c1]) = regBox p h := fun p => by rw [regBox_snoc]; rfl
  have hR1 : ∀ p, Registered p (h ++ [c1]) ↔ Registered p h := fun p => by unfold Registered; rw [hreg1]
  have hsp1 : spoiled (h ++ [c1]) = spoiled h := by rw [spoiled_snoc]
  have hse1 : seen (h ++ [c1]) = some ((seen h).getD c.w) := by rw [seen_snoc]; rfl
  have hse : seen (h ++ [c]) = some ((seen h).getD c.w) := by rw [seen_snoc]; unfold seenStep; rw [hop]
  have hne1 : seen (h ++ [c1]) ≠ none := by rw [hse1]; simp
  have hsorted := hi1.sorted hne1
  obtain ⟨ts, ets, hts⟩ := hi1.trees _ hse1
  unfold IMgr.unregister at hm'
  rw [e1] at hm'
  simp only [Option.bind_some] at hm'
  -- the end points
  have hends : ∀ i, dropAxis (c.w o) o i (m1.ends i) = some ((m1.ends i).filter (fun e => decide (e.obj ≠ o))) := by
    intro i
    by_cases ho : Registered o h
    · obtain ⟨hfo, hst, htop⟩ := hc ho
      have hst1 : Still (h ++ [c1]) c.w := ⟨hsp1 ▸ hst.1, fun p b hb => hst.2 p b (hreg1 p ▸ hb)⟩
      refine dropAxis_top (hsorted i) (hi1.ends_of hst1 ((hR1 o).2 ho) hfo i) fun e he => ?_
      exact (hi1.val_le hst1 (fun p hp => hfit' p ((hR1 p).1 hp)) he).trans (htop i _ ((hR1 _).1 (hi1.mem_end he)))
    · have hno : ∀ e ∈ m1.ends i, e.obj ≠ o := fun e he heq => ho (heq ▸ (hR1 _).1 (hi1.mem_end he))
      rw [dropAxis_absent (hsorted i) _ i hno, List.filter_eq_self.2 (fun e he => by simpa using hno e he)]
  rw [onAxes_some.2 hends] at hm'
  simp only [Option.bind_some] at hm'
  have hk : ∀ i, (((m1.ends i).filter (fun e => decide (e.obj ≠ o))).map key).Nodup :=
    fun i => (hi1.nodup i).sublist (List.filter_sublist.map _)
  have hmem : ∀ i p b, (p, b) ∈ ((m1.ends i).filter (fun e => decide (e.obj ≠ o))).map key ↔ Registered p (h ++ [c]) := by
    intro i p b
    rw [hR, ← hR1, ← hi1.mem i p b]
    constructor
    · intro hx
      obtain ⟨e, he, hk⟩ := List.mem_map.1 hx
      obtain ⟨h1, h2⟩ := List.mem_filter.1 he
      refine ⟨List.mem_map.2 ⟨e, h1, hk⟩, ?_⟩
      simp only [key, Prod.mk.injEq] at hk
      rw [← hk.1]; simpa using h2
    · rintro ⟨hx, hpo⟩
      obtain ⟨e, he, hk⟩ := List.mem_map.1 hx
      refine List.mem_map.2 ⟨e, List.mem_filter.2 ⟨he, ?_⟩, hk⟩
      simp only [key, Prod.mk.injEq] at hk
      rw [hk.1]; simpa using hpo
  have hvals : spoiled (h ++ [c]) = false → ∀ i, ∀ e ∈ (m1.ends i).filter (fun e => decide (e.obj ≠ o)), ∀ b,
      regBox e.obj (h ++ [c]) = some b → e.val = side b e.hi i := by
    intro hsf i e he b hb
    obtain ⟨h1, h2⟩ := List.mem_filter.1 he
    rw [hreg, if_neg (by simpa using h2), ← hreg1] at hb
    exact hi1.vals (by rw [hsp1, ← hsp]; exact hsf) i e h1 b hb
  have hready : m1.ready = (seen (h ++ [c])).isSome := by rw [hi1.ready, hse1, hse]
  have hfitS : ∀ f, seen (h ++ [c]) = some f → ∀ p, Registered p (h ++ [c]) → Fit bot (f p) := by
    intro f hf p hp
    exact hi1.fit f (by rw [hse1, ← hse]; exact hf) p ((hR1 p).2 ((hR p).1 hp).1)
  have hsrt' : seen (h ++ [c]) ≠ none → ∀ i, ((m1.ends i).filter (fun e => decide (e.obj ≠ o))).Pairwise
      (fun a b => a.val ≤ b.val) := fun _ i => (hsorted i).sublist List.filter_sublist
  rcases hmo : m1.maps o with _ | x
  · rw [hmo] at hm'
    simp only [Option.some.injEq] at hm'
    subst hm'
    have hno : ¬ Registered o h := fun ho => hi1.mapped hne1 o ((hR1 o).2 ho) hmo
    have hR' : ∀ p, Registered p (h ++ [c1]) ↔ Registered p (h ++ [c]) := fun p => by
      rw [hR, hR1]
      exact ⟨fun hp => ⟨hp, fun e => hno (e ▸ hp)⟩, fun hp => hp.1⟩
    refine ⟨hk, hmem, hvals, fun p hp => hi1.unmapped p (fun h' => hp ((hR' p).1 h')), hready, hfitS, hsrt',
      fun _ p hp => hi1.mapped hne1 p ((hR' p).2 hp), fun f hf => ?_⟩
    rw [hse] at hf; cases hf
    exact ⟨ts, ets, fun i => (hts i).congr hR' (fun _ _ => rfl)⟩
  · rw [hmo, ets] at hm'
    simp only at hm'
    rcases hdel : onAxes (fun i => ITree.delete bot (ts i) o) with _ | ts'
    · rw [hdel] at hm'; cases hm'
    · rw [hdel] at hm'
      simp only [Option.map_some, Option.some.injEq] at hm'
      subst hm'
      have hd := onAxes_some.1 hdel
      refine ⟨hk, hmem, hvals, fun p hp => ?_, hready, hfitS, hsrt', fun _ p hp => ?_, fun f hf => ?_⟩
      · by_cases hpo : p = o
        · simp [hpo]
        · simp only [hpo, if_false]
          exact hi1.unmapped p (fun h' => hp ((hR p).2 ⟨(hR1 p).1 h', hpo⟩))
      · simp only [((hR p).1 hp).2, if_false]
        exact hi1.mapped hne1 p ((hR1 p).2 ((hR p).1 hp).1)
      · rw [hse] at hf; cases hf
        exact ⟨ts', rfl, fun i => ((hts i).delete (hd i)).1.congr (fun p => by rw [hR, hR1]) (fun _ _ => rfl)⟩

/-- `update(obj)`. -/
theorem Inv.updateObj {h : List (ICall K O)} {m m' : IMgr K O} (hi : Inv bot h m) {c : ICall K O} {o : O}
    (hop : c.op = .updateObj o) (hsrt : LawfulSortI c.srt) (hf : ∀ p, Registered p h → Fit bot (c.w p))
    (hm' : m.updateObj bot c.srt c.w o = some m') : Inv bot (h ++ [c]) m' := by
  have hreg : ∀ p, regBox p (h ++ [c]) = regBox p h := fun p => by rw [regBox_snoc]; unfold regStep; rw [hop]
  have hR : ∀ p, Registered p (h ++ [c]) ↔ Registered p h := fun p => by unfold Registered; rw [hreg]
  have hsp : spoiled (h ++ [c]) = true := by rw [spoiled_snoc, hop]
  have hse : seen (h ++ [c]) = (seen h).map (fun g p => if p = o then c.w p else g p) := by
    rw [seen_snoc]; unfold seenStep; rw [hop]
  unfold IMgr.updateObj at hm'
  split at hm'
  · rename_i old ts hmo hts
    rcases h1 : onAxes (fun i => (ITree.delete bot (ts i) o).bind fun t =>
        ITree.insert bot t ⟨o, (c.w o).lo.get i, (c.w o).hi.get i⟩) with _ | ts'
    · rw [h1] at hm'; cases hm'
    · rw [h1] at hm'
      simp only [Option.bind_some] at hm'
      rcases h2 : onAxes (fun i => moveEnds c.srt old (c.w o) o i (m.ends i)) with _ | e
      · rw [h2] at hm'; cases hm'
      · rw [h2] at hm'
        simp only [Option.map_some, Option.some.injEq] at hm'
        subst hm'
        have hE := onAxes_some.1 h2
        have hT := onAxes_some.1 h1
        have ho : Registered o h := by
          by_contra hno
          rw [hi.unmapped o hno] at hmo; cases hmo
        refine ⟨fun i => ?_, fun i p b => ?_, fun hsf => ?_, fun p hp => ?_, ?_, fun f hf' p hp => ?_, fun _ i => ?_,
          fun hs p hp => ?_, fun f hf' => ?_⟩
        · exact ((moveEnds_key hsrt (hE i)).1.nodup_iff).2 (hi.nodup i)
        · show (p, b) ∈ (e i).map key ↔ _
          rw [(moveEnds_key hsrt (hE i)).1.mem_iff, hi.mem, hR]
        · rw [hsp] at hsf; cases hsf
        · rw [hR] at hp
          have hpo : p ≠ o := fun h => hp (h ▸ ho)
          simp only [hpo, if_false]
          exact hi.unmapped p hp
        · rw [hse, Option.isSome_map]; exact hi.ready
        · rw [hse] at hf'
          rcases hs : seen h with _ | g
          · rw [hs] at hf'; cases hf'
          · rw [hs] at hf'; cases hf'
            simp only
            split
            · exact hf p ((hR p).1 hp)
            · exact hi.fit g hs p ((hR p).1 hp)
        · exact (moveEnds_key hsrt (hE i)).2
        · simp only
          split
          · simp
          · refine hi.mapped (fun h => hs ?_) p ((hR p).1 hp)
            rw [hse, h]; rfl
        · rw [hse] at hf'
          rcases hs : seen h with _ | g
          · rw [hs] at hf'; cases hf'
          · rw [hs] at hf'; cases hf'
            obtain ⟨ts0, ets, hH⟩ := hi.trees g hs
            rw [hts] at ets
            obtain rfl := Option.some.inj ets
            refine ⟨ts', rfl, fun i => ?_⟩
            have hti := hT i
            rcases hd : ITree.delete bot (ts i) o with _ | t
            · rw [hd] at hti; cases hti
            · rw [hd] at hti
              simp only [Option.bind_some] at hti
              obtain ⟨hH1, -⟩ := (hH i).delete hd
              have hfo := hf o ho i
              obtain ⟨t', e', hH2⟩ := hH1.insert (o := o) (by simp) (c.w o) (hfo.1.trans_le hfo.2).le
              rw [e'] at hti
              obtain rfl := Option.some.inj hti
              refine hH2.congr (fun p => ?_) (fun p _ => ?_)
              · rw [hR]
                constructor
                · rintro (hp | rfl)
                  · exact hp.1
                  · exact ho
                · intro hp
                  by_cases hpo : p = o
                  · exact Or.inr hpo
                  · exact Or.inl ⟨hp, hpo⟩
              · by_cases hpo : p = o
                · subst hpo; simp
                · simp [hpo]
  · cases hm'

/-- `update(objs)`. -/
theorem Inv.updateObjs {h : List (ICall K O)} {m m' : IMgr K O} (hi : Inv bot h m) {c : ICall K O} {os : List O}
    (hop : c.op = .updateObjs os) (hsrt : LawfulSortI c.srt) (hf : ∀ p, Registered p h → Fit bot (c.w p))
    (hm' : IMgr.updateObjs bot c.srt c.w os m = some m') : Inv bot (h ++ [c]) m' := by
  have key : ∀ (os : List O) (g : List (ICall K O)) (m m' : IMgr K O), Inv bot g m →
      (∀ p, Registered p g → Fit bot (c.w p)) → IMgr.updateObjs bot c.srt c.w os m = some m' →
      Inv bot (g ++ os.map (fun o => ⟨.updateObj o, c.w, c.srt⟩)) m' := by
    intro os
    induction os with
    | nil => intro g m m' hi _ e; cases e; simpa using hi
    | cons o os ih =>
      intro g m m' hi hf e
      rw [IMgr.updateObjs] at e
      rcases h1 : m.updateObj bot c.srt c.w o with _ | m1
      · rw [h1] at e; cases e
      · rw [h1] at e
        have h2 := hi.updateObj (c := ⟨.updateObj o, c.w, c.srt⟩) rfl hsrt hf h1
        have := ih _ m1 m' h2 (fun p hp => hf p (by
          unfold Registered at hp ⊢
          rw [regBox_snoc] at hp
          exact hp)) e
        simpa using this
  refine (key os h m m' hi hf hm').congr (fun o => ?_) ?_ ?_
  · rw [regBox_snoc]
    simp only [regStep, hop]
    have : ∀ (os : List O) (g : List (ICall K O)), regBox o (g ++ os.map (fun o => (⟨.updateObj o, c.w, c.srt⟩ : ICall K O))) =
        regBox o g := by
      intro os
      induction os with
      | nil => intro g; simp
      | cons p os ih =>
        intro g
        have := ih (g ++ [⟨.updateObj p, c.w, c.srt⟩])
        rw [List.append_assoc] at this
        rw [List.map_cons, show ∀ (x : ICall K O) l, x :: l = [x] ++ l from fun _ _ => rfl, this, regBox_snoc]
        rfl
    rw [this]
  · rw [spoiled_snoc, hop]
    simp only
    have : ∀ (os : List O) (g : List (ICall K O)), spoiled (g ++ os.map (fun o => (⟨.updateObj o, c.w, c.srt⟩ : ICall K O))) =
        (spoiled g || !os.isEmpty) := by
      intro os
      induction os with
      | nil => intro g; simp
      | cons p os ih =>
        intro g
        have := ih (g ++ [⟨.updateObj p, c.w, c.srt⟩])
        rw [List.append_assoc] at this
        rw [List.map_cons, show ∀ (x : ICall K O) l, x :: l = [x] ++ l from fun _ _ => rfl, this, spoiled_snoc]
        simp
    rw [this]
  · rw [seen_snoc]
    simp only [seenStep, hop]
    have : ∀ (os : List O) (g : List (ICall K O)), seen (g ++ os.map (fun o => (⟨.updateObj o, c.w, c.srt⟩ : ICall K O))) =
        (seen g).map (fun f p => if p ∈ os then c.w p else f p) := by
      intro os
      induction os with
      | nil => intro g; simp
      | cons p os ih =>
        intro g
        have := ih (g ++ [⟨.updateObj p, c.w, c.srt⟩])
        rw [List.append_assoc] at this
        rw [List.map_cons, show ∀ (x : ICall K O) l, x :: l = [x] ++ l from fun _ _ => rfl, this, seen_snoc]
        simp only [seenStep, Option.map_map]
        congr 1
        funext f q
        simp only [Function.comp, List.mem_cons]
        by_cases h1 : q ∈ os <;> by_cases h2 : q = p <;> simp [h1, h2]
    rw [this]

/-- The invariant holds after every history. -/
theorem History.inv {h : List (ICall K O)} (hh : History bot h) {m : IMgr K O} (hr : run bot h = some m) : Inv bot h m := by
  induction hh generalizing m with
  | nil => cases hr; exact Inv.empty
  | @snoc h c hh hc ih =>
    rw [run_snoc] at hr
    rcases hm0 : run bot h with _ | m0
    · rw [hm0] at hr; cases hr
    · rw [hm0] at hr
      simp only [Option.bind_some] at hr
      have hi := ih hm0
      have hc0 := hc
      obtain ⟨hsrt, hfit, hc⟩ := hc
      have hfit' : (∀ o, regBox o h ≠ none → regBox o (h ++ [c]) ≠ none) → ∀ o, Registered o h → Fit bot (c.w o) :=
        fun hsub o ho => hfit o (hsub o ho)
      rcases hop : c.op with o | os | o | _ | _ | o | os | _ <;> rw [hop] at hr hc <;> simp only [step] at hr hc
      · cases hr; exact hi.register hop hc
      · cases hr; exact hi.registerMany hop hc.1 hc.2
      · exact hi.unregister hop hc0 hr
      · obtain ⟨m', e, h'⟩ := hi.setup hop hsrt (hfit' fun o ho => by
          rw [regBox_snoc]; unfold regStep; rw [hop]; exact ho)
        rw [e] at hr; cases hr; exact h'
      · obtain ⟨m', e, h'⟩ := hi.update hop hsrt (hfit' fun o ho => by
          rw [regBox_snoc]; unfold regStep; rw [hop]; simpa using ho)
        rw [e] at hr; cases hr; exact h'
      · exact hi.updateObj hop hsrt (hfit' fun o ho => by
          rw [regBox_snoc]; unfold regStep; rw [hop]; exact ho) hr
      · exact hi.updateObjs hop hsrt (hfit' fun o ho => by
          rw [regBox_snoc]; unfold regStep; rw [hop]; exact ho) hr
      · cases hr; exact Inv.clear hop

/-- Histories without `unregisterObject` and `update(obj)` have defined behaviour throughout. -/
theorem History.run_total {h : List (ICall K O)} (hh : History bot h)
    (hops : ∀ c ∈ h, (∀ o, c.op ≠ .unregister o) ∧ (∀ o, c.op ≠ .updateObj o) ∧ ∀ os, c.op ≠ .updateObjs os) :
    ∃ m, run bot h = some m := by
  induction hh with
  | nil => exact ⟨_, rfl⟩
  | @snoc h c hh hc ih =>
    obtain ⟨m0, hm0⟩ := ih (fun c' hc' => hops c' (List.mem_append_left _ hc'))
    have hi := hh.inv hm0
    rw [run_snoc, hm0]
    simp only [Option.bind_some]
    obtain ⟨hsrt, hfit, hc⟩ := hc
    obtain ⟨n1, n2, n3⟩ := hops c (by simp)
    have hfit' : (∀ o, regBox o h ≠ none → regBox o (h ++ [c]) ≠ none) → ∀ o, Registered o h → Fit bot (c.w o) :=
      fun hsub o ho => hfit o (hsub o ho)
    rcases hop : c.op with o | os | o | _ | _ | o | os | _ <;> simp only [step]
    · exact ⟨_, rfl⟩
    · exact ⟨_, rfl⟩
    · exact absurd hop (n1 o)
    · obtain ⟨m', e, -⟩ := hi.setup hop hsrt (hfit' fun o ho => by
        rw [regBox_snoc]; unfold regStep; rw [hop]; exact ho)
      exact ⟨m', e⟩
    · obtain ⟨m', e, -⟩ := hi.update hop hsrt (hfit' fun o ho => by
        rw [regBox_snoc]; unfold regStep; rw [hop]; simpa using ho)
      exact ⟨m', e⟩
    · exact absurd hop (n2 o)
    · exact absurd hop (n3 os)
    · exact ⟨_, rfl⟩

end IMgr
end Fcl
