import Verif.IMgr.Sweep
import Verif.Search.Lemmas
import Verif.Props.IntervalTree

/-!
# The interval tree manager: C13, C21, C22, C24, C67, C68
-/

set_option linter.unusedSectionVars false

namespace Fcl
open IMgr
open ITree (Ivl St toList visit hit)

variable {K O : Type*} [LinearOrder K] [LinearOrder O] {bot : K}

/-! ## The candidates of a query -/

theorem visit_sub {bot lo hi : K} {t : ITree.T K O} {a : Ivl K O} (h : a ∈ visit bot lo hi t) : a ∈ toList t := by
  induction t with
  | nil => simp [visit] at h
  | node l d r ihl ihr =>
    simp only [toList]
    rw [visit, List.mem_append] at h
    rcases h with h | h
    · split at h
      · simp at h; subst h; simp
      · simp at h
    · split at h
      · rcases List.mem_append.1 h with h | h
        · exact List.mem_append_left _ (ihl h)
        · split at h
          · simp at h
          · exact List.mem_append_right _ (List.mem_cons_of_mem _ (ihr h))
      · exact List.mem_append_right _ (List.mem_cons_of_mem _ (ihr h))

theorem pick_eq (ts : Fin 3 → St K O) (b : AABB K) :
    ∃ i, pick bot ts b = some (visit bot (b.lo.get i) (b.hi.get i) (ts i).t) := by
  unfold pick
  rw [ITree.query_eq_visit, ITree.query_eq_visit, ITree.query_eq_visit]
  simp only
  split_ifs
  · exact ⟨0, rfl⟩
  · exact ⟨1, rfl⟩
  · exact ⟨2, rfl⟩
  · exact ⟨2, rfl⟩
  · exact ⟨1, rfl⟩
  · exact ⟨0, rfl⟩

theorem axis_get {a b : AABB K} : a.overlap b = true ↔ ∀ i, a.lo.get i ≤ b.hi.get i ∧ b.lo.get i ≤ a.hi.get i := by
  rw [AABB.overlap_iff]
  constructor
  · rintro ⟨h0, h1, h2⟩ i
    fin_cases i
    · exact h0
    · exact h1
    · exact h2
  · intro h
    exact ⟨h 0, h 1, h 2⟩

/-- The candidates are registered; for a box above `bot` they are all different and include what overlaps it. -/
theorem cands_spec {h : List (ICall K O)} {m : IMgr K O} (hi : IMgr.Inv bot h m) {w : O → AABB K} (hw : Current h w)
    (b : AABB K) : ∃ l, m.cands bot b = some l ∧ (∀ o ∈ l, Registered o h) ∧
      ((∀ i : Fin 3, bot < b.lo.get i) → l.Nodup ∧ ∀ o, Registered o h → (w o).overlap b = true → o ∈ l) := by
  obtain ⟨f, hf, hfw⟩ := hw
  obtain ⟨ts, hts, hH⟩ := hi.trees f hf
  obtain ⟨i, hp⟩ := pick_eq (bot := bot) ts b
  refine ⟨_, by unfold cands; rw [hts]; simp only [hp, Option.map_some]; rfl, ?_, fun hb => ?_⟩
  · intro o ho
    obtain ⟨a, ha, rfl⟩ := List.mem_map.1 ho
    exact (((hH i).mem a).1 (visit_sub ha)).1
  · have hv := ITree.visit_perm (hi := b.hi.get i) (hb i) (hH i).inv.aug (hH i).inv.sorted (fun a ha => by
      obtain ⟨h1, h2, h3⟩ := ((hH i).mem a).1 ha
      rw [h2, h3]
      exact (hi.fit f hf _ h1 i).2)
    refine ⟨((hv.map _).nodup_iff).2 ((hH i).nodup.sublist (List.filter_sublist.map _)), fun o ho hov => ?_⟩
    have hov' := axis_get.1 hov i
    rw [← hfw o ho] at hov'
    refine List.mem_map.2 ⟨⟨o, (f o).lo.get i, (f o).hi.get i⟩, hv.mem_iff.2 (List.mem_filter.2
      ⟨((hH i).mem _).2 ⟨ho, rfl, rfl⟩, ?_⟩), rfl⟩
    simp only [hit, ITree.overlap]
    split
    · exact decide_eq_true hov'.1
    · exact decide_eq_true hov'.2

theorem checkColl_eq {σ : Type*} (w : O → AABB K) (cb : CB σ O) (q : O) (l : List O) (s : σ) :
    checkColl w cb q l s =
      runUntil cb s ((l.filter (fun o => decide (o ≠ q) && (w o).overlap (w q))).map (fun o => (o, q))) := by
  induction l generalizing s with
  | nil => rfl
  | cons o l ih =>
    rw [checkColl]
    by_cases h1 : o ≠ q
    · rw [if_pos h1]
      by_cases h2 : (w o).overlap (w q) = true
      · rw [if_pos h2, List.filter_cons_of_pos (by simp [h1, h2]), List.map_cons, runUntil]
        simp only
        split
        · rfl
        · exact ih _
      · rw [if_neg h2, List.filter_cons_of_neg (by simp [h2]), ih]
    · rw [if_neg h1, List.filter_cons_of_neg (by simp [h1]), ih]

/-- One query, for every callback. -/
theorem IMgr.collideQ_spec.{v} {h : List (ICall K O)} {m : IMgr K O} (hi : IMgr.Inv bot h m) {w : O → AABB K}
    (hw : Current h w) (q : O) (hq : ∀ i : Fin 3, bot < (w q).lo.get i) :
    ∃ l : List O, l.Nodup ∧ (∀ o, o ∈ l ↔ Registered o h ∧ o ≠ q ∧ (w o).overlap (w q) = true) ∧
      ∀ (σ : Type v) (cb : CB σ O) (s : σ), m.collideQ bot w cb q s = some (runUntil cb s (l.map (fun o => (o, q)))) := by
  obtain ⟨l, e, h1, h2⟩ := cands_spec hi hw (w q)
  obtain ⟨h3, h4⟩ := h2 hq
  refine ⟨l.filter (fun o => decide (o ≠ q) && (w o).overlap (w q)), h3.filter _, fun o => ?_, fun σ cb s => ?_⟩
  · rw [List.mem_filter, Bool.and_eq_true, decide_eq_true_eq]
    exact ⟨fun h => ⟨h1 o h.1, h.2⟩, fun h => ⟨h4 o h.1 h.2.2, h.2⟩⟩
  · unfold collideQ
    rw [e]
    simp only [checkColl_eq]

/-! ## What is registered -/

/-- The objects in the order of their lower, or upper, end points on the first axis. -/
def IMgr.objs (m : IMgr K O) (hi : Bool) : List O := ((m.ends 0).filter (fun e => decide (e.hi = hi))).map (·.obj)

theorem IMgr.objs_spec {h : List (ICall K O)} {m : IMgr K O} (hi : IMgr.Inv bot h m) (b : Bool) :
    (m.objs b).Nodup ∧ ∀ o, o ∈ m.objs b ↔ Registered o h := by
  have h2 : (((m.ends 0).filter (fun e => decide (e.hi = b))).map key).Nodup :=
    (hi.nodup 0).sublist (List.filter_sublist.map _)
  refine ⟨List.Nodup.map_on (fun x hx y hy hxy => key_inj h2 hx hy ?_) (List.Nodup.of_map _ h2), fun o => ?_⟩
  · have h3 := (List.mem_filter.1 hx).2
    have h4 := (List.mem_filter.1 hy).2
    rw [decide_eq_true_eq] at h3 h4
    simp [key, hxy, h3, h4]
  · rw [← hi.mem 0 o b]
    constructor
    · intro ho
      obtain ⟨e, he, rfl⟩ := List.mem_map.1 ho
      obtain ⟨h3, h4⟩ := List.mem_filter.1 he
      rw [decide_eq_true_eq] at h4
      exact List.mem_map.2 ⟨e, h3, by simp [key, h4]⟩
    · intro ho
      obtain ⟨e, he, hk⟩ := List.mem_map.1 ho
      simp only [key, Prod.mk.injEq] at hk
      exact List.mem_map.2 ⟨e, List.mem_filter.2 ⟨he, by simp [hk.2]⟩, hk.1⟩

theorem IMgr.objs_perm (m : IMgr K O) : ((m.ends 0).map (·.obj)).Perm (m.objs false ++ m.objs true) := by
  unfold objs
  rw [← List.map_append]
  refine List.Perm.map _ ?_
  have := List.filter_append_perm (fun e : IEnd K O => decide (e.hi = false)) (m.ends 0)
  refine this.symm.trans ?_
  refine List.Perm.of_eq ?_
  congr 1
  refine List.filter_congr fun e _ => ?_
  cases e.hi <;> rfl

theorem IMgr.size_spec {h : List (ICall K O)} {m : IMgr K O} (hi : IMgr.Inv bot h m) :
    (m.ends 0).length = 2 * (m.objs false).length := by
  have h1 := (objs_perm m).length_eq
  have h2 : (m.objs true).Perm (m.objs false) :=
    (List.perm_ext_iff_of_nodup (objs_spec hi true).1 (objs_spec hi false).1).2
      fun o => by rw [(objs_spec hi true).2, (objs_spec hi false).2]
  rw [List.length_map, List.length_append, h2.length_eq] at h1
  omega

theorem IMgr.size_zero {h : List (ICall K O)} {m : IMgr K O} (hi : IMgr.Inv bot h m) :
    m.size = 0 ↔ ∀ o, ¬ Registered o h := by
  unfold IMgr.size
  rw [size_spec hi]
  constructor
  · intro h0 o ho
    have := ((objs_spec hi false).2 o).2 ho
    rw [List.length_eq_zero_iff.1 (by omega : (m.objs false).length = 0)] at this
    simp at this
  · intro h0
    have : m.objs false = [] := by
      rw [List.eq_nil_iff_forall_not_mem]
      intro o ho
      exact h0 o (((objs_spec hi false).2 o).1 ho)
    rw [this]; simp

/-- C68 (part). After every history of the kind described at `ICall.Good`, `getObjects`, `size` and `empty` agree on
a list with every registered object once. Missing: unregistering an object beyond which another one reaches, where
it fails (`C22_iff`). -/
theorem C68_partial {h : List (ICall K O)} (hh : History bot h) {m : IMgr K O} (hr : run bot h = some m) :
    ∃ l : List O, l.Nodup ∧ (∀ o, o ∈ l ↔ Registered o h) ∧ m.getObjects = some (l.map some) ∧ m.size = l.length ∧
      (m.isEmpty = true ↔ l = []) := by
  have hi := hh.inv hr
  have hs := size_spec hi
  have hl : ((m.ends 0).filter (fun p => !p.hi)).map (·.obj) = m.objs false := by
    unfold IMgr.objs
    congr 1
    refine List.filter_congr fun e _ => ?_
    cases e.hi <;> rfl
  refine ⟨m.objs false, (objs_spec hi false).1, (objs_spec hi false).2, ?_, ?_, ?_⟩
  · unfold getObjects
    simp only
    rw [hl, hs, if_pos (by omega)]
    simp
  · unfold IMgr.size; rw [hs]; omega
  · unfold IMgr.isEmpty
    rw [List.isEmpty_iff_length_eq_zero, hs, ← List.length_eq_zero_iff]
    omega

/-- C13 for the interval tree manager: after every such history that ends with a manager that is set up and has been
told where things are, `collide(obj)` calls back exactly the registered objects other than the query object whose box
overlaps the query box, each once, until the callback says stop. The query box lies above `-DBL_MAX`. -/
theorem C13_interval.{v} {h : List (ICall K O)} (hh : History bot h) {m : IMgr K O} (hr : run bot h = some m)
    {w : O → AABB K} (hw : Current h w) (q : O) (hq : ∀ i : Fin 3, bot < (w q).lo.get i) :
    ∃ l : List O, l.Nodup ∧ (∀ o, o ∈ l ↔ Registered o h ∧ o ≠ q ∧ (w o).overlap (w q) = true) ∧
      ∀ (σ : Type v) (cb : CB σ O) (s : σ),
        m.collideObj bot w cb q s = some (runUntil cb s (l.map (fun o => (o, q)))).1 := by
  have hi := hh.inv hr
  obtain ⟨l, l1, l2, l3⟩ := collideQ_spec.{_, _, v} hi hw q hq
  refine ⟨l, l1, l2, fun σ cb s => ?_⟩
  unfold collideObj
  split
  · rename_i h0
    have : l = [] := by
      rw [List.eq_nil_iff_forall_not_mem]
      intro o ho
      exact (size_zero hi).1 h0 o ((l2 o).1 ho).1
    rw [this]; rfl
  · rw [l3]

/-- C24 for the interval tree manager: after `clear()` it is a new manager. -/
theorem C24_interval {h : List (ICall K O)} {m : IMgr K O} (hr : run bot h = some m) (c : ICall K O)
    (hc : c.op = .clear) : run bot (h ++ [c]) = some IMgr.empty := by
  rw [run_snoc, hr, Option.bind_some, hc]
  rfl

/-- Histories without `unregisterObject` and `update(obj)` never leave the model. -/
theorem C24_interval_total {h : List (ICall K O)} (hh : History bot h)
    (hops : ∀ c ∈ h, (∀ o, c.op ≠ .unregister o) ∧ (∀ o, c.op ≠ .updateObj o) ∧ ∀ os, c.op ≠ .updateObjs os) :
    ∃ m, run bot h = some m := hh.run_total hops

/-! ## Two managers -/

theorem collideEach_eq.{v} {m : IMgr K O} {w : O → AABB K} (qs : List O) (f : O → List O)
    (hf : ∀ q ∈ qs, ∀ (σ : Type v) (cb : CB σ O) (s : σ),
      m.collideQ bot w cb q s = some (runUntil cb s ((f q).map (fun o => (o, q)))))
    {σ : Type v} (cb : CB σ O) (s : σ) :
    m.collideEach bot w cb qs s = some (runUntil cb s (qs.flatMap (fun q => (f q).map (fun o => (o, q))))) := by
  induction qs generalizing s with
  | nil => rfl
  | cons q qs ih =>
    rw [collideEach, hf q (List.mem_cons_self ..), List.flatMap_cons, runUntil_append]
    simp only
    unfold andThen
    split
    · rename_i h; rw [← h]
    · exact ih (fun q hq => hf q (List.mem_cons_of_mem _ hq)) _

theorem count_flatMap_pairs (qs : List O) (f : O → List O) (hf : ∀ q, (f q).Nodup) (a q : O) (ha : a ∈ f q) :
    (qs.flatMap (fun q => (f q).map (fun o => (o, q)))).count (a, q) = qs.count q := by
  induction qs with
  | nil => rfl
  | cons x qs ih =>
    rw [List.flatMap_cons, List.count_append, ih, List.count_cons]
    by_cases hx : x = q
    · subst hx
      have : ((f x).map (fun o => (o, x))).count (a, x) = 1 := by
        refine List.count_eq_one_of_mem ((hf x).map (fun a b h => (Prod.mk.inj h).1)) (List.mem_map.2 ⟨a, ha, rfl⟩)
      rw [this]; simp; omega
    · have : ((f x).map (fun o => (o, x))).count (a, q) = 0 := by
        rw [List.count_eq_zero]
        intro hm
        obtain ⟨y, -, hy⟩ := List.mem_map.1 hm
        exact hx (Prod.mk.inj hy).2
      rw [this]; simp [hx]

/-- One direction of the query with another manager: `m` is searched for the objects of `m'`. -/
theorem IMgr.collideEach_twice.{v} {h h' : List (ICall K O)} {m m' : IMgr K O} (hi : IMgr.Inv bot h m)
    (hi' : IMgr.Inv bot h' m') {w : O → AABB K} (hw : Current h w) (hw' : Current h' w) :
    ∃ l : List (O × O), (∀ p ∈ l, Registered p.1 h ∧ Registered p.2 h' ∧ p.1 ≠ p.2 ∧ (w p.1).overlap (w p.2) = true) ∧
      (∀ a b, Registered a h → Registered b h' → a ≠ b → (w a).overlap (w b) = true → l.count (a, b) = 2) ∧
      ∀ (σ : Type v) (cb : CB σ O) (s : σ),
        m.collideEach bot w cb ((m'.ends 0).map (·.obj)) s = some (runUntil cb s l) := by
  obtain ⟨f', hf', hfw'⟩ := hw'
  have hq : ∀ q, ∃ l : List O, Registered q h' →
      l.Nodup ∧ (∀ o, o ∈ l ↔ Registered o h ∧ o ≠ q ∧ (w o).overlap (w q) = true) ∧
      ∀ (σ : Type v) (cb : CB σ O) (s : σ), m.collideQ bot w cb q s = some (runUntil cb s (l.map (fun o => (o, q)))) := by
    intro q
    by_cases hqr : Registered q h'
    · obtain ⟨l, hl⟩ := collideQ_spec.{_, _, v} hi hw q (fun i => by rw [← hfw' q hqr]; exact (hi'.fit f' hf' q hqr i).1)
      exact ⟨l, fun _ => hl⟩
    · exact ⟨[], fun h => absurd h hqr⟩
  classical
  choose g0 hg0 using hq
  -- outside the registered objects the list does not matter
  set g : O → List O := fun q => if Registered q h' then g0 q else [] with hg
  have hgr : ∀ q, Registered q h' → g q = g0 q := fun q hq => if_pos hq
  have hqs : ∀ q, q ∈ (m'.ends 0).map (·.obj) ↔ Registered q h' := fun q => by
    rw [(objs_perm m').mem_iff, List.mem_append, (objs_spec hi' false).2, (objs_spec hi' true).2]
    exact or_self_iff
  have hcount : ∀ q, Registered q h' → ((m'.ends 0).map (·.obj)).count q = 2 := fun q hq => by
    rw [(objs_perm m').count_eq, List.count_append,
      List.count_eq_one_of_mem (objs_spec hi' false).1 (((objs_spec hi' false).2 q).2 hq),
      List.count_eq_one_of_mem (objs_spec hi' true).1 (((objs_spec hi' true).2 q).2 hq)]
  refine ⟨((m'.ends 0).map (·.obj)).flatMap (fun q => (g q).map (fun o => (o, q))), ?_, ?_, ?_⟩
  · intro p hp
    obtain ⟨q, hq, hp⟩ := List.mem_flatMap.1 hp
    obtain ⟨o, ho, rfl⟩ := List.mem_map.1 hp
    have hq' := (hqs q).1 hq
    rw [hgr q hq'] at ho
    obtain ⟨h1, h2, h3⟩ := ((hg0 q hq').2.1 o).1 ho
    exact ⟨h1, hq', h2, h3⟩
  · intro a b ha hb hab hov
    rw [count_flatMap_pairs _ g _ a b, hcount b hb]
    · rw [hgr b hb]; exact ((hg0 b hb).2.1 a).2 ⟨ha, hab, hov⟩
    · intro q
      by_cases hqr : Registered q h'
      · rw [hgr q hqr]; exact (hg0 q hqr).1
      · rw [hg]; simp only [if_neg hqr]; exact List.nodup_nil
  · intro σ cb s
    exact collideEach_eq _ g (fun q hq => by
      have hq' := (hqs q).1 hq
      rw [hgr q hq']; exact (hg0 q hq').2.2) cb s

/-- C67 fails: for two set-up managers without a common object, `collide(other_manager)` calls back every overlapping
pair of objects exactly twice (if the callback never says stop), and no other pair. -/
theorem C67_violated.{v} {h h' : List (ICall K O)} (hh : History bot h) (hh' : History bot h') {m m' : IMgr K O}
    (hr : run bot h = some m) (hr' : run bot h' = some m') {w : O → AABB K} (hw : Current h w) (hw' : Current h' w)
    (hdis : ∀ o, Registered o h → ¬ Registered o h') :
    ∃ l : List (O × O),
      (∀ p ∈ l, (Registered p.1 h ∧ Registered p.2 h' ∨ Registered p.1 h' ∧ Registered p.2 h) ∧
        (w p.1).overlap (w p.2) = true) ∧
      (∀ a b, Registered a h → Registered b h' → (w a).overlap (w b) = true → l.count (a, b) + l.count (b, a) = 2) ∧
      ∀ (σ : Type v) (cb : CB σ O) (s : σ), collideOther bot w m m' cb s = some (runUntil cb s l).1 := by
  have hi := hh.inv hr
  have hi' := hh'.inv hr'
  have hcomm : ∀ a b : AABB K, a.overlap b = true → b.overlap a = true := fun a b hab =>
    axis_get.2 fun i => ⟨(axis_get.1 hab i).2, (axis_get.1 hab i).1⟩
  by_cases h0 : m.size = 0 ∨ m'.size = 0
  · refine ⟨[], by simp, fun a b ha hb => ?_, fun σ cb s => ?_⟩
    · rcases h0 with h0 | h0
      · exact absurd ha ((size_zero hi).1 h0 a)
      · exact absurd hb ((size_zero hi').1 h0 b)
    · unfold collideOther; rw [if_pos h0]; rfl
  · by_cases hlt : m.size < m'.size
    · obtain ⟨l, l1, l2, l3⟩ := collideEach_twice.{_, _, v} hi' hi hw' hw
      refine ⟨l, fun p hp => ⟨Or.inr ⟨(l1 p hp).1, (l1 p hp).2.1⟩, (l1 p hp).2.2.2⟩, fun a b ha hb hov => ?_,
        fun σ cb s => ?_⟩
      · have hne : b ≠ a := fun e => hdis a ha (e ▸ hb)
        rw [l2 b a hb ha hne (hcomm _ _ hov), List.count_eq_zero_of_not_mem]
        intro hm
        exact hdis a ha (l1 _ hm).1
      · unfold collideOther; rw [if_neg h0, if_pos hlt, l3]
    · obtain ⟨l, l1, l2, l3⟩ := collideEach_twice.{_, _, v} hi hi' hw hw'
      refine ⟨l, fun p hp => ⟨Or.inl ⟨(l1 p hp).1, (l1 p hp).2.1⟩, (l1 p hp).2.2.2⟩, fun a b ha hb hov => ?_,
        fun σ cb s => ?_⟩
      · have hne : a ≠ b := fun e => hdis a ha (e ▸ hb)
        rw [l2 a b ha hb hne hov, List.count_eq_zero_of_not_mem]
        intro hm
        exact hdis b (l1 _ hm).1 hb
      · unfold collideOther; rw [if_neg h0, if_neg hlt, l3]

/-! ## Self-collision -/

theorem axisOverlap_iff' {a b : AABB K} {i : Fin 3} :
    a.axisOverlap b i = true ↔ a.lo.get i ≤ b.hi.get i ∧ b.lo.get i ≤ a.hi.get i := by
  unfold AABB.axisOverlap
  split_ifs <;> simp_all

theorem overlap_split {a b : AABB K} (ax : Fin 3) : a.overlap b = true ↔
    (a.lo.get ax ≤ b.hi.get ax ∧ b.lo.get ax ≤ a.hi.get ax) ∧ a.axisOverlap b (ax + 1) = true ∧
      a.axisOverlap b (ax + 2) = true := by
  rw [axis_get, axisOverlap_iff', axisOverlap_iff']
  constructor
  · intro h; exact ⟨h _, h _, h _⟩
  · rintro ⟨h0, h1, h2⟩ i
    have : i = ax ∨ i = ax + 1 ∨ i = ax + 2 := by clear h0 h1 h2; revert i ax; decide
    rcases this with rfl | rfl | rfl
    · exact h0
    · exact h1
    · exact h2

theorem collideSelf_eq {h : List (ICall K O)} {m : IMgr K O} (hi : IMgr.Inv bot h m) (w : O → AABB K) (ax : Fin 3)
    {σ : Type*} (cb : CB σ O) (s : σ) :
    m.collideSelf w ax cb s = some (runUntil cb s (calls w ax (m.ends ax) [])).1 := by
  have hlen : (m.ends ax).length = (m.ends 0).length := by
    have : ((m.ends ax).map key).Perm ((m.ends 0).map key) :=
      (List.perm_ext_iff_of_nodup (hi.nodup ax) (hi.nodup 0)).2 fun k => by
        obtain ⟨o, b⟩ := k
        rw [hi.mem, hi.mem]
    simpa using this.length_eq
  have hsw : sweep w ax cb (m.ends ax) [] [] s = runUntil cb s (calls w ax (m.ends ax) []) :=
    sweep_eq cb _ _ ⟨hi.nodup ax, List.nodup_nil, by simp⟩ _ (by simp) s
  unfold collideSelf
  split
  · rename_i h0
    have : m.ends ax = [] := by
      rw [List.eq_nil_iff_forall_not_mem]
      intro e he
      exact (size_zero hi).1 h0 _ (hi.mem_end he)
    rw [this]; rfl
  · rw [hlen, if_neg (lt_irrefl _), ← hlen, List.take_length, hsw]

/-- C21 (part): whatever has moved, self-collision calls back no pair twice, in either order, and only pairs of
different registered objects. `ax` is the axis of the sweep. -/
theorem C21_once_partial.{v} {h : List (ICall K O)} (hh : History bot h) {m : IMgr K O} (hr : run bot h = some m)
    (w : O → AABB K) (ax : Fin 3) :
    ∃ l : List (O × O), l.Pairwise (fun p q => p ≠ q ∧ p ≠ q.swap) ∧
      (∀ p ∈ l, Registered p.1 h ∧ Registered p.2 h ∧ p.1 ≠ p.2) ∧
      ∀ (σ : Type v) (cb : CB σ O) (s : σ), m.collideSelf w ax cb s = some (runUntil cb s l).1 := by
  have hi := hh.inv hr
  obtain ⟨o1, o2⟩ := calls_once (w := w) (ax := ax) (m.ends ax) [] ⟨hi.nodup ax, List.nodup_nil, by simp⟩
  refine ⟨_, o1, fun p hp => ?_, fun σ cb s => collideSelf_eq hi w ax cb s⟩
  obtain ⟨h1, h2⟩ := calls_mem _ _ hp
  exact ⟨(hi.mem ax _ _).1 (h2.resolve_left (by simp)), (hi.mem ax _ _).1 h1, o2 p hp⟩

/-- C21 (part): in a manager that is set up, with nothing moved since it was registered or the last `update()` and
without `update(obj)` since then, and with boxes that are not flat on the axis of the sweep, self-collision calls
back only overlapping pairs of different registered objects, no pair twice, and every pair that overlaps and does not
merely touch on the axis of the sweep. Missing: pairs that touch (`C21_violated_touching`), flat boxes
(`C21_violated_flat`), `update(obj)` (`C21_violated_update`) and motion before `setup()` (`C21_violated_moved`). -/
theorem C21_partial.{v} {h : List (ICall K O)} (hh : History bot h) {m : IMgr K O} (hr : run bot h = some m)
    {w : O → AABB K} (hst : Still h w) (hse : seen h ≠ none) (ax : Fin 3)
    (hsol : ∀ o, Registered o h → (w o).lo.get ax < (w o).hi.get ax) :
    ∃ l : List (O × O), l.Pairwise (fun p q => p ≠ q ∧ p ≠ q.swap) ∧
      (∀ p ∈ l, Registered p.1 h ∧ Registered p.2 h ∧ p.1 ≠ p.2 ∧ (w p.1).overlap (w p.2) = true) ∧
      (∀ a b, Registered a h → Registered b h → a ≠ b → (w a).overlap (w b) = true →
        (w a).lo.get ax < (w b).hi.get ax → (w b).lo.get ax < (w a).hi.get ax → (a, b) ∈ l ∨ (b, a) ∈ l) ∧
      ∀ (σ : Type v) (cb : CB σ O) (s : σ), m.collideSelf w ax cb s = some (runUntil cb s l).1 := by
  have hi := hh.inv hr
  have hord : Ordered (fun o => (w o).lo.get ax) (fun o => (w o).hi.get ax) (m.ends ax) := by
    refine ⟨hi.sorted hse ax, fun e he => ?_⟩
    obtain ⟨b, hb⟩ := Option.ne_none_iff_exists'.1 (hi.mem_end he)
    have hbw := hst.2 _ b hb
    subst hbw
    exact hi.vals hst.1 ax e he _ hb
  obtain ⟨o1, o2⟩ := calls_once (w := w) (ax := ax) (m.ends ax) [] ⟨hi.nodup ax, List.nodup_nil, by simp⟩
  refine ⟨_, o1, fun p hp => ?_, fun a b ha hb hab hov h1 h2 => ?_, fun σ cb s => collideSelf_eq hi w ax cb s⟩
  · obtain ⟨h1, h2⟩ := calls_mem _ _ hp
    obtain ⟨s1, s2, s3⟩ := calls_sound (m.ends ax) [] hord (hi.nodup ax) (fun e he => hsol _ (hi.mem_end he))
      (fun a ha => (hi.mem ax _ _).2 ((hi.mem ax _ _).1 ha)) (by simp) (by simp) List.nodup_nil hp
    refine ⟨(hi.mem ax _ _).1 (h2.resolve_left (by simp)), (hi.mem ax _ _).1 h1, o2 p hp, (overlap_split ax).2 ⟨⟨s2, s3⟩, ?_⟩⟩
    unfold wanted at s1
    rwa [Bool.and_eq_true] at s1
  · refine calls_complete (m.ends ax) [] hord List.nodup_nil hab ((hi.mem ax _ _).2 ha) ((hi.mem ax _ _).2 hb) h1 h2 ?_
    unfold wanted
    rw [Bool.and_eq_true]
    exact ((overlap_split ax).1 hov).2

/-! ## Unregistering -/

/-- C22 (part): unregistering an object beyond which no other one reaches leaves both end points of every other
object, on every axis, and nothing of it. -/
theorem C22_partial {h : List (ICall K O)} {c : ICall K O} {o : O} (hop : c.op = .unregister o)
    (hh : History bot (h ++ [c])) {m : IMgr K O} (hr : run bot (h ++ [c]) = some m) (i : Fin 3) :
    ((m.ends i).map (fun e => (e.obj, e.hi))).Nodup ∧
      ∀ p b, (p, b) ∈ (m.ends i).map (fun e => (e.obj, e.hi)) ↔ Registered p h ∧ p ≠ o := by
  have hi := hh.inv hr
  refine ⟨hi.nodup i, fun p b => (hi.mem i p b).trans ?_⟩
  unfold Registered
  rw [regBox_snoc]
  unfold regStep
  rw [hop]
  simp only
  split <;> simp [*]

/-- C22 decided, axis by axis: nothing has moved, and `o` is unregistered. The end points of the other objects survive
if and only if no registered box reaches beyond that of `o` on this axis. -/
theorem C22_iff {h : List (ICall K O)} (hh : History bot h) {m m' : IMgr K O} (hr : run bot h = some m)
    {srt : List (IEnd K O) → List (IEnd K O)} (hsrt : LawfulSortI srt) {w : O → AABB K} (hst : Still h w)
    (hfit : ∀ o, Registered o h → Fit bot (w o)) {o : O} (ho : Registered o h)
    (hm' : m.unregister bot srt w o = some m') (i : Fin 3) :
    (∀ p b, Registered p h → p ≠ o → (p, b) ∈ (m'.ends i).map (fun e => (e.obj, e.hi))) ↔ Top h w o i := by
  have hi := hh.inv hr
  set c1 : ICall K O := ⟨.setup, w, srt⟩ with hc1
  obtain ⟨m1, e1, hi1⟩ := hi.setup (c := c1) rfl hsrt hfit
  have hreg1 : ∀ p, regBox p (h ++ [c1]) = regBox p h := fun p => by rw [regBox_snoc]; rfl
  have hR1 : ∀ p, Registered p (h ++ [c1]) ↔ Registered p h := fun p => by unfold Registered; rw [hreg1]
  have hsp1 : spoiled (h ++ [c1]) = spoiled h := by rw [spoiled_snoc]
  have hst1 : Still (h ++ [c1]) w := ⟨hsp1 ▸ hst.1, fun p b hb => hst.2 p b (hreg1 p ▸ hb)⟩
  have hne1 : seen (h ++ [c1]) ≠ none := by rw [seen_snoc]; simp [seenStep, hc1]
  have hfit1 : ∀ p, Registered p (h ++ [c1]) → Fit bot (w p) := fun p hp => hfit p ((hR1 p).1 hp)
  -- the axis after the call
  have hd : dropAxis (w o) o i (m1.ends i) = some (m'.ends i) := by
    unfold IMgr.unregister at hm'
    rw [e1] at hm'
    simp only [Option.bind_some] at hm'
    rcases hon : onAxes (fun i => dropAxis (w o) o i (m1.ends i)) with _ | e
    · rw [hon] at hm'; cases hm'
    · rw [hon] at hm'
      simp only [Option.bind_some] at hm'
      have he : m'.ends = e := by
        split at hm'
        · cases hm'; rfl
        · split at hm'
          · cases hm'
          · rename_i ts _
            rcases hdel : onAxes (fun i => ITree.delete bot (ts i) o) with _ | ts'
            · rw [hdel] at hm'; cases hm'
            · rw [hdel] at hm'; cases hm'; rfl
      rw [he]; exact onAxes_some.1 hon i
  have hE := hi1.ends_of hst1 ((hR1 o).2 ho) (hfit o ho) i
  constructor
  · intro hall p hp
    by_contra hlt
    have hpo := hi1.ends_of hst1 ((hR1 p).2 hp) (hfit p hp) i
    obtain ⟨l', hl', e, he, heo, hk⟩ := dropAxis_lost (hi1.sorted hne1 i) hE hpo.hi (not_le.1 hlt)
    rw [hd] at hl'
    obtain rfl := Option.some.inj hl'
    exact hk (hall e.obj e.hi ((hR1 _).1 (hi1.mem_end he)) heo)
  · intro htop p b hp hpo
    have := dropAxis_top (hi1.sorted hne1 i) hE fun e he =>
      (hi1.val_le hst1 hfit1 he).trans (htop _ ((hR1 _).1 (hi1.mem_end he)))
    rw [hd] at this
    rw [Option.some.inj this]
    obtain ⟨e, he, hk⟩ := List.mem_map.1 ((hi1.mem i p b).2 ((hR1 p).2 hp))
    refine List.mem_map.2 ⟨e, List.mem_filter.2 ⟨he, ?_⟩, hk⟩
    simp only [key, Prod.mk.injEq] at hk
    rw [hk.1]; simpa using hpo


/-! ## Witnesses and concrete cases -/

namespace IntervalMgrExample

def cube (a b : ℤ) : AABB ℤ := ⟨⟨a, a, a⟩, ⟨b, b, b⟩⟩

theorem cube_lo (a b : ℤ) (c : Fin 3) : (cube a b).lo.get c = a := by fin_cases c <;> rfl
theorem cube_hi (a b : ℤ) (c : Fin 3) : (cube a b).hi.get c = b := by fin_cases c <;> rfl

theorem cube_fit {a b : ℤ} (h : -1000 < a ∧ a ≤ b) : Fit (-1000) (cube a b) := fun i => by
  rw [cube_lo, cube_hi]; exact h

/-- A stable sort. -/
def srt (l : List (IEnd ℤ ℕ)) : List (IEnd ℤ ℕ) := l.insertionSort (fun a b => a.val ≤ b.val)
/-- A sort that puts equal values in the opposite order. -/
def srt' (l : List (IEnd ℤ ℕ)) : List (IEnd ℤ ℕ) := srt l.reverse

theorem srt_lawful : LawfulSortI srt := by
  intro l
  haveI : Std.Total (fun a b : IEnd ℤ ℕ => a.val ≤ b.val) := ⟨fun a b => le_total _ _⟩
  haveI : IsTrans (IEnd ℤ ℕ) (fun a b : IEnd ℤ ℕ => a.val ≤ b.val) := ⟨fun a b c h h' => le_trans h h'⟩
  exact ⟨List.perm_insertionSort _ _, List.pairwise_insertionSort _ _⟩

theorem srt'_lawful : LawfulSortI srt' := fun l => ⟨(srt_lawful _).1.trans (List.reverse_perm l), (srt_lawful _).2⟩

/-- The calls made, in order. -/
def record : CB (List (ℕ × ℕ)) ℕ := fun s a b => (s ++ [(a, b)], false)

/-- Where the boxes are. -/
def boxes (b0 b1 b2 : AABB ℤ) : ℕ → AABB ℤ
  | 0 => b0
  | 1 => b1
  | _ => b2

/-- Register the objects `os` and set up. -/
def start (w : ℕ → AABB ℤ) (srt : List (IEnd ℤ ℕ) → List (IEnd ℤ ℕ)) (os : List ℕ) : List (ICall ℤ ℕ) :=
  [⟨.registerMany os, w, srt⟩, ⟨.setup, w, srt⟩]

theorem reg_start (w : ℕ → AABB ℤ) (srt : List (IEnd ℤ ℕ) → List (IEnd ℤ ℕ)) (os : List ℕ) (o : ℕ) :
    regBox o (start w srt os) = if o ∈ os then some (w o) else none := rfl

theorem registered_start (w : ℕ → AABB ℤ) (srt : List (IEnd ℤ ℕ) → List (IEnd ℤ ℕ)) (os : List ℕ) (o : ℕ) :
    Registered o (start w srt os) ↔ o ∈ os := by
  unfold Registered
  rw [reg_start]
  split <;> simp [*]

theorem start_history {w : ℕ → AABB ℤ} {srt : List (IEnd ℤ ℕ) → List (IEnd ℤ ℕ)} (hs : LawfulSortI srt) {os : List ℕ}
    (hn : os.Nodup) (hf : ∀ o ∈ os, Fit (-1000) (w o)) : History (-1000) (start w srt os) := by
  refine .snoc (h := [⟨.registerMany os, w, srt⟩]) (.snoc (h := []) .nil ⟨hs, fun o ho => hf o ?_, hn, fun o _ h => h rfl⟩)
    ⟨hs, fun o ho => hf o ((registered_start w srt os o).1 ho), trivial⟩
  have h1 : regBox o ([⟨.registerMany os, w, srt⟩] : List (ICall ℤ ℕ)) = if o ∈ os then some (w o) else none := rfl
  have ho' : regBox o ([⟨.registerMany os, w, srt⟩] : List (ICall ℤ ℕ)) ≠ none := ho
  rw [h1] at ho'
  by_contra hno
  rw [if_neg hno] at ho'
  exact ho' rfl

theorem start_still {w : ℕ → AABB ℤ} {srt : List (IEnd ℤ ℕ) → List (IEnd ℤ ℕ)} {os : List ℕ} : Still (start w srt os) w := by
  refine ⟨rfl, fun o b hb => ?_⟩
  rw [reg_start] at hb
  split at hb
  · exact (Option.some.inj hb).symm
  · cases hb

theorem start_seen {w : ℕ → AABB ℤ} {srt : List (IEnd ℤ ℕ) → List (IEnd ℤ ℕ)} {os : List ℕ} (hne : os ≠ []) :
    seen (start w srt os) = some w := by
  have : seen (start w srt os) = some ((if os = [] then none else none : Option (ℕ → AABB ℤ)).getD w) := rfl
  rw [this, if_neg hne]; rfl

theorem start_current {w : ℕ → AABB ℤ} {srt : List (IEnd ℤ ℕ) → List (IEnd ℤ ℕ)} {os : List ℕ} (hne : os ≠ []) :
    Current (start w srt os) w := ⟨w, start_seen hne, fun _ _ => rfl⟩

end IntervalMgrExample

open IntervalMgrExample in
/-- C21 fails for boxes that touch: cubes `[0,1]³` and `[1,2]³`, a stable sort. They overlap, nothing is called back.
With the opposite order of equal values the pair is called back. -/
theorem C21_violated_touching :
    History (-1000) (start (boxes (cube 0 1) (cube 1 2) (cube 0 0)) srt [0, 1]) ∧
    (cube 0 1).overlap (cube 1 2) = true ∧
    ((run (-1000) (start (boxes (cube 0 1) (cube 1 2) (cube 0 0)) srt [0, 1])).bind fun m =>
      m.collideSelf (boxes (cube 0 1) (cube 1 2) (cube 0 0)) 0 record []) = some [] ∧
    ((run (-1000) (start (boxes (cube 0 1) (cube 1 2) (cube 0 0)) srt' [0, 1])).bind fun m =>
      m.collideSelf (boxes (cube 0 1) (cube 1 2) (cube 0 0)) 0 record []) = some [(0, 1)] := by
  refine ⟨start_history srt_lawful (by decide) fun o ho => ?_, by decide +kernel, by decide +kernel, by decide +kernel⟩
  simp only [List.mem_cons, List.not_mem_nil, or_false] at ho
  rcases ho with rfl | rfl <;> exact cube_fit (by decide)

open IntervalMgrExample in
/-- C21 fails for flat boxes: `[0,0]` × `[0,9]²` and the cube `[5,9]³` do not overlap, and are called back when the
sort puts the upper end point of the flat box first. -/
theorem C21_violated_flat :
    History (-1000) (start (boxes ⟨⟨0, 0, 0⟩, ⟨0, 9, 9⟩⟩ (cube 5 9) (cube 0 0)) srt' [0, 1]) ∧
    (⟨⟨0, 0, 0⟩, ⟨0, 9, 9⟩⟩ : AABB ℤ).overlap (cube 5 9) = false ∧
    ((run (-1000) (start (boxes ⟨⟨0, 0, 0⟩, ⟨0, 9, 9⟩⟩ (cube 5 9) (cube 0 0)) srt' [0, 1])).bind fun m =>
      m.collideSelf (boxes ⟨⟨0, 0, 0⟩, ⟨0, 9, 9⟩⟩ (cube 5 9) (cube 0 0)) 0 record []) = some [(0, 1)] := by
  refine ⟨start_history srt'_lawful (by decide) fun o ho => ?_, by decide +kernel, by decide +kernel⟩
  simp only [List.mem_cons, List.not_mem_nil, or_false] at ho
  rcases ho with rfl | rfl
  · intro i; fin_cases i <;> decide
  · exact cube_fit (by decide)

open IntervalMgrExample in
/-- C21 fails after `update(obj)`: `[0,1]³` moves to `[5,7]³`, which overlaps `[5,6]³`, and the manager is told. The
pair is not called back; after `update()` it is. -/
theorem C21_violated_update :
    (cube 5 7).overlap (cube 5 6) = true ∧
    ((run (-1000) (start (boxes (cube 0 1) (cube 5 6) (cube 0 0)) srt [0, 1] ++
        [⟨.updateObj 0, boxes (cube 5 7) (cube 5 6) (cube 0 0), srt⟩])).bind fun m =>
      m.collideSelf (boxes (cube 5 7) (cube 5 6) (cube 0 0)) 0 record []) = some [] ∧
    ((run (-1000) (start (boxes (cube 0 1) (cube 5 6) (cube 0 0)) srt [0, 1] ++
        [⟨.update, boxes (cube 5 7) (cube 5 6) (cube 0 0), srt⟩])).bind fun m =>
      m.collideSelf (boxes (cube 5 7) (cube 5 6) (cube 0 0)) 0 record []) = some [(0, 1)] := by
  refine ⟨by decide +kernel, by decide +kernel, by decide +kernel⟩

open IntervalMgrExample in
/-- C21 fails when an object moves between `registerObject` and `setup()`: the end points keep the old values. The
query with a single object, which uses the trees, is right. -/
theorem C21_violated_moved :
    ((run (-1000) [⟨.registerMany [0, 1], boxes (cube 0 1) (cube 5 6) (cube 0 0), srt⟩,
        ⟨.setup, boxes (cube 5 7) (cube 5 6) (cube 0 0), srt⟩]).bind fun m =>
      m.collideSelf (boxes (cube 5 7) (cube 5 6) (cube 0 0)) 0 record []) = some [] ∧
    ((run (-1000) [⟨.registerMany [0, 1], boxes (cube 0 1) (cube 5 6) (cube 0 0), srt⟩,
        ⟨.setup, boxes (cube 5 7) (cube 5 6) (cube 0 0), srt⟩]).bind fun m =>
      m.collideObj (-1000) (boxes (cube 5 7) (cube 5 6) (cube 0 0)) record 0 []) = some [(1, 0)] := by
  refine ⟨by decide +kernel, by decide +kernel⟩

open IntervalMgrExample in
/-- C22 fails: of `[0,1]³`, `[5,6]³` and `[7,9]³` the first is unregistered. `getObjects` afterwards lists it and not
the last one. With `[5,8]³` in the place of `[5,6]³` three lower end points are left among four, and `getObjects` writes
past the end of its result. -/
theorem C22_violated :
    ((run (-1000) (start (boxes (cube 0 1) (cube 5 6) (cube 7 9)) srt [0, 1, 2] ++
        [⟨.unregister 0, boxes (cube 0 1) (cube 5 6) (cube 7 9), srt⟩])).map fun m =>
      ((m.ends 0).map (fun e => (e.obj, e.hi)), m.getObjects)) =
      some ([(0, false), (0, true), (1, false), (1, true)], some [some 0, some 1]) ∧
    ((run (-1000) (start (boxes (cube 0 1) (cube 5 8) (cube 7 9)) srt [0, 1, 2] ++
        [⟨.unregister 0, boxes (cube 0 1) (cube 5 8) (cube 7 9), srt⟩])).map fun m =>
      ((m.ends 0).map (fun e => (e.obj, e.hi)), m.getObjects)) =
      some ([(0, false), (0, true), (1, false), (2, false)], none) := by
  decide +kernel

open IntervalMgrExample in
/-- The hypotheses of `C21_partial`, `C13_interval`, `C22_partial` and `C22_iff` hold of three cubes, two of which
overlap and the last of which is unregistered. -/
example :
    History (-1000) (start (boxes (cube 0 3) (cube 1 4) (cube 7 9)) srt [0, 1, 2]) ∧
    Still (start (boxes (cube 0 3) (cube 1 4) (cube 7 9)) srt [0, 1, 2]) (boxes (cube 0 3) (cube 1 4) (cube 7 9)) ∧
    seen (start (boxes (cube 0 3) (cube 1 4) (cube 7 9)) srt [0, 1, 2]) ≠ none ∧
    Current (start (boxes (cube 0 3) (cube 1 4) (cube 7 9)) srt [0, 1, 2]) (boxes (cube 0 3) (cube 1 4) (cube 7 9)) ∧
    History (-1000) (start (boxes (cube 0 3) (cube 1 4) (cube 7 9)) srt [0, 1, 2] ++
      [⟨.unregister 2, boxes (cube 0 3) (cube 1 4) (cube 7 9), srt⟩]) ∧
    ((run (-1000) (start (boxes (cube 0 3) (cube 1 4) (cube 7 9)) srt [0, 1, 2])).bind fun m =>
      m.collideSelf (boxes (cube 0 3) (cube 1 4) (cube 7 9)) 0 record []) = some [(0, 1)] ∧
    ((run (-1000) (start (boxes (cube 0 3) (cube 1 4) (cube 7 9)) srt [0, 1, 2] ++
        [⟨.unregister 2, boxes (cube 0 3) (cube 1 4) (cube 7 9), srt⟩])).map fun m => m.getObjects) =
      some (some [some 0, some 1]) := by
  have hfit : ∀ o ∈ [0, 1, 2], Fit (-1000) (boxes (cube 0 3) (cube 1 4) (cube 7 9) o) := fun o ho => by
    simp only [List.mem_cons, List.not_mem_nil, or_false] at ho
    rcases ho with rfl | rfl | rfl <;> exact cube_fit (by decide)
  have hh := start_history srt_lawful (by decide) hfit
  refine ⟨hh, start_still, by rw [start_seen (by decide)]; simp, start_current (by decide), ?_, by decide +kernel,
    by decide +kernel⟩
  refine .snoc hh ⟨srt_lawful, fun o ho => hfit o ?_, fun _ => ⟨hfit 2 (by decide), start_still, fun i p hp => ?_⟩⟩
  · have h1 : Registered o (start (boxes (cube 0 3) (cube 1 4) (cube 7 9)) srt [0, 1, 2]) := by
      unfold Registered at ho ⊢
      rw [regBox_snoc] at ho
      simp only [regStep] at ho
      split at ho
      · exact absurd rfl ho
      · exact ho
    exact (registered_start _ _ _ _).1 h1
  · have hp' := (registered_start _ _ _ _).1 hp
    simp only [List.mem_cons, List.not_mem_nil, or_false] at hp'
    rcases hp' with rfl | rfl | rfl <;> simp [boxes, cube_hi]

open IntervalMgrExample in
/-- Two managers, as in `C67_violated`: the pair is called back twice. -/
example :
    (let w := boxes (cube 0 3) (cube 1 4) (cube 7 9)
    (run (-1000) (start w srt [0, 2])).bind fun m => (run (-1000) (start w srt [1])).bind fun m' =>
      collideOther (-1000) w m m' record []) = some [(0, 1), (0, 1)] := by
  decide +kernel

end Fcl
