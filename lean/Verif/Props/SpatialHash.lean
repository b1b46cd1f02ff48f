import Verif.SHash.Dist
import Verif.AABB.Spec
import Mathlib.Data.Rat.Floor
import Mathlib.Tactic.NormNum

/-!
# The spatial hash manager: C23, and C57, and its part of C13, C15, C24

`GHistory h`: a correct client's calls on a new manager. `SHM.run g big n h` executes them on a manager with scene
limit and cell size `g` and `n` bins. `BoxesCurrent h w`: no registered object's box has changed since the manager
last saw it.
-/

set_option linter.unusedSectionVars false
set_option linter.unusedSimpArgs false

namespace Fcl
open Hash SHM
variable {K O : Type*} [Field K] [LinearOrder K] [IsStrictOrderedRing K] [FloorRing K] [LinearOrder O]

/-- Specification: since the last `clear()` there has been an `update()` of all objects. -/
def SettledRev : List (WCall K O) → Bool
  | [] => true
  | c :: h =>
    match c.op with
    | .clear => false
    | .update => true
    | _ => SettledRev h

@[inherit_doc SettledRev] def Settled (h : List (WCall K O)) : Prop := SettledRev h.reverse = true

theorem knownBox_snoc (o : O) (h : List (WCall K O)) (c : WCall K O) :
    knownBox o (h ++ [c]) = knownStep o (knownBox o h) c := by
  simp [knownBox]

theorem SHM.runFrom_append (g : Grid K) (big : K) (a b : List (WCall K O)) (m : SHM K O) :
    SHM.runFrom g big (a ++ b) m = match SHM.runFrom g big a m with
      | .ok m' => SHM.runFrom g big b m'
      | .error e => .error e := by
  induction a generalizing m with
  | nil => rfl
  | cons c a ih =>
    simp only [List.cons_append, SHM.runFrom]
    split
    · rename_i m' _; exact ih m'
    · rfl

/-- The invariant holds after every correct history. -/
theorem SHM.inv_run (g : Grid K) (big : K) {n : ℕ} (hn : n ≠ 0) {h : List (WCall K O)} (hh : GHistory h) :
    ∃ m, SHM.run g big n h = .ok m ∧ SHM.Inv g n (Settled h) (fun o => knownBox o h) m := by
  have e0 : (SHM.new n : Except Fault (SHM K O)) = .ok ⟨⟨Simple.resize [] n, some n⟩, [], [], [], fun _ => none⟩ := by
    simp [SHM.new, Simple.new, Simple.init, hn]
  unfold SHM.run
  rw [e0]
  induction hh with
  | nil =>
    refine ⟨_, rfl, pinv_empty rfl (by simp [Simple.resize]) ?_ (fun _ => rfl), rfl, by simp [knownBox], by simp⟩
    intro c o
    simp only [bin, Simple.resize, List.take_nil, List.nil_append, List.length_nil, Nat.sub_zero,
      List.getElem?_replicate]
    split <;> simp
  | @snoc h c hh hc ih =>
    obtain ⟨m, e, hi⟩ := ih
    simp only at e ⊢
    rw [SHM.runFrom_append, e]
    simp only [SHM.runFrom]
    -- one step suffices
    suffices hs : ∃ m', m.step g big c.w c.op = .ok m' ∧
        SHM.Inv g n (Settled (h ++ [c])) (fun o => knownBox o (h ++ [c])) m' by
      obtain ⟨m', e', hi'⟩ := hs
      exact ⟨m', by rw [e'], hi'⟩
    have hk : (fun o => knownBox o (h ++ [c])) = fun o => knownStep o (knownBox o h) c := by
      funext o; exact knownBox_snoc o h c
    rw [hk]
    rcases c with ⟨op, w⟩
    have hset : Settled (h ++ [⟨op, w⟩]) ↔ SettledRev (⟨op, w⟩ :: h.reverse) = true := by simp [Settled]
    have hsame : (∀ x : List (WCall K O), SettledRev (⟨op, w⟩ :: x) = SettledRev x) →
        Settled (h ++ [⟨op, w⟩]) = Settled h := fun hx => by
      apply propext; rw [hset, hx]; rfl
    cases op with
    | register o =>
      rw [hsame fun _ => rfl]
      obtain ⟨m', e', hi'⟩ := register_spec (w := w) hn hi o hc
      refine ⟨m', e', ?_⟩
      have : (fun p => knownStep p (knownBox p h) ⟨.register o, w⟩) =
          Function.update (fun p => knownBox p h) o (some (w o)) := by
        funext p
        by_cases hp : p = o
        · subst hp; simp [knownStep]
        · simp [knownStep, hp]
      rw [this]
      exact hi'
    | registerMany os =>
      rw [hsame fun _ => rfl]
      obtain ⟨m', e', hi'⟩ := registers_spec (w := w) hn os hi hc.1 hc.2
      exact ⟨m', e', hi'⟩
    | unregister o =>
      rw [hsame fun _ => rfl]
      obtain ⟨m', e', hi'⟩ := unregister_spec (w := w) hn hi o hc
      refine ⟨m', e', ?_⟩
      have : (fun p => knownStep p (knownBox p h) ⟨.unregister o, w⟩) =
          Function.update (fun p => knownBox p h) o none := by
        funext p
        by_cases hp : p = o
        · subst hp; simp [knownStep]
        · simp [knownStep, hp]
      rw [this]
      exact hi'
    | setup =>
      rw [hsame fun _ => rfl]
      exact ⟨m, rfl, hi⟩
    | update =>
      obtain ⟨m', e', hi'⟩ := update_spec (w := w) hn hi (ex' := Settled (h ++ [⟨.update, w⟩]))
      exact ⟨m', e', hi'⟩
    | updateObj o =>
      rw [hsame fun _ => rfl]
      obtain ⟨m', e', hi'⟩ := updateObj_spec (w := w) hn hi big o hc
      refine ⟨m', e', ?_⟩
      have : (fun p => knownStep p (knownBox p h) ⟨.updateObj o, w⟩) =
          Function.update (fun p => knownBox p h) o (some (w o)) := by
        funext p
        by_cases hp : p = o
        · subst hp
          obtain ⟨b, hb⟩ := Option.ne_none_iff_exists'.mp hc
          simp [knownStep, hb]
        · simp [knownStep, hp]
      rw [this]
      exact hi'
    | updateObjs os =>
      rw [hsame fun _ => rfl]
      obtain ⟨m', e', hi'⟩ := updateObjs_spec (w := w) hn big os hi hc
      refine ⟨m', e', ?_⟩
      have : (fun p => knownStep p (knownBox p h) ⟨.updateObjs os, w⟩) =
          fun p => if p ∈ os then some (w p) else knownBox p h := by
        funext p
        by_cases hp : p ∈ os
        · obtain ⟨b, hb⟩ := Option.ne_none_iff_exists'.mp (hc p hp)
          simp [knownStep, hb, hp]
        · simp [knownStep, hp]
      rw [this]
      exact hi'
    | clear =>
      obtain ⟨m', e', hi'⟩ := clear_spec (ex' := Settled (h ++ [⟨.clear, w⟩])) hn hi
        (fun h => by rw [hset] at h; simp [SettledRev] at h)
      exact ⟨m', e', hi'⟩

/-- The box the manager knows is the specification's `registered`. -/
theorem knownBox_registered (o : O) (h : List (WCall K O)) (hh : GHistory h) :
    knownBox o h ≠ none ↔ registered o (h.map (·.op)) = true := by
  induction hh with
  | nil => simp [knownBox, registered, registeredRev]
  | @snoc h c hh hc ih =>
    rw [knownBox_snoc, List.map_append, List.map_singleton, registered_snoc]
    have ih' : registeredRev o (List.map (·.op) h).reverse = true ↔ knownBox o h ≠ none := ih.symm
    rcases c with ⟨op, w⟩
    cases op <;> simp only [knownStep, registeredRev]
    case register p =>
      by_cases hp : o = p
      · subst hp; simp
      · simp only [if_neg hp, Ne.symm hp, decide_false, Bool.false_or, ih']
    case registerMany ps =>
      by_cases hp : o ∈ ps
      · simp [hp]
      · simp only [hp, decide_false, Bool.false_or, ih', if_false]
    case unregister p =>
      by_cases hp : o = p
      · subst hp; simp
      · simp only [if_neg hp, Ne.symm hp, ne_eq, not_false_eq_true, decide_true, Bool.true_and]
        exact ih'.symm
    case setup => exact ih'.symm
    case update => rw [ih']; cases knownBox o h <;> simp
    case updateObj p =>
      rw [ih']
      split
      · cases knownBox o h <;> simp
      · rfl
    case updateObjs ps =>
      rw [ih']
      split
      · cases knownBox o h <;> simp
      · rfl
    case clear => simp

/-- **C57**: contents, size, emptiness, after every correct history. No call fails. -/
theorem C57_shash_objects (g : Grid K) (big : K) {n : ℕ} (hn : n ≠ 0) {h : List (WCall K O)} (hh : GHistory h) :
    ∃ m, SHM.run g big n h = .ok m ∧ (∀ o, o ∈ m.getObjects ↔ registered o (h.map (·.op)) = true) ∧
      m.getObjects.Nodup ∧ m.size = m.getObjects.length ∧
      (m.isEmpty = true ↔ ∀ o, registered o (h.map (·.op)) = false) := by
  obtain ⟨m, e, hi⟩ := SHM.inv_run g big hn hh
  have hm : ∀ o, o ∈ m.getObjects ↔ registered o (h.map (·.op)) = true := fun o =>
    (hi.mem o).trans (knownBox_registered o h hh)
  refine ⟨m, e, hm, hi.nodup, rfl, ?_⟩
  unfold isEmpty
  rw [List.isEmpty_iff]
  constructor
  · intro he o
    have := (hm o).not
    rw [getObjects, he] at this
    simpa using this
  · intro ha
    rw [List.eq_nil_iff_forall_not_mem]
    intro o ho
    have := (hm o).mp ho
    rw [ha o] at this
    exact absurd this (by simp)

/-- **C23** and C13 (object queries): `collide(obj)` offers the callback every registered object (except `obj`
itself) whose box meets the query box, inside, across or outside the scene limit; when a `clear()` has been followed
by an `update()`, only registered objects, each at most once. Missing: boxes that share only points of a plane
between two layers of cells (see `C23_touching_missed`). -/
theorem C23_object_partial.{v} (g : Grid K) (hc : 0 < g.cell) (hv : g.scene.Valid) (big : K) {n : ℕ} (hn : n ≠ 0)
    {h : List (WCall K O)} (hh : GHistory h) {w : O → AABB K} (hw : BoxesCurrent h w) (q : O) :
    ∃ m, SHM.run g big n h = .ok m ∧ ∃ l : List O,
      (∀ {σ : Type v} (cb : CB σ O) (s : σ),
        collideObj g w m cb q s = .ok (runUntil cb s (l.map (fun o => (q, o)))).1) ∧
      (∀ o, registered o (h.map (·.op)) = true → o ≠ q → g.Meet (w o) (w q) → o ∈ l) ∧
      (Settled h → l.Nodup ∧ ∀ o ∈ l, o ≠ q ∧ registered o (h.map (·.op)) = true) := by
  obtain ⟨m, e, hi⟩ := SHM.inv_run g big hn hh
  refine ⟨m, e, ?_⟩
  by_cases hs : m.size = 0
  · refine ⟨[], fun cb s => by simp [collideObj, hs], fun o ho => ?_, fun _ => by simp⟩
    rw [← knownBox_registered o h hh, ← hi.mem, List.length_eq_zero_iff.mp hs] at ho
    simp at ho
  · obtain ⟨l, h1, h2, h3⟩ := visit_spec.{_, _, v} hn hi hc hv w hw q
    refine ⟨l.filter (fun o => decide (q ≠ o)), fun cb s => ?_, fun o ho hne hm => ?_, fun hset => ⟨?_, fun o ho => ?_⟩⟩
    · rw [collideObj, if_neg hs, collideQ, h1]
    · rw [List.mem_filter]
      exact ⟨h2 o ((knownBox_registered o h hh).mpr ho) hm, by simpa using Ne.symm hne⟩
    · exact (h3 hset).1.filter _
    · rw [List.mem_filter] at ho
      exact ⟨by simpa using Ne.symm (of_decide_eq_true ho.2), (knownBox_registered o h hh).mp ((h3 hset).2 o ho.1)⟩

theorem SHM.eachQ_spec.{v} {g : Grid K} {w : O → AABB K} {m : SHM K O} (keep : O → O → Bool) (cand : O → List O)
    (hv : ∀ q, ∀ {σ : Type v} (cb : CB σ O) (keep : O → Bool) (s : σ),
        visit g w m cb keep q s = .ok (runUntil cb s (((cand q).filter keep).map (fun o => (q, o)))))
    {σ : Type v} (cb : CB σ O) (os : List O) (s : σ) :
    eachQ (fun o => visit g w m cb (keep o) o) os s =
      .ok (runUntil cb s (os.flatMap fun q => ((cand q).filter (keep q)).map (fun o => (q, o)))).1 := by
  induction os generalizing s with
  | nil => rfl
  | cons o os ih =>
    rw [eachQ, hv]
    simp only [List.flatMap_cons, runUntil_append, andThen]
    split
    · rfl
    · exact ih _

theorem nodup_pairs {l : List O} (hl : l.Nodup) (f : O → List O) (hf : ∀ o ∈ l, (f o).Nodup) :
    (l.flatMap fun q => (f q).map (fun o => (q, o))).Nodup := by
  induction l with
  | nil => simp
  | cons a l ih =>
    rw [List.nodup_cons] at hl
    rw [List.flatMap_cons, List.nodup_append]
    refine ⟨(hf a (by simp)).map (fun x y h => (Prod.mk.inj h).2), ih hl.2 (fun o ho => hf o (by simp [ho])), ?_⟩
    rintro x hx y hy rfl
    simp only [List.mem_map, List.mem_flatMap] at hx hy
    obtain ⟨p, hp, rfl⟩ := hx
    obtain ⟨q, hq, r, hr, e⟩ := hy
    rw [(Prod.mk.inj e).1] at hq
    exact hl.1 hq

/-- **C23** (all pairs): `collide(cdata, callback)` offers every pair of registered objects whose boxes meet exactly
once (ordered by address); when settled, nothing but pairs of registered objects, each at most once. -/
theorem C23_self_partial.{v} (g : Grid K) (hc : 0 < g.cell) (hv : g.scene.Valid) (big : K) {n : ℕ} (hn : n ≠ 0)
    {h : List (WCall K O)} (hh : GHistory h) {w : O → AABB K} (hw : BoxesCurrent h w) :
    ∃ m, SHM.run g big n h = .ok m ∧ ∃ l : List (O × O),
      (∀ {σ : Type v} (cb : CB σ O) (s : σ), collideSelf g w m cb s = .ok (runUntil cb s l).1) ∧
      (∀ a b, a < b → registered a (h.map (·.op)) = true → registered b (h.map (·.op)) = true →
        g.Meet (w b) (w a) → (a, b) ∈ l) ∧
      (Settled h → l.Nodup ∧ ∀ p ∈ l, p.1 < p.2 ∧ registered p.1 (h.map (·.op)) = true ∧
        registered p.2 (h.map (·.op)) = true) := by
  obtain ⟨m, e, hi⟩ := SHM.inv_run g big hn hh
  refine ⟨m, e, ?_⟩
  by_cases hs : m.size = 0
  · refine ⟨[], fun cb s => by simp [collideSelf, hs], fun a b _ ho => ?_, fun _ => by simp⟩
    rw [← knownBox_registered a h hh, ← hi.mem, List.length_eq_zero_iff.mp hs] at ho
    simp at ho
  · choose cand h1 h2 h3 using fun q => visit_spec.{_, _, v} hn hi hc hv w hw q
    refine ⟨m.objs.flatMap fun q => ((cand q).filter (fun p => decide (q < p))).map (fun o => (q, o)),
      fun cb s => ?_, fun a b hab ha hb hm => ?_, fun hset => ⟨?_, fun p hp => ?_⟩⟩
    · rw [collideSelf, if_neg hs]
      exact SHM.eachQ_spec (fun o p => decide (o < p)) cand h1 cb m.objs s
    · simp only [List.mem_flatMap, List.mem_map, List.mem_filter, Prod.mk.injEq]
      exact ⟨a, (hi.mem a).mpr ((knownBox_registered a h hh).mpr ha), b,
        ⟨h2 a b ((knownBox_registered b h hh).mpr hb) hm, by simpa using hab⟩, rfl, rfl⟩
    · exact nodup_pairs hi.nodup _ fun o _ => (h3 o hset).1.filter _
    · simp only [List.mem_flatMap, List.mem_map, List.mem_filter] at hp
      obtain ⟨q, hq, r, ⟨hr1, hr2⟩, rfl⟩ := hp
      exact ⟨of_decide_eq_true hr2, (knownBox_registered q h hh).mp ((hi.mem q).mp hq),
        (knownBox_registered r h hh).mp ((h3 q hset).2 r hr1)⟩

/-- **C23** (two managers): every pair of different objects, one registered in each manager, whose boxes meet, is
offered, in one order or the other. -/
theorem C23_managers_partial.{v} (g g' : Grid K) (hc : 0 < g.cell) (hc' : 0 < g'.cell) (hv : g.scene.Valid)
    (hv' : g'.scene.Valid) (big : K) {n n' : ℕ} (hn : n ≠ 0) (hn' : n' ≠ 0)
    {h h' : List (WCall K O)} (hh : GHistory h) (hh' : GHistory h') {w : O → AABB K} (hw : BoxesCurrent h w)
    (hw' : BoxesCurrent h' w) :
    ∃ m m', SHM.run g big n h = .ok m ∧ SHM.run g' big n' h' = .ok m' ∧ ∃ l : List (O × O),
      (∀ {σ : Type v} (cb : CB σ O) (s : σ), collideOther g g' w m m' cb s = .ok (runUntil cb s l).1) ∧
      (∀ a b, a ≠ b → registered a (h.map (·.op)) = true → registered b (h'.map (·.op)) = true →
        g.Meet (w a) (w b) → g'.Meet (w b) (w a) → (a, b) ∈ l ∨ (b, a) ∈ l) ∧
      (Settled h → Settled h' → l.Nodup ∧ ∀ p ∈ l, p.1 ≠ p.2 ∧
        ((registered p.1 (h.map (·.op)) = true ∧ registered p.2 (h'.map (·.op)) = true) ∨
         (registered p.2 (h.map (·.op)) = true ∧ registered p.1 (h'.map (·.op)) = true))) := by
  obtain ⟨m, e, hi⟩ := SHM.inv_run g big hn hh
  obtain ⟨m', e', hi'⟩ := SHM.inv_run g' big hn' hh'
  refine ⟨m, m', e, e', ?_⟩
  choose cand h1 h2 h3 using fun q => visit_spec.{_, _, v} hn hi hc hv w hw q
  choose cand' h1' h2' h3' using fun q => visit_spec.{_, _, v} hn' hi' hc' hv' w hw' q
  by_cases hs : m.size = 0 ∨ m'.size = 0
  · refine ⟨[], fun cb s => by simp [collideOther, hs], fun a b _ ha hb => ?_, fun _ _ => by simp⟩
    rw [← knownBox_registered a h hh, ← hi.mem] at ha
    rw [← knownBox_registered b h' hh', ← hi'.mem] at hb
    rcases hs with hs | hs
    · rw [List.length_eq_zero_iff.mp hs] at ha; simp at ha
    · rw [List.length_eq_zero_iff.mp hs] at hb; simp at hb
  · by_cases hlt : m.size < m'.size
    · refine ⟨m.objs.flatMap fun q => ((cand' q).filter (fun p => decide (q ≠ p))).map (fun o => (q, o)),
        fun cb s => ?_, fun a b hab ha hb hm hm' => ?_, fun hset hset' => ⟨?_, fun p hp => ?_⟩⟩
      · rw [collideOther, if_neg hs, if_pos hlt]
        exact SHM.eachQ_spec (fun o p => decide (o ≠ p)) cand' h1' cb m.objs s
      · left
        simp only [List.mem_flatMap, List.mem_map, List.mem_filter, Prod.mk.injEq]
        exact ⟨a, (hi.mem a).mpr ((knownBox_registered a h hh).mpr ha), b,
          ⟨h2' a b ((knownBox_registered b h' hh').mpr hb) hm', by simpa using hab⟩, rfl, rfl⟩
      · exact nodup_pairs hi.nodup _ fun o _ => (h3' o hset').1.filter _
      · simp only [List.mem_flatMap, List.mem_map, List.mem_filter] at hp
        obtain ⟨q, hq, r, ⟨hr1, hr2⟩, rfl⟩ := hp
        exact ⟨of_decide_eq_true hr2, .inl ⟨(knownBox_registered q h hh).mp ((hi.mem q).mp hq),
          (knownBox_registered r h' hh').mp ((h3' q hset').2 r hr1)⟩⟩
    · refine ⟨m'.objs.flatMap fun q => ((cand q).filter (fun p => decide (q ≠ p))).map (fun o => (q, o)),
        fun cb s => ?_, fun a b hab ha hb hm hm' => ?_, fun hset hset' => ⟨?_, fun p hp => ?_⟩⟩
      · rw [collideOther, if_neg hs, if_neg hlt]
        exact SHM.eachQ_spec (fun o p => decide (o ≠ p)) cand h1 cb m'.objs s
      · right
        simp only [List.mem_flatMap, List.mem_map, List.mem_filter, Prod.mk.injEq]
        exact ⟨b, (hi'.mem b).mpr ((knownBox_registered b h' hh').mpr hb), a,
          ⟨h2 b a ((knownBox_registered a h hh).mpr ha) hm, by simpa using hab.symm⟩, rfl, rfl⟩
      · exact nodup_pairs hi'.nodup _ fun o _ => (h3 o hset).1.filter _
      · simp only [List.mem_flatMap, List.mem_map, List.mem_filter] at hp
        obtain ⟨q, hq, r, ⟨hr1, hr2⟩, rfl⟩ := hp
        exact ⟨of_decide_eq_true hr2, .inr ⟨(knownBox_registered r h hh).mp ((h3 q hset).2 r hr1),
          (knownBox_registered q h' hh').mp ((hi'.mem q).mp hq)⟩⟩

/-! ### Concrete scenes -/

namespace SHashExample
/-- Scene limit from 0 to 10, unit cells. -/
def g : Grid ℚ := ⟨⟨⟨0, 0, 0⟩, ⟨10, 10, 10⟩⟩, 1⟩
/-- A cube with lower corner `(x, 0, 0)` and the given side. -/
def cube (x s : ℚ) : AABB ℚ := ⟨⟨x, 0, 0⟩, ⟨x + s, s, s⟩⟩
/-- Object 1 inside, object 2 across the limit, object 3 outside, object 4 inside and touching object 1. -/
def w : ℕ → AABB ℚ
  | 1 => cube 1 1
  | 2 => cube (19 / 2) 1
  | 3 => cube (41 / 4) 1
  | 4 => cube 2 1
  | _ => cube 20 1
/-- Register all four and update object 3. -/
def hist : List (WCall ℚ ℕ) := [⟨.registerMany [1, 2, 3, 4], w⟩, ⟨.updateObj 3, w⟩]

theorem hist_ok : GHistory hist :=
  .snoc (h := [⟨.registerMany [1, 2, 3, 4], w⟩]) (.snoc (h := []) .nil ⟨by decide, by simp [knownBox]⟩)
    (show knownBox 3 _ ≠ none by simp [knownBox, knownStep])

theorem current : BoxesCurrent hist w := by
  intro o b h
  simp only [hist, knownBox, List.foldl_cons, List.foldl_nil, knownStep] at h
  split at h
  · simp only [Option.map_eq_some_iff] at h
    obtain ⟨_, _, rfl⟩ := h; rfl
  · split at h
    · exact (Option.some.inj h).symm
    · simp at h

/-- Objects 2 (across) and 3 (outside) meet in the sense of C23. -/
theorem meet : g.Meet (w 3) (w 2) := by
  constructor
  · exact ⟨⟨41 / 4, 0, 0⟩, by simp [w, cube, AABB.pts], by simp [w, cube, AABB.pts]; norm_num⟩
  · rintro i k ⟨p, h1, h2, h3⟩
    have h1 := ((AABB.mem_pts _ _).mp h1 0).1
    have h3 := ((AABB.mem_pts _ _).mp h3 0).2
    simp only [w, cube, g, V3.get] at h1 h3
    norm_num at h1 h3
    linarith

/-- What the callback records. -/
def record : CB (List (ℕ × ℕ)) ℕ := fun s a b => (s ++ [(a, b)], false)

/-- Decidable form of `x = .ok a`. -/
def answers {α : Type} [DecidableEq α] : Except Fault α → α → Bool
  | .ok b, a => decide (b = a)
  | .error _, _ => false

theorem answers_eq {α : Type} [DecidableEq α] {x : Except Fault α} {a : α} (h : answers x a = true) : x = .ok a := by
  cases x with
  | ok b => rw [of_decide_eq_true h]
  | error e => simp [answers] at h

/-- Run a history, then a query. -/
def after {α : Type} (h : List (WCall ℚ ℕ)) (f : SHM ℚ ℕ → Except Fault α) : Except Fault α :=
  match SHM.run g 1000 11 h with
  | .ok m => f m
  | .error e => .error e

/-- The self query on this scene reports the pair (2, 3), and not the touching pair (1, 4). -/
example : after hist (fun m => collideSelf g w m record []) = .ok [(2, 3)] := answers_eq (by decide +kernel)
end SHashExample

/-- Boxes that touch in a plane between two layers of cells share a point, yet neither query reports them. -/
theorem C23_touching_missed : ∃ (g : Grid ℚ) (h : List (WCall ℚ ℕ)) (w : ℕ → AABB ℚ) (m : SHM ℚ ℕ),
    GHistory h ∧ BoxesCurrent h w ∧ g.scene.Valid ∧ SHM.run g 1000 11 h = .ok m ∧
    registered 1 (h.map (·.op)) = true ∧ registered 4 (h.map (·.op)) = true ∧
    (∃ p, p ∈ (w 1).pts ∧ p ∈ (w 4).pts) ∧ (w 1).overlap (w 4) = true ∧
    collideObj g w m SHashExample.record 1 [] = .ok [] ∧ collideObj g w m SHashExample.record 4 [] = .ok [] ∧
    collideSelf g w m SHashExample.record [] = .ok [(2, 3)] := by
  obtain ⟨m, e, -⟩ := SHM.inv_run SHashExample.g 1000 (n := 11) (by decide) SHashExample.hist_ok
  have a1 : SHashExample.after SHashExample.hist (fun m => collideObj SHashExample.g SHashExample.w m
    SHashExample.record 1 []) = .ok [] := SHashExample.answers_eq (by decide +kernel)
  have a2 : SHashExample.after SHashExample.hist (fun m => collideObj SHashExample.g SHashExample.w m
    SHashExample.record 4 []) = .ok [] := SHashExample.answers_eq (by decide +kernel)
  have a3 : SHashExample.after SHashExample.hist (fun m => collideSelf SHashExample.g SHashExample.w m
    SHashExample.record []) = .ok [(2, 3)] := SHashExample.answers_eq (by decide +kernel)
  simp only [SHashExample.after, e] at a1 a2 a3
  refine ⟨SHashExample.g, SHashExample.hist, SHashExample.w, m, SHashExample.hist_ok, SHashExample.current,
    ?_, e, by decide, by decide, ⟨⟨2, 0, 0⟩, ?_, ?_⟩, by decide +kernel, a1, a2, a3⟩
  · simp [AABB.Valid, SHashExample.g]
  · simp [SHashExample.w, SHashExample.cube, AABB.pts]; norm_num
  · simp [SHashExample.w, SHashExample.cube, AABB.pts]

/-- Two flat boxes at the same place, in a plane between two layers of cells, are stored in no cell and never
reported. -/
theorem C23_flat_missed : ∃ (g : Grid ℚ) (h : List (WCall ℚ ℕ)) (w : ℕ → AABB ℚ) (m : SHM ℚ ℕ),
    GHistory h ∧ BoxesCurrent h w ∧ g.scene.Valid ∧ SHM.run g 1000 11 h = .ok m ∧
    registered 1 (h.map (·.op)) = true ∧ registered 2 (h.map (·.op)) = true ∧ w 1 = w 2 ∧ (w 1).Valid ∧
    g.scene.contain (w 1) = true ∧ collideSelf g w m SHashExample.record [] = .ok [] := by
  have hh : GHistory (K := ℚ) (O := ℕ) [⟨.registerMany [1, 2], fun _ => ⟨⟨2, 3, 3⟩, ⟨2, 4, 4⟩⟩⟩] :=
    .snoc (h := []) .nil ⟨by decide, by simp [knownBox]⟩
  obtain ⟨m, e, -⟩ := SHM.inv_run SHashExample.g 1000 (n := 11) (by decide) hh
  have a1 : SHashExample.after [⟨.registerMany [1, 2], fun _ => ⟨⟨2, 3, 3⟩, ⟨2, 4, 4⟩⟩⟩] (fun m =>
    collideSelf SHashExample.g (fun _ => ⟨⟨2, 3, 3⟩, ⟨2, 4, 4⟩⟩) m SHashExample.record []) = .ok [] :=
    SHashExample.answers_eq (by decide +kernel)
  simp only [SHashExample.after, e] at a1
  refine ⟨_, _, _, m, hh, ?_, ?_, e, by decide, by decide, rfl, ?_, by decide +kernel, a1⟩
  · intro o b h
    simp only [knownBox, List.foldl_cons, List.foldl_nil, knownStep] at h
    split at h
    · exact (Option.some.inj h).symm
    · simp at h
  · simp [AABB.Valid, SHashExample.g]
  · simp [AABB.Valid]; norm_num

/-- C24 fails for the spatial hash manager: an object that was across the scene limit when `clear()` was called is
still reported afterwards. -/
theorem C24_shash_stale : ∃ (g : Grid ℚ) (h : List (WCall ℚ ℕ)) (w : ℕ → AABB ℚ) (m : SHM ℚ ℕ),
    GHistory h ∧ BoxesCurrent h w ∧ SHM.run g 1000 11 h = .ok m ∧ registered 2 (h.map (·.op)) = false ∧
    collideObj g w m SHashExample.record 3 [] = .ok [(3, 2)] := by
  have hh : GHistory (K := ℚ) (O := ℕ)
      [⟨.register 2, SHashExample.w⟩, ⟨.clear, SHashExample.w⟩, ⟨.register 3, SHashExample.w⟩] :=
    .snoc (h := [⟨.register 2, SHashExample.w⟩, ⟨.clear, SHashExample.w⟩])
      (.snoc (h := [⟨.register 2, SHashExample.w⟩]) (.snoc (h := []) .nil rfl) trivial) rfl
  obtain ⟨m, e, -⟩ := SHM.inv_run SHashExample.g 1000 (n := 11) (by decide) hh
  have a1 : SHashExample.after _ (fun m =>
    collideObj SHashExample.g SHashExample.w m SHashExample.record 3 []) = .ok [(3, 2)] :=
    SHashExample.answers_eq (x := SHashExample.after
      [⟨.register 2, SHashExample.w⟩, ⟨.clear, SHashExample.w⟩, ⟨.register 3, SHashExample.w⟩] _) (by decide +kernel)
  simp only [SHashExample.after, e] at a1
  refine ⟨_, _, _, m, hh, ?_, e, by decide, a1⟩
  intro o b h
  simp only [knownBox, List.foldl_cons, List.foldl_nil, knownStep] at h
  split at h
  · exact (Option.some.inj h).symm
  · simp at h

/-- C24 for the spatial hash manager, the part that holds: `clear()` succeeds and empties the manager, and if no
object was across the scene limit, or after the next `update()`, nothing registered before is reported
(`C23_object_partial` with `Settled`). -/
theorem C24_shash_partial (g : Grid K) (big : K) {n : ℕ} (hn : n ≠ 0) {h : List (WCall K O)} (hh : GHistory h) :
    ∃ m m', SHM.run g big n h = .ok m ∧ m.clear = .ok m' ∧ m'.getObjects = [] ∧ m'.size = 0 ∧
      m'.isEmpty = true ∧ m'.part = m.part ∧ (m.part = [] → SHM.new (K := K) n = .ok m') := by
  obtain ⟨m, e, hi⟩ := SHM.inv_run g big hn hh
  refine ⟨m, { m with objs := [], table := { m.table with bins := Simple.resize [] n }, outside := [], known := fun _ => none },
    e, by simp [SHM.clear, Simple.clear, hi.p.size], rfl, rfl, rfl, rfl, fun hp => ?_⟩
  simp [SHM.new, Simple.new, Simple.init, hn, hp, hi.p.size]

/-! ### Distance queries (the spatial hash part of C15) -/

section distance
variable {σ : Type*} {dist : AABB K → AABB K → K} {eqv : AABB K → AABB K → Bool} {P : σ → K → Prop}

/-- C15 for the spatial hash manager, value: when `distance(obj)` returns, the bound is the minimum over all other
registered objects. `ps` lists the pairs `(obj, other)`. Missing: it may not return (`C15_shash_diverges_single`), and
objects that cannot be reached through the cells (`SHM.Reach`; it holds for boxes with proper extents within the scene
limit or apart from it). -/
theorem C15_shash_object_partial (g : Grid K) (hc : 0 < g.cell) (hv : g.scene.Valid) (big : K) {n : ℕ} (hn : n ≠ 0)
    {h : List (WCall K O)} (hh : GHistory h) (hset : Settled h) {w : O → AABB K} (hw : BoxesCurrent h w) (q : O)
    (d : O → O → K) (cb : DCB σ K O) (ps : List (O × O))
    (hps : ∀ p, p ∈ ps ↔ p.1 = q ∧ p.2 ≠ q ∧ registered p.2 (h.map (·.op)) = true)
    (hd : ∀ p ∈ ps, dist (w p.1) (w p.2) ≤ d p.1 p.2) (hcb : cb.Tracks P d ps)
    (hr : ∀ o, o ≠ q → registered o (h.map (·.op)) = true → Reach g dist (w q) (w o))
    (fuel : ℕ) (s : σ) (hP : P s big) :
    ∃ m, SHM.run g big n h = .ok m ∧ ∀ x, distanceObj g dist eqv big w m cb fuel q s = some x →
      ∃ s', x = .ok (s', minDist d big ps) := by
  obtain ⟨m, e, hi⟩ := SHM.inv_run g big hn hh
  refine ⟨m, e, fun x hx => ?_⟩
  have hreg := fun o => knownBox_registered o h hh
  rw [distanceObj] at hx
  split at hx
  · rename_i h0
    obtain rfl := (Option.some.inj hx).symm
    refine ⟨s, ?_⟩
    have : ps = [] := by
      rw [List.eq_nil_iff_forall_not_mem]
      intro p hp
      have := ((hps p).mp hp).2.2
      rw [← hreg, ← hi.mem, List.length_eq_zero_iff.mp h0] at this
      simp at this
    rw [this]; rfl
  · have hg : Good P d big ps (⟨s, big, []⟩ : DState σ K O) := ⟨hP, minDist_le_big _ _ _, by simp⟩
    cases hq : distQ g dist eqv big w m false cb fuel q ⟨s, big, []⟩ with
    | none => simp [hq] at hx
    | some y =>
      obtain ⟨r, rfl, f⟩ := distQ_spec hn hi hset hc hv hw hcb (by simp) q
        (fun o ho hoq => (hps _).mpr ⟨rfl, hoq, (hreg o).mp ho⟩) hd (fun o ho hoq => hr o hoq ((hreg o).mp ho)) fuel _ hg hq
      simp only [hq] at hx
      obtain rfl := (Option.some.inj hx).symm
      refine ⟨r.1.s, ?_⟩
      have hle : r.1.md ≤ minDist d big ps := by
        refine le_minDist _ _ _ _ f.le fun p hp => ?_
        cases hs : r.2 with
        | true => exact f.stop hs p hp
        | false =>
          obtain ⟨h1, h2, h3⟩ := (hps p).mp hp
          rw [h1]
          exact f.all hs p.2 ((hreg _).mpr h3) h2
      rw [le_antisymm hle f.good.low]

theorem SHM.distEach_spec {w : O → AABB K} {big : K} {f : O → DState σ K O → Option (Except Fault (DState σ K O × Bool))}
    {d : O → O → K} {ps : List (O × O)} {A : O → Prop} (os : List O)
    (hf : ∀ q ∈ os, ∀ t, Good P d big ps t → ∀ x, f q t = some x → ∃ r, x = .ok r ∧ Found P d big ps q A t r)
    (t : DState σ K O) (ht : Good P d big ps t) {x} (hx : distEach f os t = some x) :
    ∃ r, x = .ok r ∧ Good P d big ps r ∧ r.md ≤ t.md ∧
      ((∀ p ∈ ps, r.md ≤ d p.1 p.2) ∨ ∀ q ∈ os, ∀ o, A o → o ≠ q → r.md ≤ d q o) := by
  induction os generalizing t with
  | nil =>
    obtain rfl := (Option.some.inj hx).symm
    exact ⟨t, rfl, ht, le_rfl, .inr (by simp)⟩
  | cons q os ih =>
    rw [distEach] at hx
    cases hq : f q t with
    | none => simp [hq] at hx
    | some y =>
      obtain ⟨r, rfl, fd⟩ := hf q (List.mem_cons_self ..) t ht y hq
      simp only [hq] at hx
      split at hx
      · rename_i hs
        obtain rfl := (Option.some.inj hx).symm
        exact ⟨r.1, rfl, fd.good, fd.le, .inl (fd.stop hs)⟩
      · rename_i hs
        rw [Bool.not_eq_true] at hs
        obtain ⟨r', e, h1, h2, h3⟩ := ih (fun q hq => hf q (List.mem_cons_of_mem _ hq)) r.1 fd.good hx
        refine ⟨r', e, h1, h2.trans fd.le, h3.imp id fun h3 p hp o ho hop => ?_⟩
        rcases List.mem_cons.mp hp with rfl | hp
        · exact h2.trans (fd.all hs o ho hop)
        · exact h3 p hp o ho hop

/-- C15 for the spatial hash manager, self-distance: the value when it returns. The callback's distance does not
depend on the order of the pair. -/
theorem C15_shash_self_partial (g : Grid K) (hc : 0 < g.cell) (hv : g.scene.Valid) (big : K) {n : ℕ} (hn : n ≠ 0)
    {h : List (WCall K O)} (hh : GHistory h) (hset : Settled h) {w : O → AABB K} (hw : BoxesCurrent h w)
    (d : O → O → K) (hsym : ∀ a b, d a b = d b a) (cb : DCB σ K O) (ps : List (O × O))
    (hps : ∀ p, p ∈ ps ↔ registered p.1 (h.map (·.op)) = true ∧ p.2 ≠ p.1 ∧ registered p.2 (h.map (·.op)) = true)
    (hd : ∀ p ∈ ps, dist (w p.1) (w p.2) ≤ d p.1 p.2) (hcb : cb.Tracks P d ps)
    (hr : ∀ p ∈ ps, Reach g dist (w p.1) (w p.2)) (fuel : ℕ) (s : σ) (hP : P s big) :
    ∃ m, SHM.run g big n h = .ok m ∧ ∀ x, distanceSelf g dist eqv big w m cb fuel s = some x →
      ∃ s', x = .ok (s', minDist d big ps) := by
  obtain ⟨m, e, hi⟩ := SHM.inv_run g big hn hh
  refine ⟨m, e, fun x hx => ?_⟩
  have hreg := fun o => knownBox_registered o h hh
  rw [distanceSelf] at hx
  split at hx
  · rename_i h0
    obtain rfl := (Option.some.inj hx).symm
    refine ⟨s, ?_⟩
    have : ps = [] := by
      rw [List.eq_nil_iff_forall_not_mem]
      intro p hp
      have := ((hps p).mp hp).2.2
      rw [← hreg, ← hi.mem, List.length_eq_zero_iff.mp h0] at this
      simp at this
    rw [this]; rfl
  · have hg : Good P d big ps (⟨s, big, []⟩ : DState σ K O) := ⟨hP, minDist_le_big _ _ _, by simp⟩
    cases hq : distEach (distQ g dist eqv big w m true cb fuel) m.objs ⟨s, big, []⟩ with
    | none => simp [hq] at hx
    | some y =>
      obtain ⟨r, rfl, h1, h2, h3⟩ := SHM.distEach_spec (w := w) (A := fun o => knownBox o h ≠ none) m.objs
        (fun q hqm t ht x hx => by
          have hqr := (hreg q).mp ((hi.mem q).mp hqm)
          exact distQ_spec hn hi hset hc hv hw hcb (fun _ => hsym) q
            (fun o ho hoq => (hps _).mpr ⟨hqr, hoq, (hreg o).mp ho⟩) hd
            (fun o ho hoq => hr (q, o) ((hps _).mpr ⟨hqr, hoq, (hreg o).mp ho⟩)) fuel t ht hx) _ hg hq
      simp only [hq] at hx
      obtain rfl := (Option.some.inj hx).symm
      refine ⟨r.s, ?_⟩
      have hle : r.md ≤ minDist d big ps := by
        refine le_minDist _ _ _ _ h2 fun p hp => ?_
        rcases h3 with h3 | h3
        · exact h3 p hp
        · obtain ⟨i1, i2, i3⟩ := (hps p).mp hp
          exact h3 p.1 ((hi.mem _).mpr ((hreg _).mpr i1)) p.2 ((hreg _).mpr i3) i2
      rw [le_antisymm hle h1.low]

/-- C15 for two spatial hash managers: the value when it returns. `ps` lists all pairs of different objects, one
registered in each manager, in both orders. -/
theorem C15_shash_managers_partial (g g' : Grid K) (hc : 0 < g.cell) (hc' : 0 < g'.cell) (hv : g.scene.Valid)
    (hv' : g'.scene.Valid) (big : K) {n n' : ℕ} (hn : n ≠ 0) (hn' : n' ≠ 0)
    {h h' : List (WCall K O)} (hh : GHistory h) (hh' : GHistory h') (hset : Settled h) (hset' : Settled h')
    {w : O → AABB K} (hw : BoxesCurrent h w) (hw' : BoxesCurrent h' w)
    (d : O → O → K) (hsym : ∀ a b, d a b = d b a) (cb : DCB σ K O) (ps : List (O × O))
    (hps : ∀ p, p ∈ ps ↔ p.2 ≠ p.1 ∧
      ((registered p.1 (h.map (·.op)) = true ∧ registered p.2 (h'.map (·.op)) = true) ∨
       (registered p.2 (h.map (·.op)) = true ∧ registered p.1 (h'.map (·.op)) = true)))
    (hd : ∀ p ∈ ps, dist (w p.1) (w p.2) ≤ d p.1 p.2) (hcb : cb.Tracks P d ps)
    (hr : ∀ p ∈ ps, Reach g dist (w p.1) (w p.2) ∧ Reach g' dist (w p.1) (w p.2)) (fuel : ℕ) (s : σ) (hP : P s big) :
    ∃ m m', SHM.run g big n h = .ok m ∧ SHM.run g' big n' h' = .ok m' ∧
      ∀ x, distanceOther g g' dist eqv big w m m' cb fuel s = some x → ∃ s', x = .ok (s', minDist d big ps) := by
  obtain ⟨m, e, hi⟩ := SHM.inv_run g big hn hh
  obtain ⟨m', e', hi'⟩ := SHM.inv_run g' big hn' hh'
  refine ⟨m, m', e, e', fun x hx => ?_⟩
  have hreg := fun o => knownBox_registered o h hh
  have hreg' := fun o => knownBox_registered o h' hh'
  rw [distanceOther] at hx
  split at hx
  · rename_i h0
    obtain rfl := (Option.some.inj hx).symm
    refine ⟨s, ?_⟩
    have : ps = [] := by
      rw [List.eq_nil_iff_forall_not_mem]
      intro p hp
      obtain ⟨-, h1⟩ := (hps p).mp hp
      simp only [← hreg, ← hreg', ← hi.mem, ← hi'.mem] at h1
      rcases h0 with h0 | h0
      · rw [List.length_eq_zero_iff.mp h0] at h1; simp at h1
      · rw [List.length_eq_zero_iff.mp h0] at h1; simp at h1
    rw [this]; rfl
  · have hg : Good P d big ps (⟨s, big, []⟩ : DState σ K O) := ⟨hP, minDist_le_big _ _ _, by simp⟩
    -- whichever manager is searched
    suffices hs : ∀ y, (if m.size < m'.size then distEach (distQ g' dist eqv big w m' false cb fuel) m.objs ⟨s, big, []⟩
        else distEach (distQ g dist eqv big w m false cb fuel) m'.objs ⟨s, big, []⟩) = some y →
        ∃ r, y = .ok r ∧ r.md = minDist d big ps by
      split at hx
      · simp at hx
      · rename_i heq
        obtain ⟨r, h1, -⟩ := hs _ heq
        simp at h1
      · rename_i t heq
        obtain ⟨r, h1, h2⟩ := hs _ heq
        obtain rfl := Except.ok.inj h1
        obtain rfl := (Option.some.inj hx).symm
        exact ⟨_, by rw [h2]⟩
    intro y hy
    split at hy
    · obtain ⟨r, rfl, h1, h2, h3⟩ := SHM.distEach_spec (w := w) (A := fun o => knownBox o h' ≠ none) m.objs
        (fun q hqm t ht x hx => by
          have hqr := (hreg q).mp ((hi.mem q).mp hqm)
          have hin : ∀ o, knownBox o h' ≠ none → o ≠ q → (q, o) ∈ ps := fun o ho hoq =>
            (hps _).mpr ⟨hoq, .inl ⟨hqr, (hreg' o).mp ho⟩⟩
          exact distQ_spec hn' hi' hset' hc' hv' hw' hcb (by simp) q hin hd
            (fun o ho hoq => (hr (q, o) (hin o ho hoq)).2) fuel t ht hx) _ hg hy
      refine ⟨r, rfl, le_antisymm (le_minDist _ _ _ _ h2 fun p hp => ?_) h1.low⟩
      rcases h3 with h3 | h3
      · exact h3 p hp
      · obtain ⟨i1, ⟨i2, i3⟩ | ⟨i2, i3⟩⟩ := (hps p).mp hp
        · exact h3 p.1 ((hi.mem _).mpr ((hreg _).mpr i2)) p.2 ((hreg' _).mpr i3) i1
        · rw [hsym]
          exact h3 p.2 ((hi.mem _).mpr ((hreg _).mpr i2)) p.1 ((hreg' _).mpr i3) (Ne.symm i1)
    · obtain ⟨r, rfl, h1, h2, h3⟩ := SHM.distEach_spec (w := w) (A := fun o => knownBox o h ≠ none) m'.objs
        (fun q hqm t ht x hx => by
          have hqr := (hreg' q).mp ((hi'.mem q).mp hqm)
          have hin : ∀ o, knownBox o h ≠ none → o ≠ q → (q, o) ∈ ps := fun o ho hoq =>
            (hps _).mpr ⟨hoq, .inr ⟨(hreg o).mp ho, hqr⟩⟩
          exact distQ_spec hn hi hset hc hv hw hcb (by simp) q hin hd
            (fun o ho hoq => (hr (q, o) (hin o ho hoq)).1) fuel t ht hx) _ hg hy
      refine ⟨r, rfl, le_antisymm (le_minDist _ _ _ _ h2 fun p hp => ?_) h1.low⟩
      rcases h3 with h3 | h3
      · exact h3 p hp
      · obtain ⟨i1, ⟨i2, i3⟩ | ⟨i2, i3⟩⟩ := (hps p).mp hp
        · rw [hsym]
          exact h3 p.2 ((hi'.mem _).mpr ((hreg' _).mpr i3)) p.1 ((hreg _).mpr i2) (Ne.symm i1)
        · exact h3 p.1 ((hi'.mem _).mpr ((hreg' _).mpr i3)) p.2 ((hreg _).mpr i2) i1

/-- C15 for the spatial hash manager, termination of `distance(obj)`: the query box has proper extents and some other
registered object, stored properly, is at finite distance. -/
theorem C15_shash_object_terminates_partial (g : Grid K) (hc : 0 < g.cell) (hv : g.scene.Valid) (big : K) {n : ℕ}
    (hn : n ≠ 0) {h : List (WCall K O)} (hh : GHistory h) (hset : Settled h) {w : O → AABB K} (hw : BoxesCurrent h w)
    (q o : O) (d : O → O → K) (cb : DCB σ K O) (ps : List (O × O))
    (hps : ∀ o, o ≠ q → registered o (h.map (·.op)) = true → (q, o) ∈ ps)
    (hd : ∀ p ∈ ps, dist (w p.1) (w p.2) ≤ d p.1 p.2) (hcb : cb.Tracks P d ps) (heq : eqv (w q) (w q) = true)
    (hsolid : ∀ i, (w q).lo.get i < (w q).hi.get i) (ho : registered o (h.map (·.op)) = true) (hoq : o ≠ q)
    (hfin : d q o < big) (hoo : g.Meet (w o) (w o)) :
    ∃ m, SHM.run g big n h = .ok m ∧ ∃ F, ∀ fuel ≥ F, ∀ s, P s big →
      ∃ x, distanceObj g dist eqv big w m cb fuel q s = some x := by
  obtain ⟨m, e, hi⟩ := SHM.inv_run g big hn hh
  refine ⟨m, e, ?_⟩
  have hreg := fun o => knownBox_registered o h hh
  obtain ⟨F, hF⟩ := distQ_terminates (dist := dist) (eqv := eqv) (big := big) (on := false) hn hi hset hc hv hw hcb
    (by simp) q (fun o ho hoq => hps o hoq ((hreg o).mp ho)) hd heq hsolid o ((hreg o).mpr ho) hoq hfin hoo
  refine ⟨F, fun fuel hf s hP => ?_⟩
  rw [distanceObj]
  split
  · exact ⟨_, rfl⟩
  · obtain ⟨x, hx⟩ := hF fuel hf ⟨s, big, []⟩ ⟨hP, minDist_le_big _ _ _, by simp⟩
    rw [hx]
    cases x with
    | ok r => exact ⟨_, rfl⟩
    | error e => exact ⟨_, rfl⟩

/-- C15 fails for the spatial hash manager too: with a single registered object, `distance()` and `distance(obj)` never
return. -/
theorem C15_shash_diverges_single (g : Grid K) (hc : 0 < g.cell) (hv : g.scene.Valid) (big : K) {n : ℕ}
    (hn : n ≠ 0) {h : List (WCall K O)} (hh : GHistory h) (hset : Settled h) {w : O → AABB K} (hw : BoxesCurrent h w)
    (o : O) (ho : ∀ p, registered p (h.map (·.op)) = true ↔ p = o) (cb : DCB σ K O) (s : σ) :
    ∃ m, SHM.run g big n h = .ok m ∧ ∀ fuel, distanceObj g dist eqv big w m cb fuel o s = none ∧
      distanceSelf g dist eqv big w m cb fuel s = none := by
  obtain ⟨m, e, hi⟩ := SHM.inv_run g big hn hh
  refine ⟨m, e, fun fuel => ?_⟩
  have hreg := fun o => knownBox_registered o h hh
  have hobj : m.objs = [o] := by
    refine List.perm_singleton.1 ((List.perm_ext_iff_of_nodup hi.nodup (List.nodup_singleton o)).2 ?_)
    intro p
    rw [hi.mem, hreg, ho, List.mem_singleton]
  have hs : m.size ≠ 0 := by simp [SHM.size, hobj]
  have hdv : ∀ on, distQ g dist eqv big w m on cb fuel o ⟨s, big, []⟩ = none := fun on => by
    rw [distQ]
    exact distLoop_diverges hn hi hset hc hv hw o (fun p hp => (ho p).mp ((hreg p).mp hp)) _ _ _ le_rfl
  constructor
  · rw [distanceObj, if_neg hs, hdv]
  · rw [distanceSelf, if_neg hs, hobj, distEach, hdv]

end distance

namespace SHashExample
/-- A distance along x, for the examples. -/
def gapX (a b : AABB ℚ) : ℚ := max 0 (max (a.lo.x - b.hi.x) (b.lo.x - a.hi.x))
/-- A callback that keeps the minimum of `gapX`. -/
def nearest : DCB Unit ℚ ℕ := fun _ md a b => ((), min md (gapX (w a) (w b)), false)
/-- The objects 1 and 4 are registered, both within the scene limit and with proper extents. -/
def pair : List (WCall ℚ ℕ) := [⟨.registerMany [1, 4], w⟩]

/-- The hypotheses of the distance theorems are met by `pair`, and the answer is 0. -/
example : GHistory pair ∧ Settled pair ∧ nearest.Tracks (fun _ _ => True) (fun a b => gapX (w a) (w b)) [(1, 4)] ∧
    g.scene.contain (w 4) = true ∧ g.Meet (w 4) (w 4) ∧
    (match SHM.run g 1000 11 pair with
      | .ok m => (distanceObj g gapX (fun a b => decide (a.lo = b.lo ∧ a.hi = b.hi)) 1000 w m nearest 3 1 ()).isSome
      | .error _ => false) = true := by
  refine ⟨.snoc (h := []) .nil ⟨by decide, by simp [knownBox]⟩, rfl, fun s md _ a b => ⟨trivial, rfl, by simp [nearest]⟩,
    by decide +kernel, ⟨⟨⟨2, 0, 0⟩, ?_, ?_⟩, ?_⟩, by decide +kernel⟩
  · simp [w, cube, AABB.pts]
  · simp [w, cube, AABB.pts]
  · intro i k _
    by_cases hk : (⟨2, 0, 0⟩ : V3 ℚ).get i = g.scene.lo.get i + k * g.cell
    · refine ⟨⟨5 / 2, 1 / 2, 1 / 2⟩, ?_, ?_⟩
      · simp [Grid.common, w, cube, AABB.pts, g]; norm_num
      · intro hk2
        have hk' : (⟨2, 0, 0⟩ : V3 ℚ).get i - (⟨5 / 2, 1 / 2, 1 / 2⟩ : V3 ℚ).get i = 0 := by linarith
        fin_cases i <;> simp [V3.get] at hk' <;> norm_num at hk'
    · exact ⟨⟨2, 0, 0⟩, by simp [Grid.common, w, cube, AABB.pts, g]; norm_num, hk⟩
end SHashExample

end Fcl
