import Verif.SHash.Spec
import Verif.Hash.Lemmas
import Verif.AABB.Lemmas
import Mathlib.Data.List.Nodup
import Mathlib.Data.List.Induction
import Mathlib.Logic.Function.Basic
import Mathlib.Tactic.Linarith

/-! Invariant of the spatial hash manager. -/

set_option linter.unusedSectionVars false
set_option linter.unusedSimpArgs false

namespace Fcl
open Hash
variable {K O : Type*} [Field K] [LinearOrder K] [FloorRing K] [LinearOrder O]

namespace SHM

/-- Cells of a box, as positions in the table. -/
def cells (g : Grid K) (n : ℕ) (b : AABB K) : List ℕ := (g.keys (inner g b)).map (· % n)

/-- Table and lists agree with the boxes `kb`. With `ex` the list of objects across the limit is exact, otherwise
it may contain more. -/
structure PInv (g : Grid K) (n : ℕ) (ex : Prop) (kb : O → Option (AABB K)) (t : Simple O) (part outside : List O) :
    Prop where
  size : t.size = some n
  len : t.bins.length = n
  bins : ∀ c o, o ∈ bin t.bins c ↔ ∃ b, kb o = some b ∧ g.scene.overlap b = true ∧ c ∈ cells g n b
  across : ∀ o b, kb o = some b → g.scene.overlap b = true → g.scene.contain b = false → o ∈ part
  out : ∀ o, o ∈ outside ↔ ∃ b, kb o = some b ∧ g.scene.overlap b = false
  nodup : outside.Nodup
  exact' : ex → part.Nodup ∧ ∀ o ∈ part, ∃ b, kb o = some b ∧ g.scene.overlap b = true ∧ g.scene.contain b = false

variable {g : Grid K} {n : ℕ} {ex : Prop} {kb : O → Option (AABB K)} {t : Simple O} {part outside : List O}

theorem nodup_snoc {l : List O} {o : O} (h : l.Nodup) (ho : o ∉ l) : (l ++ [o]).Nodup := by
  rw [List.nodup_append]
  exact ⟨h, by simp, by rintro a ha b hb rfl; rw [List.mem_singleton] at hb; subst hb; exact ho ha⟩

/-- Adding an object to the right list and to the table. -/
theorem PInv.add (hn : n ≠ 0) (hi : PInv g n ex kb t part outside) (o : O) (ho : kb o = none) (b : AABB K) :
    (g.scene.overlap b = true → ∃ t', t.insert g.keys (inner g b) o = .ok t' ∧
      PInv g n ex (Function.update kb o (some b)) t' (if g.scene.contain b then part else part ++ [o]) outside) ∧
    (g.scene.overlap b = false → PInv g n ex (Function.update kb o (some b)) t part (outside ++ [o])) := by
  constructor
  · intro hb
    obtain ⟨t', e, h1, h2, h3⟩ := t.insert_spec g.keys (inner g b) o (by rw [hi.len]; exact hn)
    refine ⟨t', e, h1.trans hi.size, h2.trans hi.len, ?_, ?_, ?_, hi.nodup, ?_⟩
    · intro c p
      rw [h3, hi.bins, hi.len]
      by_cases hp : p = o
      · subst hp; simp [ho, hb, cells]
      · simp [Function.update_of_ne hp, hp]
    · intro p c hp h1 h2
      by_cases e : p = o
      · subst e
        simp only [Function.update_self, Option.some.injEq] at hp
        subst hp
        simp [h2]
      · rw [Function.update_of_ne e] at hp
        have := hi.across p c hp h1 h2
        split
        · exact this
        · exact List.mem_append_left _ this
    · intro p
      rw [hi.out]
      by_cases hp : p = o
      · subst hp; simp [ho, hb]
      · simp [Function.update_of_ne hp]
    · intro hex
      obtain ⟨h4, h5⟩ := hi.exact' hex
      have hop : o ∉ part := fun h => by
        obtain ⟨b', e, -⟩ := h5 o h
        rw [ho] at e; simp at e
      have key : ∀ p ∈ part, ∃ c, Function.update kb o (some b) p = some c ∧ g.scene.overlap c = true ∧
          g.scene.contain c = false := fun p hp => by
        have : p ≠ o := by rintro rfl; exact hop hp
        rw [Function.update_of_ne this]; exact h5 p hp
      split
      · exact ⟨h4, key⟩
      · rename_i hc
        refine ⟨nodup_snoc h4 hop, fun p hp => ?_⟩
        rcases List.mem_append.mp hp with hp | hp
        · exact key p hp
        · rw [List.mem_singleton.mp hp]
          exact ⟨b, by simp, hb, by simpa using hc⟩
  · intro hb
    refine ⟨hi.size, hi.len, ?_, ?_, ?_, ?_, ?_⟩
    · intro c p
      rw [hi.bins]
      by_cases hp : p = o
      · subst hp; simp [ho, hb]
      · simp [Function.update_of_ne hp]
    · intro p c hp h1 h2
      by_cases e : p = o
      · subst e
        simp only [Function.update_self, Option.some.injEq] at hp
        subst hp
        rw [hb] at h1; simp at h1
      · rw [Function.update_of_ne e] at hp
        exact hi.across p c hp h1 h2
    · intro p
      rw [List.mem_append, hi.out, List.mem_singleton]
      by_cases hp : p = o
      · subst hp; simp [ho, hb]
      · simp [Function.update_of_ne hp, hp]
    · refine nodup_snoc hi.nodup fun h => ?_
      obtain ⟨b', e, -⟩ := (hi.out o).mp h
      rw [ho] at e; simp at e
    · intro hex
      obtain ⟨h4, h5⟩ := hi.exact' hex
      refine ⟨h4, fun p hp => ?_⟩
      obtain ⟨c, e, h6⟩ := h5 p hp
      have : p ≠ o := by rintro rfl; rw [ho] at e; simp at e
      rw [Function.update_of_ne this]; exact ⟨c, e, h6⟩

theorem mem_drop (o p : O) (l : List O) : p ∈ drop o l ↔ p ∈ l ∧ p ≠ o := by simp [drop]

/-- Removing an object from the table and from its list, in either way the code does it. -/
theorem PInv.del (hn : n ≠ 0) (hi : PInv g n ex kb t part outside) (o : O) (b : AABB K)
    (ho : ∀ c, kb o = some c → c = b) :
    (g.scene.overlap b = true → ∃ t', t.remove g.keys (inner g b) o = .ok t' ∧
      (∀ part', (∀ p, p ≠ o → p ∈ part → p ∈ part') → (ex → part'.Nodup ∧ (∀ p ∈ part', p ∈ part) ∧ o ∉ part') →
        PInv g n ex (Function.update kb o none) t' part' outside)) ∧
    (g.scene.overlap b = false → ∀ outside', outside'.Nodup → (∀ p, p ∈ outside' ↔ p ∈ outside ∧ p ≠ o) →
        PInv g n ex (Function.update kb o none) t part outside') := by
  constructor
  · intro hb
    obtain ⟨t', e, h1, h2, h3⟩ := t.remove_spec g.keys (inner g b) o (by rw [hi.len]; exact hn)
    refine ⟨t', e, fun part' hp1 hp2 => ⟨h1.trans hi.size, h2.trans hi.len, ?_, ?_, ?_, hi.nodup, ?_⟩⟩
    · intro c p
      rw [h3, hi.bins, hi.len]
      by_cases hp : p = o
      · subst hp
        refine iff_of_false ?_ (by simp)
        rintro ⟨⟨c', hc', -, hm⟩, h⟩
        rw [ho c' hc'] at hm
        exact h rfl hm
      · simp [Function.update_of_ne hp, hp]
    · intro p c hp h1 h2
      by_cases e : p = o
      · subst e; simp at hp
      · rw [Function.update_of_ne e] at hp
        exact hp1 p e (hi.across p c hp h1 h2)
    · intro p
      rw [hi.out]
      by_cases hp : p = o
      · subst hp
        simp only [Function.update_self, reduceCtorEq, false_and, exists_false, iff_false, not_exists, not_and]
        intro c hc; rw [ho c hc, hb]; simp
      · simp [Function.update_of_ne hp]
    · intro hex
      obtain ⟨h4, h5⟩ := hi.exact' hex
      obtain ⟨h6, h7, h8⟩ := hp2 hex
      refine ⟨h6, fun p hp => ?_⟩
      have : p ≠ o := by rintro rfl; exact h8 hp
      rw [Function.update_of_ne this]; exact h5 p (h7 p hp)
  · intro hb outside' hnd hm
    refine ⟨hi.size, hi.len, ?_, ?_, ?_, hnd, ?_⟩
    · intro c p
      rw [hi.bins]
      by_cases hp : p = o
      · subst hp
        simp only [Function.update_self, reduceCtorEq, false_and, exists_false, iff_false, not_exists, not_and]
        intro c hc; rw [ho c hc, hb]; simp
      · simp [Function.update_of_ne hp]
    · intro p c hp h1 h2
      by_cases e : p = o
      · subst e; simp at hp
      · rw [Function.update_of_ne e] at hp
        exact hi.across p c hp h1 h2
    · intro p
      rw [hm, hi.out]
      by_cases hp : p = o
      · subst hp; simp
      · simp [Function.update_of_ne hp, hp]
    · intro hex
      obtain ⟨h4, h5⟩ := hi.exact' hex
      refine ⟨h4, fun p hp => ?_⟩
      obtain ⟨c, e, h6, h7⟩ := h5 p hp
      have : p ≠ o := by rintro rfl; rw [ho c e, hb] at h6; simp at h6
      rw [Function.update_of_ne this]; exact ⟨c, e, h6, h7⟩

/-- The whole invariant. -/
structure Inv (g : Grid K) (n : ℕ) (ex : Prop) (kb : O → Option (AABB K)) (m : SHM K O) : Prop where
  p : PInv g n ex kb m.table m.part m.outside
  known : m.known = kb
  mem : ∀ o, o ∈ m.objs ↔ kb o ≠ none
  nodup : m.objs.Nodup

variable {m : SHM K O} {w : O → AABB K}

theorem update_fun (kb : O → Option (AABB K)) (o : O) (v : Option (AABB K)) :
    (fun p => if p = o then v else kb p) = Function.update kb o v := by
  funext p
  by_cases h : p = o
  · subst h; simp
  · simp [h]

theorem place_spec (hn : n ≠ 0) (hi : PInv g n ex kb m.table m.part m.outside) (o : O) (ho : kb o = none) :
    ∃ m', place g w o m = .ok m' ∧ m'.objs = m.objs ∧ m'.known = Function.update m.known o (some (w o)) ∧
      PInv g n ex (Function.update kb o (some (w o))) m'.table m'.part m'.outside := by
  obtain ⟨h1, h2⟩ := hi.add hn o ho (w o)
  unfold place
  by_cases h : g.scene.overlap (w o) = true
  · obtain ⟨t', e, hp⟩ := h1 h
    simp only [h, if_true, e]
    exact ⟨_, rfl, rfl, update_fun _ _ _, hp⟩
  · rw [Bool.not_eq_true] at h
    simp only [h, Bool.false_eq_true, if_false]
    exact ⟨_, rfl, rfl, update_fun _ _ _, h2 h⟩

theorem register_spec (hn : n ≠ 0) (hi : Inv g n ex kb m) (o : O) (ho : kb o = none) :
    ∃ m', register g w o m = .ok m' ∧ Inv g n ex (Function.update kb o (some (w o))) m' := by
  obtain ⟨m', e, h1, h2, h3⟩ := place_spec (w := w) (m := { m with objs := m.objs ++ [o] }) hn hi.p o ho
  refine ⟨m', e, h3, by rw [h2, ← hi.known], ?_, ?_⟩
  · intro p
    rw [h1, List.mem_append, hi.mem, List.mem_singleton]
    by_cases hp : p = o
    · subst hp; simp
    · simp [Function.update_of_ne hp, hp]
  · rw [h1]
    exact nodup_snoc hi.nodup fun h => (hi.mem o).mp h ho

theorem registers_spec (hn : n ≠ 0) (os : List O) : ∀ {kb m}, Inv g n ex kb m → os.Nodup → (∀ o ∈ os, kb o = none) →
    ∃ m', each (register g w) os m = .ok m' ∧ Inv g n ex (fun o => if o ∈ os then some (w o) else kb o) m' := by
  induction os with
  | nil => intro kb m hi _ _; exact ⟨m, rfl, by simpa using hi⟩
  | cons o os ih =>
    intro kb m hi hnd hk
    rw [List.nodup_cons] at hnd
    obtain ⟨m1, e1, h1⟩ := register_spec (w := w) hn hi o (hk o (by simp))
    obtain ⟨m2, e2, h2⟩ := ih h1 hnd.2 (fun p hp => by
      rw [Function.update_of_ne (by rintro rfl; exact hnd.1 hp)]; exact hk p (by simp [hp]))
    refine ⟨m2, by rw [each, e1]; exact e2, ?_⟩
    convert h2 using 1
    funext p
    by_cases hp : p = o
    · subst hp; simp
    · simp [hp, Function.update_of_ne hp]

theorem unregister_spec (hn : n ≠ 0) (hi : Inv g n ex kb m) (o : O) (ho : ∀ b, kb o = some b → b = w o) :
    ∃ m', unregister g w o m = .ok m' ∧ Inv g n ex (Function.update kb o none) m' := by
  obtain ⟨h1, h2⟩ := hi.p.del hn o (w o) ho
  have hk := update_fun m.known o none
  rw [hi.known] at hk
  have hmem : ∀ p, p ∈ drop o m.objs ↔ Function.update kb o none p ≠ none := fun p => by
    rw [mem_drop, hi.mem]
    by_cases hp : p = o
    · subst hp; simp
    · simp [Function.update_of_ne hp, hp]
  unfold unregister
  by_cases h : g.scene.overlap (w o) = true
  · obtain ⟨t', e, hp⟩ := h1 h
    simp only [h, if_true, e]
    refine ⟨_, rfl, hp _ ?_ ?_, by simp only [hi.known, hk], hmem, hi.nodup.filter _⟩
    · intro p hpo hpp
      split
      · exact hpp
      · exact (mem_drop _ _ _).mpr ⟨hpp, hpo⟩
    · intro hex
      obtain ⟨h4, h5⟩ := hi.p.exact' hex
      split
      · rename_i hc
        refine ⟨h4, fun p hp => hp, fun hop => ?_⟩
        obtain ⟨c, e, -, h6⟩ := h5 o hop
        rw [ho c e, hc] at h6; simp at h6
      · exact ⟨h4.filter _, fun p hp => ((mem_drop _ _ _).mp hp).1, fun hop => ((mem_drop _ _ _).mp hop).2 rfl⟩
  · rw [Bool.not_eq_true] at h
    simp only [h, Bool.false_eq_true, if_false]
    exact ⟨_, rfl, h2 h _ (hi.p.nodup.filter _) (fun p => mem_drop _ _ _), by simp only [hi.known, hk], hmem,
      hi.nodup.filter _⟩

theorem places_spec (hn : n ≠ 0) (os : List O) : ∀ {kb} {m : SHM K O}, PInv g n ex kb m.table m.part m.outside →
    os.Nodup → (∀ o ∈ os, kb o = none) →
    ∃ m', each (place g w) os m = .ok m' ∧ m'.objs = m.objs ∧
      m'.known = (fun o => if o ∈ os then some (w o) else m.known o) ∧
      PInv g n ex (fun o => if o ∈ os then some (w o) else kb o) m'.table m'.part m'.outside := by
  induction os with
  | nil => intro kb m hi _ _; exact ⟨m, rfl, rfl, by simp, by simpa using hi⟩
  | cons o os ih =>
    intro kb m hi hnd hk
    rw [List.nodup_cons] at hnd
    obtain ⟨m1, e1, ho, hkn, h1⟩ := place_spec (w := w) hn hi o (hk o (by simp))
    obtain ⟨m2, e2, ho2, hkn2, h2⟩ := ih h1 hnd.2 (fun p hp => by
      rw [Function.update_of_ne (by rintro rfl; exact hnd.1 hp)]; exact hk p (by simp [hp]))
    refine ⟨m2, by rw [each, e1]; exact e2, ho2.trans ho, ?_, ?_⟩
    · rw [hkn2, hkn]
      funext p
      by_cases hp : p = o
      · subst hp; simp
      · simp [hp, Function.update_of_ne hp]
    · convert h2 using 1
      funext p
      by_cases hp : p = o
      · subst hp; simp
      · simp [hp, Function.update_of_ne hp]

theorem pinv_empty {t : Simple O} (hs : t.size = some n) (hl : t.bins.length = n) (hb : ∀ c o, o ∉ bin t.bins c)
    {part : List O} (hp : ex → part = []) : PInv g n ex (fun _ => none) t part [] :=
  ⟨hs, hl, fun c o => iff_of_false (hb c o) (by simp), by simp, by simp, by simp, fun h => by simp [hp h]⟩

theorem update_spec (hn : n ≠ 0) (hi : Inv g n ex kb m) {ex' : Prop} :
    ∃ m', update g w m = .ok m' ∧ Inv g n ex' (fun o => (kb o).map (fun _ => w o)) m' := by
  obtain ⟨t, e, hs, hl, hb⟩ := m.table.clear_spec n hi.p.size
  obtain ⟨m', e', ho, hk, hp⟩ := places_spec (w := w) (g := g) (n := n) (ex := ex') hn m.objs (kb := fun _ => none)
    (m := { m with table := t, part := [], outside := [] }) (pinv_empty hs hl hb fun _ => rfl) hi.nodup
    (fun _ _ => rfl)
  refine ⟨m', by rw [update, e]; exact e', ?_, ?_, ?_, by rw [ho]; exact hi.nodup⟩
  · convert hp using 1
    funext o
    by_cases h : o ∈ m.objs
    · simp only [h, if_true]
      obtain ⟨b, hb⟩ := Option.ne_none_iff_exists'.mp ((hi.mem o).mp h)
      simp [hb]
    · simp only [h, if_false]
      rw [hi.mem, not_not] at h
      simp [h]
  · rw [hk]
    funext o
    by_cases h : o ∈ m.objs
    · simp only [h, if_true]
      obtain ⟨b, hb⟩ := Option.ne_none_iff_exists'.mp ((hi.mem o).mp h)
      simp [hb]
    · simp only [h, if_false]
      rw [hi.mem, not_not] at h
      simp [h, hi.known]
  · intro o
    rw [ho, hi.mem]
    cases kb o <;> simp

theorem clear_spec (hn : n ≠ 0) (hi : Inv g n ex kb m) {ex' : Prop} (he : ex' → m.part = []) :
    ∃ m', clear m = .ok m' ∧ Inv g n ex' (fun _ => none) m' := by
  obtain ⟨t, e, hs, hl, hb⟩ := m.table.clear_spec n hi.p.size
  exact ⟨{ m with objs := [], table := t, outside := [], known := fun _ => none }, by rw [clear, e],
    pinv_empty hs hl hb he, rfl, by simp, by simp⟩

/-- The boxes of an object: which of the three kinds. -/
theorem status_cases (g : Grid K) (b : AABB K) :
    (status g b = .inside ∧ g.scene.overlap b = true ∧ g.scene.contain b = true) ∨
    (status g b = .partially ∧ g.scene.overlap b = true ∧ g.scene.contain b = false) ∨
    (status g b = .outside ∧ g.scene.overlap b = false) := by
  unfold status
  by_cases h1 : g.scene.overlap b = true <;> by_cases h2 : g.scene.contain b = true <;> simp [h1, h2]

theorem erase_out {l : List O} (h : l.Nodup) (o : O) : ∀ p, p ∈ l.erase o ↔ p ∈ l ∧ p ≠ o := fun p => by
  rw [h.mem_erase_iff]; tauto

theorem updateObj_spec (hn : n ≠ 0) (hi : Inv g n ex kb m) (big : K) (o : O) (ho : kb o ≠ none) :
    ∃ m', updateObj g big w o m = .ok m' ∧ Inv g n ex (Function.update kb o (some (w o))) m' := by
  obtain ⟨old, hold⟩ := Option.ne_none_iff_exists'.mp ho
  have hkn : m.known o = some old := by rw [hi.known]; exact hold
  have hd := hi.p.del hn o old (fun c hc => by rw [hold] at hc; exact (Option.some.inj hc).symm)
  have huu : ∀ v, Function.update (Function.update kb o none) o v = Function.update kb o v := fun v => by simp
  have hko : Function.update kb o (none : Option (AABB K)) o = none := by simp
  -- what is left to show about objects and the map
  have fin : ∀ t' part' outside', PInv g n ex (Function.update kb o (some (w o))) t' part' outside' →
      Inv g n ex (Function.update kb o (some (w o)))
        ⟨t', m.objs, part', outside', fun p => if p = o then some (w o) else m.known p⟩ := by
    intro t' part' outside' hp
    refine ⟨hp, by rw [← hi.known]; exact update_fun _ _ _, fun p => ?_, hi.nodup⟩
    show p ∈ m.objs ↔ _
    rw [hi.mem]
    by_cases hp : p = o
    · subst hp; simp [hold]
    · simp [Function.update_of_ne hp]
  rcases status_cases g old with ⟨s1, o1, c1⟩ | ⟨s1, o1, c1⟩ | ⟨s1, o1⟩
  · -- was inside
    obtain ⟨t1, e1, hp1⟩ := hd.1 o1
    have hpi := hp1 m.part (fun p _ h => h) (fun hex => ⟨(hi.p.exact' hex).1, fun p h => h, fun hop => by
      obtain ⟨c, e, -, h6⟩ := (hi.p.exact' hex).2 o hop
      rw [hold] at e; rw [← Option.some.inj e, c1] at h6; simp at h6⟩)
    rcases status_cases g (w o) with ⟨s2, o2, c2⟩ | ⟨s2, o2, c2⟩ | ⟨s2, o2⟩
    · obtain ⟨t2, e2, hp2⟩ := (hpi.add hn o hko (w o)).1 o2
      rw [huu] at hp2
      simp only [c2, if_true] at hp2
      exact ⟨_, by simp only [updateObj, hkn, Option.getD_some, o1, o2, if_true, e1, e2, s1, s2, moveLists], fin _ _ _ hp2⟩
    · obtain ⟨t2, e2, hp2⟩ := (hpi.add hn o hko (w o)).1 o2
      rw [huu] at hp2
      simp only [c2, Bool.false_eq_true, if_false] at hp2
      exact ⟨_, by simp only [updateObj, hkn, Option.getD_some, o1, o2, if_true, e1, e2, s1, s2, moveLists], fin _ _ _ hp2⟩
    · have hp2 := (hpi.add hn o hko (w o)).2 o2
      rw [huu] at hp2
      exact ⟨_, by simp only [updateObj, hkn, Option.getD_some, o1, o2, if_true, e1, s1, s2, moveLists, Bool.false_eq_true, if_false], fin _ _ _ hp2⟩
  · -- was across the limit
    obtain ⟨t1, e1, hp1⟩ := hd.1 o1
    have hop : o ∈ m.part := hi.p.across o old hold o1 c1
    have hpi := hp1 (m.part.erase o) (fun p hp h => (List.mem_erase_of_ne hp).mpr h)
      (fun hex => ⟨(hi.p.exact' hex).1.erase _, fun p h => List.mem_of_mem_erase h,
        (hi.p.exact' hex).1.not_mem_erase⟩)
    rcases status_cases g (w o) with ⟨s2, o2, c2⟩ | ⟨s2, o2, c2⟩ | ⟨s2, o2⟩
    · obtain ⟨t2, e2, hp2⟩ := (hpi.add hn o hko (w o)).1 o2
      rw [huu] at hp2
      simp only [c2, if_true] at hp2
      exact ⟨_, by simp only [updateObj, hkn, Option.getD_some, o1, o2, if_true, e1, e2, s1, s2, moveLists, eraseFound, hop], fin _ _ _ hp2⟩
    · obtain ⟨t2, e2, hp2⟩ := (hpi.add hn o hko (w o)).1 o2
      rw [huu] at hp2
      simp only [c2, Bool.false_eq_true, if_false] at hp2
      refine ⟨_, by simp only [updateObj, hkn, Option.getD_some, o1, o2, if_true, e1, e2, s1, s2, moveLists], fin t2 m.part m.outside ?_⟩
      -- the list is left alone instead of being rebuilt
      refine ⟨hp2.size, hp2.len, hp2.bins, fun p c hp h1 h2 => ?_, hp2.out, hp2.nodup, fun hex => ?_⟩
      · have := hp2.across p c hp h1 h2
        rcases List.mem_append.mp this with h | h
        · exact List.mem_of_mem_erase h
        · rw [List.mem_singleton.mp h]; exact hop
      · refine ⟨(hi.p.exact' hex).1, fun p hp => (hp2.exact' hex).2 p ?_⟩
        by_cases h : p = o
        · subst h; simp
        · exact List.mem_append_left _ ((List.mem_erase_of_ne h).mpr hp)
    · have hp2 := (hpi.add hn o hko (w o)).2 o2
      rw [huu] at hp2
      exact ⟨_, by simp only [updateObj, hkn, Option.getD_some, o1, o2, if_true, e1, s1, s2, moveLists, eraseFound, hop, Bool.false_eq_true, if_false], fin _ _ _ hp2⟩
  · -- was outside
    have hoo : o ∈ m.outside := (hi.p.out o).mpr ⟨old, hold, o1⟩
    have hpi := hd.2 o1 (m.outside.erase o) (hi.p.nodup.erase _) (erase_out hi.p.nodup o)
    rcases status_cases g (w o) with ⟨s2, o2, c2⟩ | ⟨s2, o2, c2⟩ | ⟨s2, o2⟩
    · obtain ⟨t2, e2, hp2⟩ := (hpi.add hn o hko (w o)).1 o2
      rw [huu] at hp2
      simp only [c2, if_true] at hp2
      exact ⟨_, by simp only [updateObj, hkn, Option.getD_some, o1, o2, if_true, e2, s1, s2, moveLists, eraseFound, hoo, Bool.false_eq_true, if_false], fin _ _ _ hp2⟩
    · obtain ⟨t2, e2, hp2⟩ := (hpi.add hn o hko (w o)).1 o2
      rw [huu] at hp2
      simp only [c2, Bool.false_eq_true, if_false] at hp2
      exact ⟨_, by simp only [updateObj, hkn, Option.getD_some, o1, o2, if_true, e2, s1, s2, moveLists, eraseFound, hoo, Bool.false_eq_true, if_false], fin _ _ _ hp2⟩
    · have hp2 := (hpi.add hn o hko (w o)).2 o2
      rw [huu] at hp2
      refine ⟨_, by simp only [updateObj, hkn, Option.getD_some, o1, o2, s1, s2, moveLists, Bool.false_eq_true, if_false], fin m.table m.part m.outside ?_⟩
      refine ⟨hp2.size, hp2.len, hp2.bins, hp2.across, fun p => ?_, hi.p.nodup, hp2.exact'⟩
      rw [← hp2.out, List.mem_append, erase_out hi.p.nodup, List.mem_singleton]
      by_cases h : p = o
      · subst h; simp [hoo]
      · simp [h]

theorem updateObjs_spec (hn : n ≠ 0) (big : K) (os : List O) : ∀ {kb m}, Inv g n ex kb m → (∀ o ∈ os, kb o ≠ none) →
    ∃ m', each (updateObj g big w) os m = .ok m' ∧ Inv g n ex (fun o => if o ∈ os then some (w o) else kb o) m' := by
  induction os with
  | nil => intro kb m hi _; exact ⟨m, rfl, by simpa using hi⟩
  | cons o os ih =>
    intro kb m hi hk
    obtain ⟨m1, e1, h1⟩ := updateObj_spec (w := w) hn hi big o (hk o (by simp))
    obtain ⟨m2, e2, h2⟩ := ih h1 (fun p hp => by
      by_cases h : p = o
      · subst h; simp
      · rw [Function.update_of_ne h]; exact hk p (by simp [hp]))
    refine ⟨m2, by rw [each, e1]; exact e2, ?_⟩
    convert h2 using 1
    funext p
    by_cases hp : p = o
    · subst hp; simp
    · simp [hp, Function.update_of_ne hp]

end SHM
end Fcl
