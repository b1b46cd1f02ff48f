import Verif.Tree.Build

/-! The manager refines the abstract registry: invariant and one-step lemmas. -/

namespace Fcl
open HTree
namespace Mgr
variable {K O : Type*} [LinearOrder K] [DecidableEq O]
set_option linter.unusedSectionVars false

/-- (object, box) of a leaf. -/
def entry (x : Nat × AABB K × O) : O × AABB K := (x.2.2, x.2.1)
/-- (object, address) of a leaf. -/
def tentry (x : Nat × AABB K × O) : O × Nat := (x.2.2, x.1)

/-- Relation between the concrete manager and the abstract registry. -/
structure Inv (m : Mgr K O) (r : Reg K O) : Prop where
  perm : ((oleaves m.root).map entry).Perm r
  ids : ((oleaves m.root).map (·.1)).Nodup
  lt : ∀ x ∈ oleaves m.root, x.1 < m.next
  table : m.table.Perm ((oleaves m.root).map tentry)
  nodup : (r.map (·.1)).Nodup
  n : m.n = (oleaves m.root).length
  enc : OEnc m.root

theorem inv_empty : Inv (Mgr.empty : Mgr K O) [] where
  perm := List.Perm.refl _
  ids := List.nodup_nil
  lt := by simp [Mgr.empty, oleaves]
  table := List.Perm.refl _
  nodup := List.nodup_nil
  n := rfl
  enc := trivial

/-- Rearranging the tree keeps the invariant. -/
theorem Inv.relayout {m : Mgr K O} {r : Reg K O} (h : Inv m r) (root' : Option (HTree K O)) (op : Nat)
    (st : Bool) (hp : (oleaves root').Perm (oleaves m.root)) (he : OEnc root') :
    Inv { m with root := root', opath := op, setup := st } r where
  perm := (hp.map _).trans h.perm
  ids := (hp.map _).nodup_iff.2 h.ids
  lt := fun x hx => h.lt x (hp.mem_iff.1 hx)
  table := h.table.trans (hp.map _).symm
  nodup := h.nodup
  n := h.n.trans hp.length_eq.symm
  enc := he

theorem Inv.keys {m : Mgr K O} {r : Reg K O} (h : Inv m r) :
    ((oleaves m.root).map (fun x => x.2.2)).Perm (r.map (·.1)) := by
  have := h.perm.map (fun e : O × AABB K => e.1)
  simpa [List.map_map, Function.comp_def, entry] using this

theorem Inv.keys_nodup {m : Mgr K O} {r : Reg K O} (h : Inv m r) :
    ((oleaves m.root).map (fun x => x.2.2)).Nodup := h.keys.nodup_iff.2 h.nodup

theorem Inv.of_perm {m : Mgr K O} {r r' : Reg K O} (h : Inv m r) (hp : r.Perm r') : Inv m r' :=
  { h with perm := h.perm.trans hp, nodup := (hp.map _).nodup_iff.1 h.nodup }

/-! ### register -/

theorem Inv.table_filter {m : Mgr K O} {r : Reg K O} (h : Inv m r) (o : O) (ho : o ∉ r.map (·.1)) :
    m.table.filter (fun e => e.1 ≠ o) = m.table := by
  rw [List.filter_eq_self]
  intro e he
  rw [h.table.mem_iff] at he
  obtain ⟨x, hx, rfl⟩ := List.mem_map.1 he
  have : x.2.2 ∈ r.map (·.1) := h.keys.mem_iff.1 (List.mem_map.2 ⟨x, hx, rfl⟩)
  refine decide_eq_true ?_
  rintro rfl
  exact ho this

theorem Inv.register {m : Mgr K O} {r : Reg K O} (h : Inv m r) (cfg : Cfg K O) (w : O → AABB K) (o : O)
    (ho : o ∉ r.map (·.1)) : Inv (m.registerObject cfg w o) ((o, w o) :: r) := by
  have hp := insertLeaf_leaves cfg m.root (m.next, w o, o)
  refine ⟨?_, ?_, ?_, ?_, ?_, ?_, ?_⟩
  · exact (hp.map entry).trans (List.Perm.cons _ h.perm)
  · refine (hp.map _).nodup_iff.2 ?_
    simp only [List.map_cons, List.nodup_cons]
    refine ⟨?_, h.ids⟩
    intro hmem
    obtain ⟨x, hx, e⟩ := List.mem_map.1 hmem
    have := h.lt x hx
    omega
  · intro x hx
    have : x ∈ (m.next, w o, o) :: oleaves m.root := hp.mem_iff.1 hx
    rcases List.mem_cons.1 this with rfl | hx'
    · simp [registerObject]
    · have := h.lt x hx'
      simp only [registerObject]; omega
  · simp only [registerObject, tableSet]
    rw [h.table_filter o ho]
    refine List.Perm.trans ?_ (hp.map tentry).symm
    exact List.Perm.cons _ h.table
  · simp only [List.map_cons, List.nodup_cons]
    exact ⟨ho, h.nodup⟩
  · have := hp.length_eq
    show m.n + 1 = _
    rw [h.n]
    exact (this.trans List.length_cons).symm
  · exact insertLeaf_enc cfg m.root _ h.enc

theorem Inv.registerFold {m : Mgr K O} {r : Reg K O} (h : Inv m r) (cfg : Cfg K O) (w : O → AABB K)
    (os : List O) (hn : os.Nodup) (ho : ∀ o ∈ os, o ∉ r.map (·.1)) :
    Inv (os.foldl (fun m o => m.registerObject cfg w o) m) (os.map (fun o => (o, w o)) ++ r) := by
  induction os generalizing m r with
  | nil => exact h
  | cons o os ih =>
    have h1 := h.register cfg w o (ho o (by simp))
    obtain ⟨hn1, hn2⟩ := List.nodup_cons.1 hn
    have h2 := ih h1 hn2 (by
      intro p hp
      simp only [List.map_cons, List.mem_cons, not_or]
      refine ⟨?_, ho p (by simp [hp])⟩
      rintro rfl
      exact hn1 hp)
    exact h2.of_perm List.perm_middle

/-! ### batch registration -/

theorem batch_spec (w : O → AABB K) (os : List O) (i : Nat) (acc : List (HTree K O) × List (O × Nat))
    (hn : os.Nodup) (hacc : ∀ o ∈ os, ∀ e ∈ acc.2, e.1 ≠ o) :
    (batch w i os acc).1 = acc.1 ++ (os.zipIdx i).map (fun p => ofLeaf (p.2, w p.1, p.1)) ∧
    (batch w i os acc).2.Perm (acc.2 ++ (os.zipIdx i).map (fun p => (p.1, p.2))) := by
  induction os generalizing i acc with
  | nil => simp [batch]
  | cons o os ih =>
    obtain ⟨hn1, hn2⟩ := List.nodup_cons.1 hn
    have hf : acc.2.filter (fun e => e.1 ≠ o) = acc.2 := by
      rw [List.filter_eq_self]
      intro e he
      simpa using hacc o (by simp) e he
    unfold batch
    obtain ⟨h1, h2⟩ := ih (i + 1) (acc.1 ++ [leaf i (w o) o], tableSet o i acc.2) hn2 (by
      intro p hp e he
      simp only [tableSet, hf, List.mem_cons] at he
      rcases he with rfl | he
      · rintro rfl; exact hn1 hp
      · exact hacc p (by simp [hp]) e he)
    refine ⟨by rw [h1]; simp [ofLeaf], h2.trans ?_⟩
    simp only [tableSet, hf, List.zipIdx_cons, List.map_cons]
    exact List.perm_middle.symm

theorem Inv.root_none_of_n {m : Mgr K O} {r : Reg K O} (h : Inv m r) (hn : m.n = 0) :
    oleaves m.root = [] ∧ r = [] ∧ m.table = [] := by
  have h1 : oleaves m.root = [] := by
    have := h.n; rw [hn] at this; exact List.length_eq_zero_iff.1 this.symm
  refine ⟨h1, ?_, ?_⟩
  · have := h.perm; rw [h1] at this; exact this.symm.eq_nil
  · have := h.table; rw [h1] at this; exact this.eq_nil

theorem Inv.registerMany {m : Mgr K O} {r : Reg K O} (h : Inv m r) (cfg : Cfg K O) (hc : cfg.Lawful)
    (w : O → AABB K) (os : List O) (hn : os.Nodup) (ho : ∀ o ∈ os, o ∉ r.map (·.1)) :
    ∃ m', m.registerObjects cfg w os = some m' ∧ Inv m' (os.map (fun o => (o, w o)) ++ r) := by
  unfold registerObjects
  by_cases h0 : os = []
  · rw [if_pos h0]; subst h0; exact ⟨m, rfl, h⟩
  rw [if_neg h0]
  by_cases hpos : m.n > 0
  · rw [if_pos hpos]; exact ⟨_, rfl, h.registerFold cfg w os hn ho⟩
  rw [if_neg hpos]
  obtain ⟨e1, e2, e3⟩ := h.root_none_of_n (by omega)
  subst e2
  obtain ⟨b1, b2⟩ := batch_spec w os m.next ([], m.table) hn (by simp [e3])
  rw [e3] at b1 b2
  simp only [List.nil_append] at b1 b2
  set acc := batch w m.next os ([], m.table) with hacc
  rw [e3] at hacc
  rw [← hacc] at b1 b2
  have hal : allLeaves acc.1 = (os.zipIdx m.next).map (fun p => (p.2, w p.1, p.1)) := by
    rw [b1]
    have := allLeaves_ofLeaf ((os.zipIdx m.next).map (fun p => (p.2, w p.1, p.1)))
    rw [List.map_map] at this
    exact this
  have hgood : ∀ t ∈ acc.1, t.Good := by
    intro t ht; rw [b1] at ht
    obtain ⟨p, -, rfl⟩ := List.mem_map.1 ht
    exact good_ofLeaf _
  have hne : acc.1 ≠ [] := by
    rw [b1]; simp [List.map_eq_nil_iff, List.zipIdx_eq_nil_iff, h0]
  obtain ⟨t, t1, t2, t3⟩ := init_spec cfg hc acc.1 hne hgood
  rw [hal] at t2
  dsimp only
  rw [t1]
  refine ⟨_, rfl, ?_, ?_, ?_, ?_, ?_, ?_, t3.1⟩
  · refine (t2.map entry).trans ?_
    rw [List.map_map, List.append_nil]
    have : ((os.zipIdx m.next).map (entry ∘ fun p => (p.2, w p.1, p.1))) = os.map (fun o => (o, w o)) := by
      have : (fun p : O × Nat => entry (p.2, w p.1, p.1)) = (fun o => (o, w o)) ∘ (fun p : O × Nat => p.1) := rfl
      rw [Function.comp_def, this, ← List.map_map]
      exact congrArg _ (List.zipIdx_map_fst _ _)
    rw [this]
  · refine (t2.map _).nodup_iff.2 ?_
    rw [List.map_map]
    have : ((os.zipIdx m.next).map ((fun x : Nat × AABB K × O => x.1) ∘ fun p => (p.2, w p.1, p.1)))
        = (os.zipIdx m.next).map (·.2) := rfl
    rw [this]
    have e : (os.zipIdx m.next).map (·.2) = List.range' m.next os.length := List.zipIdx_map_snd _ _
    rw [e]
    exact List.nodup_range' _
  · intro x hx
    have := t2.mem_iff.1 hx
    obtain ⟨p, hp, rfl⟩ := List.mem_map.1 this
    have := List.snd_lt_add_of_mem_zipIdx hp
    dsimp only; omega
  · refine b2.trans (List.Perm.trans ?_ (t2.map tentry).symm)
    rw [List.map_map]; exact List.Perm.refl _
  · rw [List.append_nil, List.map_map]
    have : ((fun e : O × AABB K => e.1) ∘ fun o => (o, w o)) = id := rfl
    rw [this, List.map_id]; exact hn
  · have := t2.length_eq
    simpa [oleaves] using this.symm

/-! ### table lookups -/

theorem exists_cons_perm {α : Type*} {x : α} {l : List α} (hx : x ∈ l) : ∃ ls, (x :: ls).Perm l := by
  obtain ⟨a, b, rfl⟩ := List.append_of_mem hx
  exact ⟨a ++ b, List.perm_middle.symm⟩

theorem Inv.find {m : Mgr K O} {r : Reg K O} (h : Inv m r) (o : O) :
    (o ∉ r.map (·.1) ∧ m.table.find? (fun e => e.1 = o) = none) ∨
    ∃ t x, m.root = some t ∧ x ∈ t.leaves ∧ x.2.2 = o ∧
      m.table.find? (fun e => e.1 = o) = some (o, x.1) := by
  cases hf : m.table.find? (fun e => e.1 = o) with
  | none =>
    left
    refine ⟨?_, rfl⟩
    intro ho
    rw [← h.keys.mem_iff] at ho
    obtain ⟨x, hx, rfl⟩ := List.mem_map.1 ho
    have : tentry x ∈ m.table := h.table.mem_iff.2 (List.mem_map.2 ⟨x, hx, rfl⟩)
    have := List.find?_eq_none.1 hf _ this
    simp [tentry] at this
  | some e =>
    right
    have h1 := List.find?_some hf
    have h2 := List.mem_of_find?_eq_some hf
    rw [h.table.mem_iff] at h2
    obtain ⟨x, hx, rfl⟩ := List.mem_map.1 h2
    replace h1 : x.2.2 = o := of_decide_eq_true h1
    cases hr : m.root with
    | none => rw [hr] at hx; simp [oleaves] at hx
    | some t =>
      rw [hr] at hx
      exact ⟨t, x, rfl, hx, h1, by rw [tentry, h1]⟩

theorem leafBv_eq {t : HTree K O} {x : Nat × AABB K × O} (hx : x ∈ t.leaves)
    (hn : (t.leaves.map (·.1)).Nodup) : t.leafBv x.1 = some x.2.1 := by
  unfold leafBv
  have key : ∀ l : List (Nat × AABB K × O), x ∈ l → (l.map (·.1)).Nodup →
      l.find? (fun y => decide (y.1 = x.1)) = some x := by
    intro l
    induction l with
    | nil => simp
    | cons y l ih =>
      intro hx hn
      simp only [List.map_cons, List.nodup_cons] at hn
      rcases List.mem_cons.1 hx with rfl | hx
      · simp
      · have : y.1 ≠ x.1 := by
          intro e; exact hn.1 (e ▸ List.mem_map.2 ⟨x, hx, rfl⟩)
        rw [List.find?_cons_of_neg (by simpa using this)]
        exact ih hx hn.2
  rw [key _ hx hn]; rfl

/-- Unique address: removing the leaf `x` by address removes exactly it. -/
theorem perm_cons_unique {l ls : List (Nat × AABB K × O)} {x y : Nat × AABB K × O}
    (hn : (l.map (·.1)).Nodup) (hx : x ∈ l) (hp : l.Perm (y :: ls)) (e : y.1 = x.1) : y = x := by
  have hy : y ∈ l := hp.mem_iff.2 (by simp)
  have key : ∀ l : List (Nat × AABB K × O), (l.map (·.1)).Nodup → x ∈ l → y ∈ l → y = x := by
    intro l
    induction l with
    | nil => simp
    | cons z l ih =>
      intro hn hx hy
      simp only [List.map_cons, List.nodup_cons] at hn
      rcases List.mem_cons.1 hx with h1 | hx <;> rcases List.mem_cons.1 hy with h2 | hy
      · rw [h1, h2]
      · exact absurd (List.mem_map.2 ⟨y, hy, by rw [e, h1]⟩) hn.1
      · exact absurd (List.mem_map.2 ⟨x, hx, by rw [← e, h2]⟩) hn.1
      · exact ih hn.2 hx hy
  exact key l hn hx hy

/-! ### unregister -/

theorem filter_ne_of_nodup {α : Type*} (f : α → O) (x : α) (ls : List α)
    (hn : ((x :: ls).map f).Nodup) : (x :: ls).filter (fun e => decide (f e ≠ f x)) = ls := by
  simp only [List.map_cons, List.nodup_cons] at hn
  rw [List.filter_cons_of_neg (by simp), List.filter_eq_self]
  intro e he
  simp only [ne_eq, decide_eq_true_eq]
  intro h
  exact hn.1 (h ▸ List.mem_map.2 ⟨e, he, rfl⟩)

theorem Inv.unregister {m : Mgr K O} {r : Reg K O} (h : Inv m r) (cfg : Cfg K O) (o : O)
    (ho : o ∈ r.map (·.1)) :
    ∃ m', m.unregisterObject cfg o = some m' ∧ Inv m' (r.filter (fun e => e.1 ≠ o)) := by
  rcases h.find o with ⟨h1, -⟩ | ⟨t, x, hr, hx, hxo, hf⟩
  · exact absurd ho h1
  have hids := h.ids
  have henc := h.enc
  have hperm := h.perm
  have htab := h.table
  have hlt := h.lt
  have hn := h.n
  rw [hr] at hids henc hperm htab hlt hn
  simp only [oleaves] at hids hperm htab hlt hn
  obtain ⟨t', y, e1, e2, e3, e4⟩ := removeLeaf_spec cfg x.1 t henc ⟨x, hx, rfl⟩
  obtain rfl : y = x := perm_cons_unique hids hx e2 e3
  refine ⟨{ m with root := t', n := m.n - 1, table := m.table.filter (fun e => e.1 ≠ o) }, ?_, ?_⟩
  · unfold unregisterObject
    rw [hf, hr]
    simp only [e1]
  · have pr : r.Perm (entry y :: (oleaves t').map entry) :=
      hperm.symm.trans (e2.map entry)
    have pt : m.table.Perm (tentry y :: (oleaves t').map tentry) := htab.trans (e2.map tentry)
    have ho' : (entry y).1 = o := hxo
    have hnr : ((entry y :: (oleaves t').map entry).map (·.1)).Nodup := (pr.map _).nodup_iff.1 h.nodup
    have fr : (r.filter (fun e => e.1 ≠ o)).Perm ((oleaves t').map entry) := by
      refine (pr.filter _).trans ?_
      rw [← ho', filter_ne_of_nodup _ _ _ hnr]
    refine ⟨fr.symm, ?_, ?_, ?_, ?_, ?_, e4⟩
    · have := (e2.map (·.1)).nodup_iff.1 hids
      simp only [List.map_cons, List.nodup_cons] at this
      exact this.2
    · intro z hz
      exact hlt z (e2.mem_iff.2 (by simp [hz]))
    · refine (pt.filter _).trans ?_
      have hnt : ((tentry y :: (oleaves t').map tentry).map (·.1)).Nodup := by
        have : (tentry y :: (oleaves t').map tentry).map (·.1) =
          (entry y :: (oleaves t').map entry).map (·.1) := by
          simp [List.map_map, Function.comp_def, entry, tentry]
        rw [this]; exact hnr
      have ho'' : (tentry y).1 = o := hxo
      rw [← ho'', filter_ne_of_nodup _ _ _ hnt]
    · have := (pr.map (·.1)).nodup_iff.1 h.nodup
      simp only [List.map_cons, List.nodup_cons] at this
      exact (fr.map _).nodup_iff.2 this.2
    · have := e2.length_eq
      simp only [List.length_cons] at this
      simp only; omega

/-! ### setup -/

theorem Inv.doSetup {m : Mgr K O} {r : Reg K O} (h : Inv m r) (cfg : Cfg K O) (hc : cfg.Lawful) :
    ∃ m', m.doSetup cfg = some m' ∧ Inv m' r := by
  unfold Mgr.doSetup
  split
  · exact ⟨m, rfl, h⟩
  · split
    · exact ⟨_, rfl, h.relayout m.root m.opath true (List.Perm.refl _) h.enc⟩
    · cases hr : m.root with
      | none => exact ⟨_, rfl, hr ▸ h.relayout m.root m.opath true (List.Perm.refl _) h.enc⟩
      | some t =>
        have he := h.enc
        rw [hr] at he
        dsimp only
        split
        · obtain ⟨t', op, h1, h2, h3⟩ :=
            balanceLoop_spec cfg (if cfg.incPass < 0 then m.n else cfg.incPass.toNat) m.opath t he
          rw [h1]
          exact ⟨_, rfl, h.relayout (some t') op true (by rw [hr]; exact h2) h3⟩
        · obtain ⟨t', h1, h2, h3⟩ := topdown_spec cfg hc (t.leaves.map ofLeaf)
            (by simp [leaves_ne_nil]) (by
              intro u hu; obtain ⟨x, -, rfl⟩ := List.mem_map.1 hu; exact good_ofLeaf x)
          rw [h1]
          rw [allLeaves_ofLeaf] at h2
          exact ⟨_, rfl, h.relayout (some t') m.opath true (by rw [hr]; exact h2) h3.1⟩

theorem Inv.unset {m : Mgr K O} {r : Reg K O} (h : Inv m r) (b : Bool) : Inv { m with setup := b } r :=
  h.relayout m.root m.opath b (List.Perm.refl _) h.enc

/-! ### update -/

theorem foldl_setLeaf (w : O → AABB K) (T : List (O × Nat)) (t : HTree K O)
    (hT : ∀ e ∈ T, ∀ x ∈ t.leaves, x.1 = e.2 → e.1 = x.2.2) :
    (T.foldl (fun t e => t.setLeaf e.2 (w e.1)) t).leaves =
      t.leaves.map (fun x => if ∃ e ∈ T, e.2 = x.1 then (x.1, w x.2.2, x.2.2) else x) := by
  induction T generalizing t with
  | nil => simp
  | cons e T ih =>
    rw [List.foldl_cons, ih]
    · rw [setLeaf_leaves, List.map_map]
      apply List.map_congr_left
      intro x hx
      have h0 := hT e (by simp) x hx
      by_cases hxe : x.1 = e.2
      · have := h0 hxe
        simp only [Function.comp_apply, hxe, if_true, List.mem_cons, exists_eq_or_imp, true_or, this]
        split <;> rfl
      · simp only [Function.comp_apply, hxe, if_false, List.mem_cons, exists_eq_or_imp]
        have : e.2 ≠ x.1 := fun h => hxe h.symm
        simp only [this, false_or]
    · intro e' he' x hx hxe
      rw [setLeaf_leaves] at hx
      obtain ⟨y, hy, rfl⟩ := List.mem_map.1 hx
      split at hxe
      · rename_i h'; rw [if_pos h']; exact hT e' (by simp [he']) y hy hxe
      · rename_i h'; rw [if_neg h']; exact hT e' (by simp [he']) y hy hxe

theorem Inv.update {m : Mgr K O} {r : Reg K O} (h : Inv m r) (cfg : Cfg K O) (hc : cfg.Lawful)
    (w : O → AABB K) :
    ∃ m', m.update cfg w = some m' ∧ Inv m' (r.map (fun e => (e.1, w e.1))) := by
  unfold Mgr.update
  cases hr : m.root with
  | none =>
    have htab := h.table
    have hp := h.perm
    rw [hr] at htab hp
    have e : m.table = [] := htab.eq_nil
    have e' : r = [] := hp.symm.eq_nil
    dsimp only
    rw [if_pos e]
    subst e'
    obtain ⟨m', h1, h2⟩ := (h.unset false).doSetup cfg hc
    rw [hr] at h1
    exact ⟨m', h1, h2⟩
  | some t =>
    have hids := h.ids
    have hperm := h.perm
    have htab := h.table
    have hlt := h.lt
    have hn := h.n
    rw [hr] at hids hperm htab hlt hn
    simp only [oleaves] at hids hperm htab hlt hn
    have hall : (m.table.all fun e => t.leaves.any fun x => x.1 = e.2) = true := by
      rw [List.all_eq_true]
      intro e he
      rw [htab.mem_iff] at he
      obtain ⟨x, hx, rfl⟩ := List.mem_map.1 he
      rw [List.any_eq_true]
      exact ⟨x, hx, by simp [tentry]⟩
    dsimp only
    rw [if_pos hall]
    have hlv : ((m.table.foldl (fun t e => t.setLeaf e.2 (w e.1)) t).refit).leaves =
        t.leaves.map (fun x => (x.1, w x.2.2, x.2.2)) := by
      rw [refit_leaves, foldl_setLeaf w m.table t]
      · apply List.map_congr_left
        intro x hx
        rw [if_pos]
        exact ⟨tentry x, htab.mem_iff.2 (List.mem_map.2 ⟨x, hx, rfl⟩), rfl⟩
      · intro e he x hx hxe
        rw [htab.mem_iff] at he
        obtain ⟨y, hy, rfl⟩ := List.mem_map.1 he
        have : y = x := by
          obtain ⟨ls, hls⟩ := exists_cons_perm hy
          exact perm_cons_unique hids hx hls.symm hxe.symm
        rw [this]; rfl
    set t' := (m.table.foldl (fun t e => t.setLeaf e.2 (w e.1)) t).refit with ht'
    have hinv : Inv { m with root := some t', setup := false } (r.map (fun e => (e.1, w e.1))) := by
      refine ⟨?_, ?_, ?_, ?_, ?_, ?_, refit_enc _⟩
      · simp only [oleaves, hlv, List.map_map]
        have := hperm.map (fun e : O × AABB K => (e.1, w e.1))
        rw [List.map_map] at this
        exact this
      · simp only [oleaves, hlv, List.map_map]; exact hids
      · intro x hx
        simp only [oleaves, hlv] at hx
        obtain ⟨y, hy, rfl⟩ := List.mem_map.1 hx
        exact hlt y hy
      · simp only [oleaves, hlv, List.map_map]; exact htab
      · rw [List.map_map]; exact h.nodup
      · simp only [oleaves, hlv, List.length_map]; exact hn
    exact hinv.doSetup cfg hc

/-! ### update of one object -/

theorem map_cond_ne {α : Type*} (f : α → O) (g : α → α) (o : O) (ls : List α)
    (h : o ∉ ls.map f) : ls.map (fun e => if f e = o then g e else e) = ls := by
  conv_rhs => rw [← List.map_id ls]
  apply List.map_congr_left
  intro e he
  rw [if_neg]; · rfl
  rintro rfl
  exact h (List.mem_map.2 ⟨e, he, rfl⟩)

theorem Inv.updateOne {m : Mgr K O} {r : Reg K O} (h : Inv m r) (cfg : Cfg K O)
    (w : O → AABB K) (o : O) :
    ∃ m', m.updateOne cfg w o = some m' ∧ Inv m' (r.refresh cfg.eqv w o) := by
  unfold Mgr.updateOne
  rcases h.find o with ⟨h1, hf⟩ | ⟨t, x, hr, hx, hxo, hf⟩
  · rw [hf]
    refine ⟨_, rfl, ?_⟩
    have : r.refresh cfg.eqv w o = r := map_cond_ne _ _ o r h1
    rw [this]; exact h.unset false
  · have hids := h.ids
    have henc := h.enc
    have hperm := h.perm
    have htab := h.table
    have hlt := h.lt
    have hn := h.n
    rw [hr] at hids henc hperm htab hlt hn
    simp only [oleaves] at hids hperm htab hlt hn
    rw [hf, hr]
    dsimp only
    rw [leafBv_eq hx hids]
    dsimp only
    -- the abstract registry around `o`
    obtain ⟨ls, hls⟩ := exists_cons_perm hx
    have pr : r.Perm ((o, x.2.1) :: ls.map entry) := by
      have := hperm.symm.trans (hls.symm.map entry)
      rw [List.map_cons, entry, hxo] at this
      exact this
    have hno : o ∉ (ls.map entry).map (·.1) := by
      have := (pr.map (·.1)).nodup_iff.1 h.nodup
      simp only [List.map_cons, List.nodup_cons] at this
      exact this.1
    have pref : (r.refresh cfg.eqv w o).Perm ((o, refreshBox cfg.eqv x.2.1 (w o)) :: ls.map entry) := by
      refine (pr.map _).trans ?_
      rw [List.map_cons, map_cond_ne (fun e : O × AABB K => e.1) (fun e => (e.1, refreshBox cfg.eqv e.2 (w o))) o _ hno]
      simp
    have keep : refreshBox cfg.eqv x.2.1 (w o) = x.2.1 → Inv m (r.refresh cfg.eqv w o) := by
      intro he
      refine h.of_perm ?_
      rw [he] at pref
      exact pr.trans pref.symm
    by_cases he : cfg.eqv x.2.1 (w o)
    · rw [if_pos he]
      exact ⟨_, rfl, hr ▸ (keep (by simp [refreshBox, he])).unset false⟩
    · rw [if_neg he]
      unfold updateLeaf
      rw [leafBv_eq hx hids]
      dsimp only
      by_cases hcon : x.2.1.contain (w o)
      · rw [if_pos hcon]
        exact ⟨_, rfl, hr ▸ (keep (by simp [refreshBox, hcon])).unset false⟩
      · rw [if_neg hcon]
        obtain ⟨t', y, ls', e1, e2, e3, e4, e5⟩ := reinsertWith_spec cfg x.1 (w o) t henc ⟨x, hx, rfl⟩
        obtain rfl : y = x := perm_cons_unique hids hx e2 e3
        have hrb : refreshBox cfg.eqv y.2.1 (w o) = w o := by simp [refreshBox, he, hcon]
        rw [hrb] at pref
        have hls' : ls.Perm ls' := (List.perm_cons y).1 (hls.trans e2)
        rw [e1]
        have p2 : (t'.leaves.map entry).Perm (r.refresh cfg.eqv w o) := by
          refine (e4.map entry).trans (List.Perm.trans ?_ pref.symm)
          rw [List.map_cons]
          simp only [entry, hxo]
          exact List.Perm.cons _ (hls'.symm.map _)
        refine ⟨_, rfl, p2, ?_, ?_, ?_, ?_, ?_, e5⟩
        · have := (e2.map (·.1)).nodup_iff.1 hids
          exact (e4.map (·.1)).nodup_iff.2 this
        · intro z hz
          have := e4.mem_iff.1 hz
          rcases List.mem_cons.1 this with rfl | hz'
          · exact hlt y hx
          · exact hlt z (e2.mem_iff.2 (by simp [hz']))
        · exact (htab.trans (e2.map tentry)).trans (e4.map tentry).symm
        · have hk : ((o, w o) :: ls.map entry).map (·.1) = ((o, y.2.1) :: ls.map entry).map (·.1) := rfl
          refine (pref.map (·.1)).nodup_iff.2 ?_
          rw [hk]
          exact (pr.map (·.1)).nodup_iff.1 h.nodup
        · have a := e4.length_eq
          have b := e2.length_eq
          simp only [List.length_cons] at a b
          simp only [oleaves]; omega

theorem Inv.updateObj {m : Mgr K O} {r : Reg K O} (h : Inv m r) (cfg : Cfg K O) (hc : cfg.Lawful)
    (w : O → AABB K) (o : O) :
    ∃ m', m.updateObj cfg w o = some m' ∧ Inv m' (r.refresh cfg.eqv w o) := by
  obtain ⟨m1, h1, h2⟩ := h.updateOne cfg w o
  obtain ⟨m2, h3, h4⟩ := h2.doSetup cfg hc
  exact ⟨m2, by rw [Mgr.updateObj, h1]; exact h3, h4⟩

theorem Inv.updateFold {m : Mgr K O} {r : Reg K O} (h : Inv m r) (cfg : Cfg K O)
    (w : O → AABB K) (os : List O) :
    ∃ m', os.foldl (fun m o => m.bind (fun m => m.updateOne cfg w o)) (some m) = some m' ∧
      Inv m' (os.foldl (Reg.refresh cfg.eqv w) r) := by
  induction os generalizing m r with
  | nil => exact ⟨m, rfl, h⟩
  | cons o os ih =>
    obtain ⟨m1, h1, h2⟩ := h.updateOne cfg w o
    obtain ⟨m2, h3, h4⟩ := ih h2
    refine ⟨m2, ?_, h4⟩
    rw [List.foldl_cons]
    show List.foldl _ (m.updateOne cfg w o) os = _
    rw [h1]; exact h3

theorem Inv.updateObjs {m : Mgr K O} {r : Reg K O} (h : Inv m r) (cfg : Cfg K O) (hc : cfg.Lawful)
    (w : O → AABB K) (os : List O) :
    ∃ m', m.updateObjs cfg w os = some m' ∧ Inv m' (os.foldl (Reg.refresh cfg.eqv w) r) := by
  obtain ⟨m1, h1, h2⟩ := h.updateFold cfg w os
  obtain ⟨m2, h3, h4⟩ := h2.doSetup cfg hc
  exact ⟨m2, by rw [Mgr.updateObjs, h1]; exact h3, h4⟩

theorem inv_clear (m : Mgr K O) : Inv m.clear [] where
  perm := List.Perm.refl _
  ids := List.nodup_nil
  lt := by simp [Mgr.clear, oleaves]
  table := List.Perm.refl _
  nodup := List.nodup_nil
  n := rfl
  enc := trivial

/-- One call. -/
theorem Inv.step {m : Mgr K O} {r : Reg K O} (h : Inv m r) (c : MgrCall K O) (hok : c.op.Ok r)
    (hc : c.cfg.Lawful) : ∃ m', m.step c = some m' ∧ Inv m' (r.step c) := by
  obtain ⟨op, w, cfg⟩ := c
  cases op with
  | register o => exact ⟨_, rfl, h.register cfg w o hok⟩
  | registerMany os => exact h.registerMany cfg hc w os hok.1 hok.2
  | unregister o => exact h.unregister cfg o hok
  | setup => exact h.doSetup cfg hc
  | update => exact h.update cfg hc w
  | updateObj o => exact h.updateObj cfg hc w o
  | updateObjs os => exact h.updateObjs cfg hc w os
  | clear => exact ⟨_, rfl, inv_clear m⟩

/-- A whole history. -/
theorem Inv.run {m : Mgr K O} {r r' : Reg K O} {cs : List (MgrCall K O)} (h : Inv m r)
    (hist : History cs r r') : ∃ m', m.run cs = some m' ∧ Inv m' r' := by
  induction hist generalizing m with
  | nil r => exact ⟨m, rfl, h⟩
  | cons hok hcfg _ ih =>
    obtain ⟨m1, h1, h2⟩ := h.step _ hok hcfg
    obtain ⟨m2, h3, h4⟩ := ih h2
    exact ⟨m2, by rw [Mgr.run, h1]; exact h3, h4⟩

end Mgr
end Fcl
