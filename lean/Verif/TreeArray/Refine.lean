import Verif.TreeArray.Build

/-! The manager: which calls keep the array and the registry together. -/

namespace Fcl
namespace TArr
variable {K O : Type*} [LinearOrder K]
set_option linter.unusedSectionVars false
open Mgr (Inv entry tentry)
open HTree (oleaves OEnc)

theorem freeL_range' (h : Heap K O) (len s : ℕ)
    (hh : ∀ j, s ≤ j → j < s + len → ∃ n, h j = some n ∧ n.link = if j + 1 = s + len then none else some (j + 1)) :
    FreeL h (if len = 0 then none else some s) (List.range' s len) := by
  induction len generalizing s with
  | zero => rfl
  | succ len ih =>
    obtain ⟨n, h1, h2⟩ := hh s (by omega) (by omega)
    have := ih (s + 1) (by
      intro j hj hj'
      obtain ⟨n, h1, h2⟩ := hh j (by omega) (by omega)
      exact ⟨n, h1, by rw [h2]; congr 1; simp only [eq_iff_iff]; omega⟩)
    refine ⟨by simp, n, h1, ?_⟩
    rw [h2]
    convert this using 1
    by_cases e : len = 0
    · simp [e]
    · rw [if_neg e, if_neg (by omega)]

theorem st_empty (raw : ℕ → Node K O) : St (emptyArr raw) none [] (List.range 16) := by
  refine ⟨rfl, by simp, ?_, by simp [oaddrs, emptyArr], by simp [emptyArr]⟩
  have := freeL_range' (fresh raw 16) 16 0 (by
    intro j _ hj
    exact ⟨{ raw j with link := if j + 1 = 16 then none else some (j + 1) }, by simp only [fresh]; rw [if_pos (by omega)], by simp⟩)
  simpa [List.range_eq_range', emptyArr] using this

/-! ### Filling an empty tree -/

theorem init_spec (cfg : ACfg K O) (hc : cfg.Lawful) (w : O → AABB K) (os : List O) (hne : os ≠ []) :
    ∃ A' t' fs', init cfg w os = some A' ∧ St A' (some t') [] fs' ∧ t'.Enc ∧
      t'.leaves.Perm (os.zipIdx.map fun e => (e.2, w e.1, e.1)) ∧ A'.alloc = 2 * os.length ∧ A'.nLeaves = os.length := by
  obtain ⟨m, hm⟩ : ∃ m, os.length = m + 1 := ⟨os.length - 1, by have := List.length_pos_iff.2 hne; omega⟩
  set n := os.length with hn
  set heap : Heap K O := startHeap cfg.raw w os with hheap
  set A : Arr K O := { heap := heap, alloc := 2 * n, root := none, nNodes := n, nLeaves := n, freelist := some n, opath := 0 } with hA
  set ts : List (ATree K O) := os.zipIdx.map fun e => .leaf e.2 (w e.1) e.1 with hts
  have ta : ts.map ATree.addr = List.range n := by
    rw [hts, List.map_map]
    show os.zipIdx.map (fun e => e.2) = _
    rw [List.zipIdx_map_snd, List.range_eq_range']
  have tf : ts.flatMap ATree.addrs = List.range n := by
    rw [← ta, List.map_eq_flatMap]
    refine List.flatMap_congr fun t ht => ?_
    obtain ⟨e, _, rfl⟩ := List.mem_map.1 ht
    rfl
  have fsplit : List.range' n n = List.range' n m ++ [n + m] := by
    conv_lhs => rw [hm]
    rw [hm, List.range'_concat]
    simp
  have F : Forest A ts (List.range' n m ++ [n + m]) := by
    refine ⟨?_, ?_, ?_, ?_⟩
    · intro t ht
      obtain ⟨⟨o, i⟩, he, rfl⟩ := List.mem_map.1 ht
      have e := List.mem_zipIdx_iff_getElem?.1 he
      show heap i = _
      simp only at e
      simp only [hheap, startHeap, e]
    · rw [← fsplit]
      have := freeL_range' heap n n (by
        intro j h1 h2
        have e : os[j]? = none := by simp; omega
        refine ⟨{ cfg.raw j with link := if j + 1 = n * 2 then none else some (j + 1) }, ?_, ?_⟩
        · simp only [hheap, startHeap, e, fresh]
          rw [if_pos (by omega)]
        · simp only
          congr 1
          simp only [eq_iff_iff]
          omega)
      rw [if_neg (by omega)] at this
      exact this
    · rw [← fsplit, tf, List.range_eq_range']
      have := List.range'_append_1 (s := 0) (m := n) (n := n)
      simp only [Nat.zero_add] at this
      rw [this]
      exact List.nodup_range'
    · intro t ht
      obtain ⟨e, he, rfl⟩ := List.mem_map.1 ht
      exact HTree.good_ofLeaf (e.2, w e.1, e.1)
  have tl : ts.length = n := by simp [hts, hn]
  obtain ⟨A', t', b1, b2⟩ := topdown0_spec cfg hc n ts F (by simp; omega) (by omega)
  refine ⟨{ A' with root := some t'.addr }, t', [n + m], ?_, ⟨rfl, ?_, b2.free, ?_, ?_⟩, b2.builds.2.1, ?_, b2.alloc, b2.nLeaves⟩
  · unfold init
    rw [ta] at b1
    simp only
    rw [← hn, ← hheap, ← hA, b1]
  · rintro u ⟨⟩
    exact b2.rep
  · simp only [oaddrs, List.nil_append]
    refine (b2.addrs.append_right _).trans ?_
    rw [tf, List.append_assoc, ← fsplit]
    show (List.range n ++ List.range' n n).Perm (List.range A'.alloc)
    rw [b2.alloc]
    show (List.range n ++ List.range' n n).Perm (List.range (2 * n))
    rw [List.range_eq_range', List.range_eq_range']
    have := List.range'_append_1 (s := 0) (m := n) (n := n)
    simp only [Nat.zero_add] at this
    rw [this, two_mul]
  · show A'.nNodes + 1 = A'.alloc
    rw [b2.num, b2.alloc]
    simp [hA]
    omega
  · refine b2.builds.1.trans ?_
    rw [hts, List.map_map]
    have : (ATree.erase ∘ fun e : O × ℕ => ATree.leaf e.2 (w e.1) e.1) = HTree.ofLeaf ∘ fun e : O × ℕ => (e.2, w e.1, e.1) := rfl
    rw [this, ← List.map_map, HTree.allLeaves_ofLeaf]

/-! ### The invariant -/

variable [DecidableEq O]

/-- The array holds the tree `t`, whose leaves are the registered objects. `cap` objects fit. -/
structure AInv (m : AMgr K O) (r : Reg K O) (cap : ℕ) (t : Option (ATree K O)) (fs : List ℕ) : Prop where
  st : St m.tree t [] fs
  enc : OK' t
  perm : ((aleaves t).map entry).Perm r
  table : m.table.Perm ((aleaves t).map tentry)
  nodup : (r.map (·.1)).Nodup
  n : m.tree.nLeaves = (aleaves t).length
  alloc : m.tree.alloc = 2 * cap

/-- The manager with pointers that has the same tree. -/
def shape (m : AMgr K O) (t : Option (ATree K O)) : Mgr K O :=
  ⟨t.map ATree.erase, m.tree.nLeaves, m.tree.opath, m.setup, m.table, m.tree.alloc⟩

theorem oleaves_shape (t : Option (ATree K O)) : oleaves (t.map ATree.erase) = aleaves t := by cases t <;> rfl

theorem AInv.shape {m : AMgr K O} {r : Reg K O} {cap : ℕ} {t : Option (ATree K O)} {fs : List ℕ} (h : AInv m r cap t fs) :
    Inv (shape m t) r := by
  have mem : ∀ x ∈ aleaves t, x.1 ∈ oaddrs t := by
    cases t with
    | none => simp [aleaves]
    | some t => exact fun x hx => ATree.leaves_addrs hx
  refine ⟨?_, ?_, ?_, ?_, h.nodup, ?_, ?_⟩
  · rw [TArr.shape, oleaves_shape]; exact h.perm
  · rw [TArr.shape, oleaves_shape]
    have nd := h.st.nodup
    rw [List.nodup_append] at nd
    cases t with
    | none => simp [aleaves]
    | some t => exact nd.1.sublist t.leaves_ids_sublist
  · rw [TArr.shape, oleaves_shape]
    intro x hx
    have := h.st.perm.mem_iff.1 (List.mem_append_left _ (mem x hx))
    simpa using this
  · rw [TArr.shape, oleaves_shape]; exact h.table
  · rw [TArr.shape, oleaves_shape]; exact h.n
  · cases t with
    | none => trivial
    | some t => exact h.enc t rfl

theorem AInv.length {m : AMgr K O} {r : Reg K O} {cap : ℕ} {t : Option (ATree K O)} {fs : List ℕ} (h : AInv m r cap t fs) :
    (aleaves t).length = r.length := by simpa using h.perm.length_eq

/-- The queries see the registry. -/
theorem AInv.view {m : AMgr K O} {r : Reg K O} {cap : ℕ} {t : Option (ATree K O)} {fs : List ℕ} (h : AInv m r cap t fs) :
    ∃ v, m.view = some v ∧ Inv v r ∧ v.table = m.table := by
  unfold AMgr.view
  have hl := h.length
  have hn := h.n
  by_cases e : m.tree.nLeaves = 0
  · rw [if_pos e]
    have : r = [] := List.length_eq_zero_iff.1 (by omega)
    subst this
    have ht : m.table = [] := by
      have := h.table.length_eq
      rw [List.length_map] at this
      exact List.length_eq_zero_iff.1 (by omega)
    refine ⟨_, rfl, ⟨List.Perm.refl _, List.nodup_nil, by simp [oleaves], ?_, List.nodup_nil, rfl, trivial⟩, rfl⟩
    rw [ht]
    exact List.Perm.refl _
  · rw [if_neg e]
    cases t with
    | none => simp [aleaves] at hn; omega
    | some t =>
      have hr : m.tree.root = some t.addr := h.st.root
      rw [hr]
      simp only [load_spec t (h.st.rep t rfl) h.st.height]
      exact ⟨_, rfl, h.shape, rfl⟩

/-- How many elements are free. -/
theorem AInv.free {m : AMgr K O} {r : Reg K O} {cap : ℕ} {t : Option (ATree K O)} {fs : List ℕ} (h : AInv m r cap t fs) :
    (t = none ∧ r = [] ∧ fs.length = 2 * cap) ∨ (∃ u, t = some u ∧ r ≠ [] ∧ fs.length + 2 * r.length = 2 * cap + 1) := by
  have hl := h.st.length
  have h2 := h.length
  have ha := h.alloc
  cases t with
  | none =>
    left
    simp [oaddrs, aleaves] at hl h2
    exact ⟨rfl, List.length_eq_zero_iff.1 h2.symm, by omega⟩
  | some u =>
    right
    have e := u.leaves_length
    simp [oaddrs, aleaves] at hl h2
    refine ⟨u, rfl, ?_, by omega⟩
    rintro rfl
    simp at h2
    rw [h2] at e
    simp at e

theorem AInv.of_perm {m : AMgr K O} {r r' : Reg K O} {cap : ℕ} {t : Option (ATree K O)} {fs : List ℕ} (h : AInv m r cap t fs)
    (hp : r.Perm r') : AInv m r' cap t fs :=
  { h with perm := h.perm.trans hp, nodup := (hp.map _).nodup_iff.1 h.nodup }

theorem AInv.flag {m : AMgr K O} {r : Reg K O} {cap : ℕ} {t : Option (ATree K O)} {fs : List ℕ} (h : AInv m r cap t fs) (b : Bool) :
    AInv { m with setup := b } r cap t fs := ⟨h.st, h.enc, h.perm, h.table, h.nodup, h.n, h.alloc⟩

/-- Another tree with the same leaves. -/
theorem AInv.relayout {m : AMgr K O} {r : Reg K O} {cap : ℕ} {t : Option (ATree K O)} {fs : List ℕ} (h : AInv m r cap t fs)
    {A' : Arr K O} {t' : Option (ATree K O)} {fs' : List ℕ} (s : St A' t' [] fs') (e : OK' t')
    (p : (aleaves t').Perm (aleaves t)) (ha : A'.alloc = m.tree.alloc) (hl : A'.nLeaves = m.tree.nLeaves) :
    AInv { m with tree := A' } r cap t' fs' where
  st := s
  enc := e
  perm := (p.map _).trans h.perm
  table := h.table.trans (p.map _).symm
  nodup := h.nodup
  n := hl.trans (h.n.trans p.length_eq.symm)
  alloc := ha.trans h.alloc

/-! ### The calls -/

theorem AInv.register {m : AMgr K O} {r : Reg K O} {cap : ℕ} {t : Option (ATree K O)} {fs : List ℕ} (h : AInv m r cap t fs)
    (cfg : ACfg K O) (w : O → AABB K) (o : O) (ho : o ∉ r.map (·.1)) (hcap : r.length < cap) :
    ∃ m' t' fs', registerObject cfg w o m = some m' ∧ AInv m' ((o, w o) :: r) cap t' fs' := by
  obtain ⟨k, k', fs, rfl⟩ : ∃ k k' fs', fs = k :: k' :: fs' := by
    match fs, h.free with
    | [], .inl ⟨_, e1, e2⟩ => simp [e1] at hcap e2; omega
    | [], .inr ⟨_, _, _, e⟩ => simp at e; omega
    | [_], .inl ⟨_, _, e⟩ => simp at e; omega
    | [_], .inr ⟨_, _, _, e⟩ => simp at e; omega
    | k :: k' :: fs, _ => exact ⟨k, k', fs, rfl⟩
  obtain ⟨A', t', fs', a1, a2, a3, a4, a5, a6⟩ := insert_spec cfg h.st h.enc (w o) o
  refine ⟨{ m with tree := A', table := Mgr.tableSet o k m.table }, some t', fs', by simp [registerObject, a1], ⟨a2, ?_, ?_, ?_, ?_, ?_, ?_⟩⟩
  · rintro u ⟨⟩; exact a3
  · exact (a4.map entry).trans (h.perm.cons _)
  · simp only [Mgr.tableSet]
    have := h.shape.table_filter o ho
    simp only [TArr.shape] at this
    rw [this]
    exact (h.table.cons (o, k)).trans (a4.map tentry).symm
  · simp only [List.map_cons, List.nodup_cons]
    exact ⟨ho, h.nodup⟩
  · have := a4.length_eq
    simp only [aleaves]
    rw [this, a6, h.n]
    rfl
  · exact a5.trans h.alloc

/-- No room: the array is replaced while references to it are in use. -/
theorem AInv.register_full {m : AMgr K O} {r : Reg K O} {cap : ℕ} {t : Option (ATree K O)} {fs : List ℕ} (h : AInv m r cap t fs)
    (cfg : ACfg K O) (w : O → AABB K) (o : O) (hr : r ≠ []) (hcap : r.length = cap) : registerObject cfg w o m = none := by
  rcases h.free with ⟨_, e, _⟩ | ⟨u, rfl, _, e⟩
  · exact absurd e hr
  · obtain ⟨k, rfl⟩ : ∃ k, fs = [k] := List.length_eq_one_iff.1 (by omega)
    simp [registerObject, insert_full cfg h.st]

theorem AInv.registerFold {m : AMgr K O} {r : Reg K O} {cap : ℕ} {t : Option (ATree K O)} {fs : List ℕ} (h : AInv m r cap t fs)
    (cfg : ACfg K O) (w : O → AABB K) (os : List O) (hn : os.Nodup) (ho : ∀ o ∈ os, o ∉ r.map (·.1))
    (hcap : r.length + os.length ≤ cap) :
    ∃ m' t' fs', os.foldlM (fun m o => registerObject cfg w o m) m = some m' ∧
      AInv m' (os.map (fun o => (o, w o)) ++ r) cap t' fs' := by
  induction os generalizing m r t fs with
  | nil => exact ⟨m, t, fs, rfl, h⟩
  | cons o os ih =>
    simp only [List.length_cons] at hcap
    obtain ⟨m1, t1, fs1, a1, a2⟩ := h.register cfg w o (ho o (by simp)) (by omega)
    obtain ⟨hn1, hn2⟩ := List.nodup_cons.1 hn
    obtain ⟨m2, t2, fs2, b1, b2⟩ := ih a2 hn2 (by
      intro p hp
      simp only [List.map_cons, List.mem_cons, not_or]
      refine ⟨?_, ho p (by simp [hp])⟩
      rintro rfl
      exact hn1 hp) (by simp; omega)
    exact ⟨m2, t2, fs2, by simp only [List.foldlM_cons, a1]; exact b1, b2.of_perm List.perm_middle⟩

theorem tableOf_nil (os : List O) (i : ℕ) (acc : List (O × ℕ)) (hn : os.Nodup) (hacc : ∀ o ∈ os, ∀ e ∈ acc, e.1 ≠ o) :
    ((os.zipIdx i).foldl (fun tab e => Mgr.tableSet e.1 e.2 tab) acc).Perm (os.zipIdx i ++ acc) := by
  induction os generalizing i acc with
  | nil => exact List.Perm.refl _
  | cons o os ih =>
    obtain ⟨n1, n2⟩ := List.nodup_cons.1 hn
    have hf : acc.filter (fun e => e.1 ≠ o) = acc := by
      rw [List.filter_eq_self]
      intro e he
      simpa using hacc o (by simp) e he
    simp only [List.zipIdx_cons, List.foldl_cons, Mgr.tableSet, hf]
    refine (ih (i + 1) ((o, i) :: acc) n2 ?_).trans ?_
    · intro p hp e he
      rcases List.mem_cons.1 he with rfl | he
      · rintro rfl; exact n1 hp
      · exact hacc p (by simp [hp]) e he
    · exact List.perm_middle

theorem AInv.registerMany {m : AMgr K O} {r : Reg K O} {cap : ℕ} {t : Option (ATree K O)} {fs : List ℕ} (h : AInv m r cap t fs)
    (cfg : ACfg K O) (hc : cfg.Lawful) (w : O → AABB K) (os : List O) (hn : os.Nodup) (ho : ∀ o ∈ os, o ∉ r.map (·.1))
    (hcap : r = [] ∨ r.length + os.length ≤ cap) :
    ∃ m' t' fs', registerObjects cfg w os m = some m' ∧
      AInv m' (os.map (fun o => (o, w o)) ++ r) (nextCap r cap (.registerMany os)) t' fs' := by
  unfold registerObjects nextCap
  dsimp only
  by_cases e : os = []
  · subst e
    exact ⟨m, t, fs, by simp, by simpa using h⟩
  rw [if_neg e]
  have hl := h.length
  have hnl := h.n
  by_cases er : r = []
  · subst er
    simp only [List.length_nil] at hl
    rw [if_neg (by omega), if_pos ⟨e, rfl⟩]
    obtain ⟨A', t', fs', a1, a2, a3, a4, a5, a6⟩ := init_spec cfg hc w os e
    have htab : m.table = [] := by
      have := h.table.length_eq
      rw [List.length_map] at this
      exact List.length_eq_zero_iff.1 (by omega)
    refine ⟨⟨A', tableOf os m.table, true⟩, some t', fs', by simp [a1], ⟨a2, ?_, ?_, ?_, ?_, ?_, a5⟩⟩
    · rintro u ⟨⟩; exact a3
    · refine (a4.map entry).trans ?_
      rw [List.map_map, List.append_nil]
      show (os.zipIdx.map ((fun o => (o, w o)) ∘ Prod.fst)).Perm _
      rw [← List.map_map, List.zipIdx_map_fst]
    · simp only [tableOf, htab]
      refine (tableOf_nil os 0 [] hn (by simp)).trans ?_
      refine List.Perm.trans ?_ (a4.map tentry).symm
      rw [List.map_map, List.append_nil]
      have : (tentry ∘ fun e : O × ℕ => (e.2, w e.1, e.1)) = id := by funext e; rfl
      rw [this, List.map_id]
    · simp [List.map_map, Function.comp_def, hn]
    · have := a4.length_eq
      simp only [aleaves]
      rw [this, a6]
      simp
  · have : 0 < r.length := List.length_pos_iff.2 er
    rw [if_pos (by omega), if_neg (by simp [er])]
    exact h.registerFold cfg w os hn ho (hcap.resolve_left er)

theorem AInv.unregister {m : AMgr K O} {r : Reg K O} {cap : ℕ} {t : Option (ATree K O)} {fs : List ℕ} (h : AInv m r cap t fs)
    (cfg : ACfg K O) (o : O) (ho : o ∈ r.map (·.1)) :
    ∃ m' t' fs', unregisterObject cfg o m = some m' ∧ AInv m' (r.filter (fun e => e.1 ≠ o)) cap t' fs' := by
  rcases h.shape.find o with ⟨h1, -⟩ | ⟨u, x, hr, hx, hxo, hf⟩
  · exact absurd ho h1
  simp only [TArr.shape] at hr hf
  cases t with
  | none => simp at hr
  | some t =>
    simp only [Option.map_some, Option.some.injEq] at hr
    subst hr
    obtain ⟨A', t', fs', a1, a2, a3, a4, a5, a6⟩ := remove_spec cfg h.st (h.enc t rfl) hx
    have pr : r.Perm (entry x :: (aleaves t').map entry) := h.perm.symm.trans (a4.symm.map entry)
    have pt : m.table.Perm (tentry x :: (aleaves t').map tentry) := h.table.trans (a4.symm.map tentry)
    have ho' : (entry x).1 = o := hxo
    have ho'' : (tentry x).1 = o := hxo
    have hnr : ((entry x :: (aleaves t').map entry).map (·.1)).Nodup := (pr.map _).nodup_iff.1 h.nodup
    have fr : (r.filter (fun e => e.1 ≠ o)).Perm ((aleaves t').map entry) := by
      refine (pr.filter _).trans ?_
      rw [← ho', Mgr.filter_ne_of_nodup _ _ _ hnr]
    refine ⟨{ m with tree := A', table := m.table.filter (fun e => e.1 ≠ o) }, t', fs', by simp only [unregisterObject, hf, a1],
      ⟨a2, a3, fr.symm, ?_, ?_, ?_, a5.trans h.alloc⟩⟩
    · refine (pt.filter _).trans ?_
      have hnt : ((tentry x :: (aleaves t').map tentry).map (·.1)).Nodup := by
        have : (tentry x :: (aleaves t').map tentry).map (·.1) = (entry x :: (aleaves t').map entry).map (·.1) := by
          simp [List.map_map, Function.comp_def, entry, tentry]
        rw [this]; exact hnr
      rw [← ho'', Mgr.filter_ne_of_nodup _ _ _ hnt]
    · have := (pr.map (·.1)).nodup_iff.1 h.nodup
      simp only [List.map_cons, List.nodup_cons] at this
      exact (fr.map _).nodup_iff.2 this.2
    · have e1 := a4.length_eq
      have e2 : m.tree.nLeaves = t.leaves.length := h.n
      simp only [List.length_cons] at e1
      rw [a6]
      omega

theorem height_lt_leaves (t : HTree K O) : t.height < t.leaves.length := by
  induction t with
  | leaf => simp [HTree.height, HTree.leaves]
  | node b l r hl hr => simp [HTree.height, HTree.leaves]; omega

theorem AInv.doSetup {m : AMgr K O} {r : Reg K O} {cap : ℕ} {t : Option (ATree K O)} {fs : List ℕ} (h : AInv m r cap t fs)
    (cfg : ACfg K O) (hb : ∀ k n, k < n → n ≤ r.length → cfg.nearlyBalanced k n = true) :
    ∃ m' t' fs', TArr.doSetup cfg m = some m' ∧ AInv m' r cap t' fs' ∧ (aleaves t').Perm (aleaves t) := by
  unfold TArr.doSetup
  by_cases e : m.setup = true
  · rw [if_pos e]
    exact ⟨m, t, fs, rfl, h, List.Perm.refl _⟩
  rw [if_neg e]
  by_cases e' : m.tree.nLeaves = 0
  · rw [if_pos e']
    exact ⟨_, t, fs, rfl, h.flag true, List.Perm.refl _⟩
  rw [if_neg e']
  cases t with
  | none =>
    have := h.n
    simp [aleaves] at this
    omega
  | some t =>
    have hr : m.tree.root = some t.addr := h.st.root
    simp only [hr, load_spec t (h.st.rep t rfl) h.st.height]
    have hbal : cfg.nearlyBalanced t.erase.height m.tree.nLeaves = true := by
      have e1 := h.n
      have e2 := h.length
      simp only [aleaves] at e1 e2
      rw [e1]
      exact hb _ _ (height_lt_leaves t.erase) (by omega)
    rw [if_pos hbal]
    obtain ⟨A', t', fs', a1, a2, a3, a4, a5, a6⟩ := balanceLoop_spec cfg
      (if cfg.incPass < 0 then m.tree.nLeaves else cfg.incPass.toNat) h.st (h.enc t rfl)
    simp only [a1]
    exact ⟨_, some t', fs', rfl, (h.relayout (t' := some t') a2 (by rintro u ⟨⟩; exact a3) a4 a5 a6).flag true, a4⟩

theorem AInv.updateAll {m : AMgr K O} {r : Reg K O} {cap : ℕ} {t : Option (ATree K O)} {fs : List ℕ} (h : AInv m r cap t fs)
    (cfg : ACfg K O) (hb : ∀ k n, k < n → n ≤ r.length → cfg.nearlyBalanced k n = true) (w : O → AABB K) :
    ∃ m' t' fs', TArr.updateAll cfg w m = some m' ∧ AInv m' (r.map (fun e => (e.1, w e.1))) cap t' fs' := by
  have main : ∃ h' t', writeBoxes w m.table m.tree.heap = some h' ∧ St { m.tree with heap := h' } t' [] fs ∧
      (aleaves t').Perm ((aleaves t).map fun x => (x.1, w x.2.2, x.2.2)) := by
    cases t with
    | none =>
      have : m.table = [] := by simpa [aleaves] using h.table
      exact ⟨m.tree.heap, none, by rw [this]; rfl, h.st, by simp [aleaves]⟩
    | some t =>
      obtain ⟨l, l1, l2⟩ := perm_map_inv tentry h.table t.leaves rfl
      obtain ⟨h', t', a1, a2, a3⟩ := writeBoxes_spec w l h.st [] l1.symm
      exact ⟨h', some t', by rw [l2, a1], a2, a3.trans (l1.map _)⟩
  obtain ⟨h', t1, a1, a2, a3⟩ := main
  obtain ⟨A2, t2, b1, b2, b3, b4, b5, b6⟩ := refit_spec a2
  have inv : AInv { m with tree := A2, setup := false } (r.map (fun e => (e.1, w e.1))) cap t2 fs := by
    refine ⟨b2, b3, ?_, ?_, ?_, ?_, b5.trans h.alloc⟩
    · rw [b4]
      refine (a3.map _).trans ?_
      have := h.perm.map (fun e : O × AABB K => (e.1, w e.1))
      rw [List.map_map] at this ⊢
      exact this
    · rw [b4]
      refine h.table.trans (List.Perm.trans ?_ (a3.map _).symm)
      rw [List.map_map]
      exact List.Perm.refl _
    · rw [List.map_map]; exact h.nodup
    · have e1 := a3.length_eq
      simp only [List.length_map] at e1
      rw [b4, e1, b6]
      exact h.n
  obtain ⟨m', t', fs', c1, c2, -⟩ := inv.doSetup cfg (by simpa using hb)
  refine ⟨m', t', fs', ?_, c2⟩
  simp only [TArr.updateAll, a1, b1]
  exact c1

/-- An object whose box is kept, or one of at least two. -/
theorem AInv.updateOne {m : AMgr K O} {r : Reg K O} {cap : ℕ} {t : Option (ATree K O)} {fs : List ℕ} (h : AInv m r cap t fs)
    (cfg : ACfg K O) (w : O → AABB K) (o : O)
    (h2 : 2 ≤ r.length ∨ ∀ b, (o, b) ∈ r → cfg.eqv b (w o) = true ∨ b.contain (w o) = true) :
    ∃ m' t' fs', TArr.updateOne cfg w o m = some m' ∧ AInv m' (r.refresh cfg.eqv w o) cap t' fs' := by
  unfold TArr.updateOne
  rcases h.shape.find o with ⟨h1, hf⟩ | ⟨u, x, hr, hx, hxo, hf⟩
  · simp only [TArr.shape] at hf
    rw [hf]
    refine ⟨_, t, fs, rfl, ?_⟩
    have : r.refresh cfg.eqv w o = r := Mgr.map_cond_ne _ _ o r h1
    rw [this]; exact h.flag false
  simp only [TArr.shape] at hr hf
  cases t with
  | none => simp at hr
  | some t =>
    simp only [Option.map_some, Option.some.injEq] at hr
    subst hr
    obtain ⟨q, hq⟩ := leaf_cell (h.st.rep t rfl) hx
    have hbv : m.tree.heap.bv x.1 = some x.2.1 := by simp [Heap.bv, hq]
    rw [hf]
    simp only [hbv]
    obtain ⟨ls, hls⟩ := Mgr.exists_cons_perm hx
    have pr : r.Perm ((o, x.2.1) :: ls.map entry) := by
      have := h.perm.symm.trans (hls.symm.map entry)
      rw [List.map_cons, entry, hxo] at this
      exact this
    have hno : o ∉ (ls.map entry).map (·.1) := by
      have := (pr.map (·.1)).nodup_iff.1 h.nodup
      simp only [List.map_cons, List.nodup_cons] at this
      exact this.1
    have pref : (r.refresh cfg.eqv w o).Perm ((o, refreshBox cfg.eqv x.2.1 (w o)) :: ls.map entry) := by
      refine (pr.map _).trans ?_
      rw [List.map_cons, Mgr.map_cond_ne (fun e : O × AABB K => e.1) (fun e => (e.1, refreshBox cfg.eqv e.2 (w o))) o _ hno]
      simp
    have keep : refreshBox cfg.eqv x.2.1 (w o) = x.2.1 → AInv m (r.refresh cfg.eqv w o) cap (some t) fs := by
      intro he
      refine h.of_perm ?_
      rw [he] at pref
      exact pr.trans pref.symm
    by_cases he : cfg.eqv x.2.1 (w o) = true
    · rw [if_pos he]
      exact ⟨_, some t, fs, rfl, (keep (by simp [refreshBox, he])).flag false⟩
    rw [if_neg he]
    unfold updateLeaf
    simp only [hbv]
    by_cases hcon : x.2.1.contain (w o) = true
    · rw [if_pos hcon]
      exact ⟨_, some t, fs, rfl, (keep (by simp [refreshBox, hcon])).flag false⟩
    rw [if_neg hcon]
    have h2' : 2 ≤ t.leaves.length := by
      have := h.length
      simp only [aleaves] at this
      rcases h2 with h2 | h2
      · omega
      · rcases h2 x.2.1 (pr.mem_iff.2 (by simp)) with e | e
        · exact absurd e he
        · exact absurd e hcon
    obtain ⟨A', t', fs', ls', a1, a2, a3, a4, a5, a6, a7⟩ := updateBv_spec cfg h.st (h.enc t rfl) hx h2' (w o)
    rw [a1]
    have hls' : ls.Perm ls' := (List.perm_cons x).1 (hls.trans a4.symm)
    have hrb : refreshBox cfg.eqv x.2.1 (w o) = w o := by simp [refreshBox, he, hcon]
    rw [hrb] at pref
    refine ⟨_, some t', fs', rfl, ⟨a2, by rintro u ⟨⟩; exact a3, ?_, ?_, ?_, ?_, a6.trans h.alloc⟩⟩
    · refine (a5.map entry).trans (List.Perm.trans ?_ pref.symm)
      rw [List.map_cons]
      simp only [entry, hxo]
      exact List.Perm.cons _ (hls'.symm.map _)
    · exact (h.table.trans (a4.symm.map tentry)).trans (a5.map tentry).symm
    · refine (pref.map (·.1)).nodup_iff.2 ?_
      have : ((o, w o) :: ls.map entry).map (·.1) = ((o, x.2.1) :: ls.map entry).map (·.1) := rfl
      rw [this]
      exact (pr.map (·.1)).nodup_iff.1 h.nodup
    · have e1 := a5.length_eq
      have e2 := a4.length_eq
      have e3 := h.n
      simp only [List.length_cons, aleaves] at e1 e2 e3 ⊢
      rw [a7]
      omega

theorem refresh_length (eqv : AABB K → AABB K → Bool) (w : O → AABB K) (r : Reg K O) (o : O) : (r.refresh eqv w o).length = r.length := by
  simp [Reg.refresh]

theorem AInv.updateFold {m : AMgr K O} {r : Reg K O} {cap : ℕ} {t : Option (ATree K O)} {fs : List ℕ} (h : AInv m r cap t fs)
    (cfg : ACfg K O) (w : O → AABB K) (os : List O)
    (h2 : 2 ≤ r.length ∨ ∀ o ∈ os, ∀ b, (o, b) ∈ r → cfg.eqv b (w o) = true ∨ b.contain (w o) = true) :
    ∃ m' t' fs', os.foldlM (fun m o => TArr.updateOne cfg w o m) m = some m' ∧
      AInv m' (os.foldl (Reg.refresh cfg.eqv w) r) cap t' fs' := by
  induction os generalizing m r t fs with
  | nil => exact ⟨m, t, fs, rfl, h⟩
  | cons o os ih =>
    obtain ⟨m1, t1, fs1, a1, a2⟩ := h.updateOne cfg w o (h2.imp id fun h b hb => h o (by simp) b hb)
    obtain ⟨m2, t2, fs2, b1, b2⟩ := ih a2 (by
      rw [refresh_length]
      refine h2.imp id fun h p hp b hb => ?_
      unfold Reg.refresh at hb
      obtain ⟨e, he, e'⟩ := List.mem_map.1 hb
      by_cases c : e.1 = o
      · rw [if_pos c] at e'
        have k := h o (by simp) e.2 (by rw [← c]; exact he)
        have e2 : refreshBox cfg.eqv e.2 (w o) = e.2 := by
          unfold refreshBox
          rcases k with k | k
          · rw [if_pos k]
          · rw [if_pos k]; split <;> rfl
        rw [e2] at e'
        have e'' : e = (p, b) := e'
        exact h p (by simp [hp]) b (e'' ▸ he)
      · rw [if_neg c] at e'
        exact h p (by simp [hp]) b (e' ▸ he))
    exact ⟨m2, t2, fs2, by simp only [List.foldlM_cons, a1]; exact b1, b2⟩

/-- An update of the only object whose box is not kept: the tree is lost. -/
theorem AInv.updateOne_single {m : AMgr K O} {cap : ℕ} {t : Option (ATree K O)} {fs : List ℕ} {o : O} {b : AABB K}
    (h : AInv m [(o, b)] cap t fs) (cfg : ACfg K O) (w : O → AABB K) (h1 : cfg.eqv b (w o) = false) (h2 : b.contain (w o) = false) :
    TArr.updateOne cfg w o m = some { m with tree := { m.tree with root := none }, setup := false } := by
  have hlen := h.length
  cases t with
  | none => simp [aleaves] at hlen
  | some t =>
    cases t with
    | node i c l r =>
      have a := l.erase.leaves_ne_nil
      have b := r.erase.leaves_ne_nil
      simp only [aleaves, ATree.leaves_node, List.length_append, List.length_cons, List.length_nil] at hlen
      have a' := List.length_pos_iff.2 a
      have b' := List.length_pos_iff.2 b
      simp only [ATree.leaves] at hlen
      omega
    | leaf i c p =>
      have e : (p, c) = (o, b) := by
        have := h.perm
        simpa [aleaves, entry] using this
      simp only [Prod.mk.injEq] at e
      obtain ⟨rfl, rfl⟩ := e
      have ht : m.table = [(p, i)] := by
        have := h.table
        simpa [aleaves, tentry] using this
      have hq : m.tree.heap i = some ⟨c, none, .data (some p), none⟩ := h.st.rep _ rfl
      have hbv : m.tree.heap.bv i = some c := by simp [Heap.bv, hq]
      simp [TArr.updateOne, ht, hbv, h1, updateLeaf, h2, updateBv_single cfg h.st]

end TArr
end Fcl
