import Verif.Hash.Lemmas
import Mathlib.Data.List.Induction
import Mathlib.Tactic.Ring

/-!
# C25: hash tables return exactly what was stored under the queried cells
-/

set_option linter.unusedSectionVars false
set_option linter.unusedSimpArgs false

namespace Fcl.Hash
variable {Key D : Type*} [LinearOrder D]

/-- Specification: after the history, `v` is stored in cell `c`: it was inserted under a key that has the cell,
and since then neither removed under a key that has the cell nor dropped with the whole table. -/
def StoredAt (cells : Key → List ℕ) (drops : HOp Key D → Prop) (ops : List (HOp Key D)) (c : ℕ) (v : D) : Prop :=
  ∃ pre k post, ops = pre ++ .insert k v :: post ∧ c ∈ cells k ∧ (∀ k', .remove k' v ∈ post → c ∉ cells k') ∧
    ∀ op ∈ post, ¬ drops op

/-- Specification: the answer of a query is the ordered list, without repetition, of the values stored in a
cell of the key. -/
def Answers (cells : Key → List ℕ) (drops : HOp Key D → Prop) (ops : List (HOp Key D)) (k : Key)
    (r : List D) : Prop :=
  r.Pairwise (· < ·) ∧ ∀ v, v ∈ r ↔ ∃ c ∈ cells k, StoredAt cells drops ops c v

/-! ### How one call changes the stored values -/

theorem storedAt_nil (cells : Key → List ℕ) (drops) (c : ℕ) (v : D) : ¬ StoredAt cells drops [] c v := by
  rintro ⟨pre, k, post, e, -⟩; simp at e

theorem storedAt_snoc (cells : Key → List ℕ) (drops : HOp Key D → Prop) (ops : List (HOp Key D)) (op : HOp Key D)
    (c : ℕ) (v : D) : StoredAt cells drops (ops ++ [op]) c v ↔
      (∃ k, op = .insert k v ∧ c ∈ cells k) ∨
      (StoredAt cells drops ops c v ∧ ¬ drops op ∧ ∀ k, op = .remove k v → c ∉ cells k) := by
  constructor
  · rintro ⟨pre, k, post, e, hc, hr, hd⟩
    rcases List.eq_nil_or_concat post with rfl | ⟨post', x, rfl⟩
    · have := List.append_inj' e rfl
      simp only [List.cons.injEq, and_true] at this
      exact .inl ⟨k, this.2, hc⟩
    · rw [List.concat_eq_append, ← List.cons_append, ← List.append_assoc] at e
      have := List.append_inj' e rfl
      simp only [List.cons.injEq, and_true] at this
      obtain ⟨e1, rfl⟩ := this
      simp only [List.concat_eq_append, List.mem_append, List.mem_singleton] at hr hd
      exact .inr ⟨⟨pre, k, post', e1, hc, fun k' hk' => hr k' (.inl hk'), fun o ho => hd o (.inl ho)⟩,
        hd _ (.inr rfl), fun k' e => hr k' (.inr e.symm)⟩
  · rintro (⟨k, rfl, hc⟩ | ⟨⟨pre, k, post, rfl, hc, hr, hd⟩, h1, h2⟩)
    · exact ⟨ops, k, [], rfl, hc, by simp, by simp⟩
    · refine ⟨pre, k, post ++ [op], by simp, hc, ?_, ?_⟩
      · intro k' hk'
        rcases List.mem_append.mp hk' with h | h
        · exact hr k' h
        · exact h2 k' (List.mem_singleton.mp h).symm
      · intro o ho
        rcases List.mem_append.mp ho with h | h
        · exact hd o h
        · rw [List.mem_singleton.mp h]; exact h1

/-! ### The simple table -/

/-- Running a longer history. -/
theorem Simple.run_append (h : Key → List ℕ) (a b : List (HOp Key D)) (t : Simple D) :
    Simple.run h (a ++ b) t = match Simple.run h a t with
      | .ok t' => Simple.run h b t'
      | .error e => .error e := by
  induction a generalizing t with
  | nil => rfl
  | cons op a ih =>
    simp only [List.cons_append, Simple.run]
    split
    · rename_i t' _; exact ih t'
    · rfl

theorem simple_inv (h : Key → List ℕ) (n : ℕ) (hn : n ≠ 0) (ops : List (HOp Key D))
    (hi : ∀ m, HOp.init m ∈ ops → m = n) : ∃ t, Simple.run h (.init n :: ops) .new = .ok t ∧
      t.size = some n ∧ t.bins.length = n ∧
      ∀ c v, v ∈ bin t.bins c ↔ StoredAt (fun k => (h k).map (· % n)) (· = .clear) ops c v := by
  induction ops using List.reverseRecOn with
  | nil =>
    refine ⟨⟨Simple.resize [] n, some n⟩, ?_, rfl, by simp [Simple.resize], fun c v => ?_⟩
    · simp [Simple.run, Simple.init, Simple.new, hn]
    · refine iff_of_false ?_ (storedAt_nil _ _ _ _)
      simp only [bin, Simple.resize, List.take_nil, List.nil_append, List.length_nil, Nat.sub_zero,
        List.getElem?_replicate]
      split <;> simp
  | append_singleton ops op ih =>
    obtain ⟨t, e, hs, hl, hm⟩ := ih (fun m hm => hi m (List.mem_append_left _ hm))
    rw [← List.cons_append, Simple.run_append, e]
    simp only [Simple.run]
    have hb : t.bins.length ≠ 0 := by omega
    cases op with
    | init m =>
      have : m = n := hi m (by simp)
      subst this
      refine ⟨⟨Simple.resize t.bins m, some m⟩, by simp [Simple.init, hn], rfl, by simp [Simple.resize, hl], fun c v => ?_⟩
      rw [storedAt_snoc, ← hm]
      have : Simple.resize t.bins m = t.bins := by simp [Simple.resize, ← hl]
      simp [this]
    | insert k v =>
      obtain ⟨b', eb, hl', hc⟩ := eachBin_spec (fun l => l ++ [v]) (h k) t.bins hb
      refine ⟨{ t with bins := b' }, by simp only [Simple.insert, eb], hs, by simp [hl', hl], fun c w => ?_⟩
      rw [storedAt_snoc, ← hm]
      show w ∈ bin b' c ↔ _
      rw [hc, iterate_append, hl, List.count_pos_iff]
      simp only [HOp.insert.injEq, reduceCtorEq, not_false_eq_true, true_and, IsEmpty.forall_iff,
        implies_true, and_true]
      constructor
      · rintro (h | ⟨rfl, h⟩)
        · exact .inr h
        · exact .inl ⟨k, ⟨rfl, rfl⟩, h⟩
      · rintro (⟨_, ⟨rfl, rfl⟩, h⟩ | h)
        · exact .inr ⟨rfl, h⟩
        · exact .inl h
    | remove k v =>
      obtain ⟨b', eb, hl', hc⟩ := eachBin_spec (fun l => l.filter (fun d => decide (d ≠ v))) (h k) t.bins hb
      refine ⟨{ t with bins := b' }, by simp only [Simple.remove, eb], hs, by simp [hl', hl], fun c w => ?_⟩
      rw [storedAt_snoc, ← hm]
      show w ∈ bin b' c ↔ _
      rw [hc, iterate_remove, hl, List.count_eq_zero]
      simp only [HOp.remove.injEq, reduceCtorEq, false_and, exists_false, false_or, not_false_eq_true, true_and]
      constructor
      · rintro ⟨h1, h2⟩; exact ⟨h1, by rintro k' ⟨rfl, rfl⟩; exact h2 rfl⟩
      · rintro ⟨h1, h2⟩; exact ⟨h1, by rintro rfl; exact h2 k ⟨rfl, rfl⟩⟩
    | clear =>
      refine ⟨{ t with bins := Simple.resize [] n }, by simp only [Simple.clear, hs], hs, by simp [Simple.resize], fun c v => ?_⟩
      refine iff_of_false ?_ ?_
      · simp only [bin, Simple.resize, List.take_nil, List.nil_append, List.length_nil, Nat.sub_zero,
          List.getElem?_replicate]
        split <;> simp
      · rw [storedAt_snoc]; simp

/-- **C25** (`SimpleHashTable`): after `init(n)` with `n > 0` and any history of calls in which the table is not
given another size, no call fails, and `query` answers exactly the values stored in the cells of the key, each
once. A cell is an index of the key's hash modulo `n`. -/
theorem C25_simple_partial (h : Key → List ℕ) (n : ℕ) (hn : n ≠ 0) (ops : List (HOp Key D))
    (hi : ∀ m, HOp.init m ∈ ops → m = n) : ∃ t, Simple.run h (.init n :: ops) .new = .ok t ∧
      ∀ k, ∃ r, t.query h k = .ok r ∧ Answers (fun k => (h k).map (· % n)) (· = .clear) ops k r := by
  obtain ⟨t, e, hs, hl, hm⟩ := simple_inv h n hn ops hi
  refine ⟨t, e, fun k => ?_⟩
  obtain ⟨r, er, hr, hv⟩ := queryLoop_spec t.bins (by omega) (h k) [] List.Pairwise.nil
  refine ⟨r, er, hr, fun v => ?_⟩
  rw [hv, hl]; simp [hm]

/-- **C25** (`SimpleHashTable`, no collisions): if every index is below the table size, the cells are the indices
themselves, so the query answers only values stored under a key with a common index. -/
theorem C25_simple_no_collision (h : Key → List ℕ) (n : ℕ) (hn : n ≠ 0) (hlt : ∀ k, ∀ i ∈ h k, i < n)
    (ops : List (HOp Key D)) (hi : ∀ m, HOp.init m ∈ ops → m = n) :
    ∃ t, Simple.run h (.init n :: ops) .new = .ok t ∧
      ∀ k, ∃ r, t.query h k = .ok r ∧ Answers h (· = .clear) ops k r := by
  have e : (fun k => (h k).map (· % n)) = h := by
    funext k
    exact (List.map_congr_left fun i hi => Nat.mod_eq_of_lt (hlt k i hi)).trans (List.map_id _)
  have := C25_simple_partial h n hn ops hi
  rwa [e] at this

/-- Missing from `C25_simple_partial`: a table that is initialised again with another size. Stored values are then
looked for in the wrong cell. -/
theorem C25_simple_reinit_loses : ∃ t, Simple.run (fun k : ℕ => [k])
      [.init 2, .insert 2 (7 : ℕ), .init 3] .new = .ok t ∧ t.query (fun k : ℕ => [k]) 2 = .ok [] ∧
      StoredAt (fun k : ℕ => [k]) (· = .clear) [.insert 2 (7 : ℕ), .init 3] 2 7 := by
  refine ⟨⟨[[7], [], []], some 3⟩, rfl, rfl, [], 2, [.init 3], rfl, by decide, by simp, by simp⟩

/-- Before `init`: the table has no cells and every access is undefined. -/
theorem C25_simple_before_init (h : Key → List ℕ) (k : Key) (v : D) (hk : h k ≠ []) :
    (Simple.new (D := D)).insert h k v = .error .undefined ∧ (Simple.new (D := D)).query h k = .error .undefined ∧
    (Simple.new (D := D)).remove h k v = .error .undefined ∧ (Simple.new (D := D)).clear = .error .undefined ∧
    (Simple.new (D := D)).init 0 = .error .throws := by
  obtain ⟨i, is, e⟩ := List.exists_cons_of_ne_nil hk
  simp [Simple.new, Simple.insert, Simple.query, Simple.remove, Simple.clear, Simple.init, Simple.eachBin,
    Simple.queryLoop, e]

/-! ### The sparse table -/

theorem foldl_at' (f : List D → List D) (is : List ℕ) (t : Sparse D) (c : ℕ) :
    ((is.foldl (fun t i => Sparse.at' f i t) t).bins c).getD [] = f^[is.count c] ((t.bins c).getD []) := by
  induction is generalizing t with
  | nil => rfl
  | cons i is ih =>
    rw [List.foldl_cons, ih, List.count_cons]
    by_cases h : i = c
    · subst h; simp [Sparse.at']
    · simp [Sparse.at', h, Ne.symm h]

theorem sparse_inv (h : Key → List ℕ) (ops : List (HOp Key D)) (c : ℕ) (v : D) :
    v ∈ ((Sparse.run h ops .new).bins c).getD [] ↔
      StoredAt h (fun op => op = .clear ∨ ∃ n, op = .init n) ops c v := by
  induction ops using List.reverseRecOn with
  | nil => exact iff_of_false (by simp [Sparse.run, Sparse.new]) (storedAt_nil _ _ _ _)
  | append_singleton ops op ih =>
    rw [storedAt_snoc, ← ih]
    unfold Sparse.run
    rw [List.foldl_append, List.foldl_cons, List.foldl_nil]
    cases op with
    | init m => simp [Sparse.init]
    | clear => simp [Sparse.clear]
    | insert k w =>
      simp only [Sparse.insert]
      rw [foldl_at', iterate_append, List.count_pos_iff]
      simp only [HOp.insert.injEq, reduceCtorEq, exists_false, or_self, not_false_eq_true, true_and,
        IsEmpty.forall_iff, implies_true, and_true]
      constructor
      · rintro (h | ⟨rfl, h⟩)
        · exact .inr h
        · exact .inl ⟨k, ⟨rfl, rfl⟩, h⟩
      · rintro (⟨_, ⟨rfl, rfl⟩, h⟩ | h)
        · exact .inr ⟨rfl, h⟩
        · exact .inl h
    | remove k w =>
      simp only [Sparse.remove]
      rw [foldl_at', iterate_remove, List.count_eq_zero]
      simp only [HOp.remove.injEq, reduceCtorEq, false_and, exists_false, or_self, not_false_eq_true, true_and,
        false_or]
      constructor
      · rintro ⟨h1, h2⟩; exact ⟨h1, by rintro k' ⟨rfl, rfl⟩; exact h2 rfl⟩
      · rintro ⟨h1, h2⟩; exact ⟨h1, by rintro rfl; exact h2 k ⟨rfl, rfl⟩⟩

/-- **C25** (`SparseHashTable`): after any history, `query` answers exactly the values stored in the cells of the
key, each once; `init` and `clear` drop everything. -/
theorem C25_sparse (h : Key → List ℕ) (ops : List (HOp Key D)) (k : Key) :
    Answers h (fun op => op = .clear ∨ ∃ n, op = .init n) ops k ((Sparse.run h ops .new).query h k) := by
  have key : ∀ (is : List ℕ) (s : List D), s.Pairwise (· < ·) →
      (is.foldl (fun s i => match (Sparse.run h ops .new).bins i with
        | some l => addAll s l
        | none => s) s).Pairwise (· < ·) ∧
      ∀ v, v ∈ is.foldl (fun s i => match (Sparse.run h ops .new).bins i with
        | some l => addAll s l
        | none => s) s ↔ v ∈ s ∨ ∃ c ∈ is, v ∈ ((Sparse.run h ops .new).bins c).getD [] := by
    intro is
    induction is with
    | nil => intro s hs; exact ⟨hs, by simp⟩
    | cons i is ih =>
      intro s hs
      rw [List.foldl_cons]
      cases hb : (Sparse.run h ops .new).bins i with
      | none =>
        refine ⟨(ih s hs).1, fun v => ?_⟩
        rw [(ih s hs).2]; simp [hb]
      | some l =>
        refine ⟨(ih _ (sorted_addAll s l hs)).1, fun v => ?_⟩
        rw [(ih _ (sorted_addAll s l hs)).2, mem_addAll]; simp [hb, or_assoc]
  obtain ⟨h1, h2⟩ := key (h k) [] List.Pairwise.nil
  refine ⟨h1, fun v => ?_⟩
  refine (h2 v).trans ?_
  simp [sparse_inv]

/-- A history in which values share cells, are removed and come back. -/
example : Simple.run (fun k : ℕ => [k, k + 1]) [.init 3, .insert 0 (7 : ℕ), .insert 4 9, .insert 1 7, .remove 0 7] .new
      = .ok ⟨[[], [9], [9, 7]], some 3⟩ ∧
    (⟨[[], [9], [9, 7]], some 3⟩ : Simple ℕ).query (fun k : ℕ => [k, k + 1]) 1 = .ok [7, 9] ∧
    (Sparse.run (fun k : ℕ => [k, k + 1]) [.insert 0 (7 : ℕ), .insert 4 9, .insert 1 7, .remove 0 7] .new).query
      (fun k : ℕ => [k, k + 1]) 1 = [7] := ⟨rfl, rfl, rfl⟩

end Fcl.Hash
