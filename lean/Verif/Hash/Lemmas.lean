import Verif.Hash.Table
import Mathlib.Tactic.Ring

/-! Auxiliary facts about the hash tables. -/

set_option linter.unusedSectionVars false
set_option linter.unusedSimpArgs false

namespace Fcl.Hash
variable {Key D : Type*} [LinearOrder D]

/-! ### Sets -/

theorem mem_setInsert (d a : D) (s : List D) :
    a ∈ setInsert (fun a b => decide (a < b)) d s ↔ a = d ∨ a ∈ s := by
  induction s with
  | nil => simp [setInsert]
  | cons b s ih =>
    simp only [setInsert, decide_eq_true_eq]
    split
    · simp
    · split
      · simp only [List.mem_cons, ih]; tauto
      · rename_i h1 h2
        have : d = b := le_antisymm (not_lt.mp h2) (not_lt.mp h1)
        subst this; simp

theorem sorted_setInsert (d : D) (s : List D) (h : s.Pairwise (· < ·)) :
    (setInsert (fun a b => decide (a < b)) d s).Pairwise (· < ·) := by
  induction s with
  | nil => simp [setInsert]
  | cons b s ih =>
    rw [List.pairwise_cons] at h
    simp only [setInsert, decide_eq_true_eq]
    split
    · rename_i hb
      exact List.pairwise_cons.mpr ⟨fun a ha => by
        rcases List.mem_cons.mp ha with rfl | ha
        · exact hb
        · exact hb.trans (h.1 a ha), List.pairwise_cons.mpr h⟩
    · split
      · rename_i hb
        exact List.pairwise_cons.mpr ⟨fun a ha => by
          rcases (mem_setInsert d a s).mp ha with rfl | ha
          · exact hb
          · exact h.1 a ha, ih h.2⟩
      · exact List.pairwise_cons.mpr h

theorem mem_addAll (s l : List D) (a : D) : a ∈ addAll s l ↔ a ∈ s ∨ a ∈ l := by
  unfold addAll
  induction l generalizing s with
  | nil => simp
  | cons d l ih => rw [List.foldl_cons, ih, mem_setInsert]; simp; tauto

theorem sorted_addAll (s l : List D) (h : s.Pairwise (· < ·)) : (addAll s l).Pairwise (· < ·) := by
  unfold addAll
  induction l generalizing s with
  | nil => exact h
  | cons d l ih => rw [List.foldl_cons]; exact ih _ (sorted_setInsert d s h)

/-- Contents of a cell. -/
def bin (b : List (List D)) (c : ℕ) : List D := b[c]?.getD []

theorem eachBin_spec (f : List D → List D) (is : List ℕ) (b : List (List D)) (hb : b.length ≠ 0) :
    ∃ b', Simple.eachBin f is b = .ok b' ∧ b'.length = b.length ∧
      ∀ c, bin b' c = f^[(is.map (· % b.length)).count c] (bin b c) := by
  induction is generalizing b with
  | nil => exact ⟨b, rfl, rfl, fun c => rfl⟩
  | cons i is ih =>
    obtain ⟨b', e, hl, hc⟩ := ih (b.modify (i % b.length) f) (by simpa using hb)
    refine ⟨b', by rw [Simple.eachBin, if_neg hb]; exact e, by simpa using hl, fun c => ?_⟩
    rw [hc, List.length_modify, List.map_cons, List.count_cons]
    have hi : i % b.length < b.length := Nat.mod_lt _ (by omega)
    by_cases h : i % b.length = c
    · subst h
      simp only [beq_self_eq_true, if_true, Function.iterate_succ, Function.comp_apply]
      congr 1
      simp [bin, List.getElem?_modify, List.getElem?_eq_getElem hi]
    · rw [if_neg (by simpa using h), Nat.add_zero]
      congr 1
      simp [bin, List.getElem?_modify, h]

theorem iterate_append (v : D) (n : ℕ) (l : List D) (a : D) :
    a ∈ (fun l => l ++ [v])^[n] l ↔ a ∈ l ∨ (a = v ∧ 0 < n) := by
  induction n generalizing l with
  | zero => simp
  | succ n ih => rw [Function.iterate_succ, Function.comp_apply, ih]; simp; tauto

theorem iterate_remove (v : D) (n : ℕ) (l : List D) (a : D) :
    a ∈ (fun l : List D => l.filter (fun d => decide (d ≠ v)))^[n] l ↔ a ∈ l ∧ (a = v → n = 0) := by
  induction n generalizing l with
  | zero => simp
  | succ n ih => rw [Function.iterate_succ, Function.comp_apply, ih]; simp; tauto

theorem queryLoop_spec (b : List (List D)) (hb : b.length ≠ 0) (is : List ℕ) (s : List D)
    (hs : s.Pairwise (· < ·)) : ∃ r, Simple.queryLoop b is s = .ok r ∧ r.Pairwise (· < ·) ∧
      ∀ v, v ∈ r ↔ v ∈ s ∨ ∃ c ∈ is.map (· % b.length), v ∈ bin b c := by
  induction is generalizing s with
  | nil => exact ⟨s, rfl, hs, by simp⟩
  | cons i is ih =>
    have hi : i % b.length < b.length := Nat.mod_lt _ (by omega)
    obtain ⟨r, e, hr, hm⟩ := ih (addAll s b[i % b.length]) (sorted_addAll _ _ hs)
    refine ⟨r, ?_, hr, fun v => ?_⟩
    · rw [Simple.queryLoop, if_neg hb, List.getElem?_eq_getElem hi]; exact e
    · rw [hm, mem_addAll]
      have : bin b (i % b.length) = b[i % b.length] := by simp [bin, List.getElem?_eq_getElem hi]
      rw [← this]; simp; tauto

/-- One `insert`, seen from the cells. -/
theorem Simple.insert_spec (h : Key → List ℕ) (k : Key) (v : D) (t : Simple D) (hb : t.bins.length ≠ 0) :
    ∃ t', t.insert h k v = .ok t' ∧ t'.size = t.size ∧ t'.bins.length = t.bins.length ∧
      ∀ c w, w ∈ bin t'.bins c ↔ w ∈ bin t.bins c ∨ (w = v ∧ c ∈ (h k).map (· % t.bins.length)) := by
  obtain ⟨b', eb, hl', hc⟩ := eachBin_spec (fun l => l ++ [v]) (h k) t.bins hb
  refine ⟨{ t with bins := b' }, by simp only [Simple.insert, eb], rfl, hl', fun c w => ?_⟩
  show w ∈ bin b' c ↔ _
  rw [hc, iterate_append, List.count_pos_iff]

/-- One `remove`, seen from the cells. -/
theorem Simple.remove_spec (h : Key → List ℕ) (k : Key) (v : D) (t : Simple D) (hb : t.bins.length ≠ 0) :
    ∃ t', t.remove h k v = .ok t' ∧ t'.size = t.size ∧ t'.bins.length = t.bins.length ∧
      ∀ c w, w ∈ bin t'.bins c ↔ w ∈ bin t.bins c ∧ (w = v → c ∉ (h k).map (· % t.bins.length)) := by
  obtain ⟨b', eb, hl', hc⟩ := eachBin_spec (fun l => l.filter (fun d => decide (d ≠ v))) (h k) t.bins hb
  refine ⟨{ t with bins := b' }, by simp only [Simple.remove, eb], rfl, hl', fun c w => ?_⟩
  show w ∈ bin b' c ↔ _
  rw [hc, iterate_remove, List.count_eq_zero]

/-- `clear`, seen from the cells. -/
theorem Simple.clear_spec (t : Simple D) (n : ℕ) (hs : t.size = some n) :
    ∃ t', t.clear = .ok t' ∧ t'.size = some n ∧ t'.bins.length = n ∧ ∀ c w, w ∉ bin t'.bins c := by
  refine ⟨{ t with bins := Simple.resize [] n }, by simp only [Simple.clear, hs], hs, by simp [Simple.resize], fun c w => ?_⟩
  simp only [bin, Simple.resize, List.take_nil, List.nil_append, List.length_nil, Nat.sub_zero,
    List.getElem?_replicate]
  split <;> simp

/-- `query`, seen from the cells. -/
theorem Simple.query_spec (h : Key → List ℕ) (k : Key) (t : Simple D) (hb : t.bins.length ≠ 0) :
    ∃ r, t.query h k = .ok r ∧ r.Pairwise (· < ·) ∧
      ∀ v, v ∈ r ↔ ∃ c ∈ (h k).map (· % t.bins.length), v ∈ bin t.bins c := by
  obtain ⟨r, er, hr, hv⟩ := queryLoop_spec t.bins hb (h k) [] List.Pairwise.nil
  exact ⟨r, er, hr, fun v => by rw [hv]; simp⟩

end Fcl.Hash
