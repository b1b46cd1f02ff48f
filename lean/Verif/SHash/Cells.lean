import Verif.SHash.Lemmas
import Mathlib.Tactic.FieldSimp
import Mathlib.Tactic.FinCases

/-! Boxes that meet share a cell; the candidates of a query. -/

set_option linter.unusedSectionVars false
set_option linter.unusedSimpArgs false

namespace Fcl
open Hash
variable {K O : Type*} [Field K] [LinearOrder K] [IsStrictOrderedRing K] [FloorRing K] [LinearOrder O]

theorem AABB.overlap_get (a b : AABB K) : a.overlap b = true ↔ ∀ i, a.lo.get i ≤ b.hi.get i ∧ b.lo.get i ≤ a.hi.get i := by
  constructor
  · intro h i
    simp only [overlap, V3.anyGt, V3.anyLt, Bool.or_eq_true, decide_eq_true_eq] at h
    split at h
    · simp at h
    · split at h
      · simp at h
      · rename_i h1 h2
        push Not at h1 h2
        fin_cases i
        · exact ⟨h1.1.1, h2.1.1⟩
        · exact ⟨h1.1.2, h2.1.2⟩
        · exact ⟨h1.2, h2.2⟩
  · intro h
    have h0 := h 0
    have h1 := h 1
    have h2 := h 2
    simp only [V3.get] at h0 h1 h2
    simp [overlap, V3.anyGt, V3.anyLt, h0, h1, h2]

theorem AABB.contain_get (a b : AABB K) : a.contain b = true ↔ ∀ i, a.lo.get i ≤ b.lo.get i ∧ b.hi.get i ≤ a.hi.get i := by
  constructor
  · intro h i
    simp only [contain, V3.anyGt, V3.anyLt, Bool.or_eq_true, decide_eq_true_eq] at h
    split at h
    · simp at h
    · split at h
      · simp at h
      · rename_i h1 h2
        push Not at h1 h2
        fin_cases i
        · exact ⟨h1.1.1, h2.1.1⟩
        · exact ⟨h1.1.2, h2.1.2⟩
        · exact ⟨h1.2, h2.2⟩
  · intro h
    have h0 := h 0
    have h1 := h 1
    have h2 := h 2
    simp only [V3.get] at h0 h1 h2
    simp [contain, V3.anyGt, V3.anyLt, h0, h1, h2]

theorem AABB.mem_pts (a : AABB K) (p : V3 K) : p ∈ a.pts ↔ ∀ i, a.lo.get i ≤ p.get i ∧ p.get i ≤ a.hi.get i := by
  constructor
  · rintro ⟨h0, h1, h2⟩ i
    fin_cases i
    · exact h0
    · exact h1
    · exact h2
  · intro h; exact ⟨h 0, h 1, h 2⟩

theorem AABB.valid_iff (a : AABB K) : a.Valid ↔ ∀ i, a.lo.get i ≤ a.hi.get i := by
  constructor
  · rintro ⟨h0, h1, h2⟩ i
    fin_cases i
    · exact h0
    · exact h1
    · exact h2
  · intro h; exact ⟨h 0, h 1, h 2⟩

namespace SHM

theorem inner_get (g : Grid K) (b : AABB K) (h : g.scene.overlap b = true) (i : Fin 3) :
    (inner g b).lo.get i = max (g.scene.lo.get i) (b.lo.get i) ∧
    (inner g b).hi.get i = min (g.scene.hi.get i) (b.hi.get i) := by
  simp only [inner, AABB.overlapPart, h, Bool.not_true, Bool.false_eq_true, if_false]
  fin_cases i <;> exact ⟨rfl, rfl⟩

theorem mem_loopVals (a b k : ℤ) : k ∈ loopVals a b ↔ a ≤ k ∧ k < b := by
  simp only [loopVals, List.mem_map, List.mem_range]
  constructor
  · rintro ⟨n, hn, rfl⟩; omega
  · rintro ⟨h1, h2⟩; exact ⟨(k - a).toNat, by omega, by omega⟩

theorem key_mem (g : Grid K) (b : AABB K) (k : Fin 3 → ℤ) (h : ∀ i, g.first i b ≤ k i ∧ k i < g.last i b) :
    g.key (k 0) (k 1) (k 2) ∈ g.keys b := by
  simp only [Grid.keys, List.mem_flatMap, List.mem_map, mem_loopVals]
  exact ⟨k 0, h 0, k 1, h 1, k 2, h 2, rfl⟩

/-- One axis. -/
theorem axis_cell {c s m M l h : K} (hc : 0 < c) (hmM : m ≤ M) (hl : l ≤ m) (hh : M ≤ h)
    (hp : ∀ k : ℤ, ¬ (m = M ∧ m = s + k * c)) : ⌊(l - s) / c⌋ ≤ ⌊(m - s) / c⌋ ∧ ⌊(m - s) / c⌋ < ⌈(h - s) / c⌉ := by
  constructor
  · exact Int.floor_mono (div_le_div_of_nonneg_right (by linarith) hc.le)
  · rw [Int.lt_ceil, lt_div_iff₀ hc]
    have h1 : (⌊(m - s) / c⌋ : K) * c ≤ m - s := by
      have := Int.floor_le ((m - s) / c)
      rwa [le_div_iff₀ hc] at this
    rcases lt_or_eq_of_le (show (⌊(m - s) / c⌋ : K) * c ≤ h - s by linarith) with h2 | h2
    · exact h2
    · exact absurd ⟨by linarith, by linarith⟩ (hp ⌊(m - s) / c⌋)

theorem shared_cell (g : Grid K) (hc : 0 < g.cell) (hv : g.scene.Valid) {a b : AABB K} (hm : g.Meet a b)
    (ha : g.scene.overlap a = true) (hb : g.scene.overlap b = true) :
    ∃ k, k ∈ g.keys (inner g a) ∧ k ∈ g.keys (inner g b) := by
  obtain ⟨⟨p, hpa, hpb⟩, hcl⟩ := hm
  rw [AABB.mem_pts] at hpa hpb
  rw [AABB.overlap_get] at ha hb
  rw [AABB.valid_iff] at hv
  let lo (i : Fin 3) := max (max (g.scene.lo.get i) (a.lo.get i)) (b.lo.get i)
  let hi (i : Fin 3) := min (min (g.scene.hi.get i) (a.hi.get i)) (b.hi.get i)
  have hle : ∀ i, lo i ≤ hi i := fun i => by
    have := hpa i; have := hpb i; have := ha i; have := hb i; have := hv i
    simp only [lo, hi, max_le_iff, le_min_iff]
    refine ⟨⟨⟨⟨?_, ?_⟩, ?_⟩, ⟨⟨?_, ?_⟩, ?_⟩⟩, ⟨⟨?_, ?_⟩, ?_⟩⟩ <;> linarith
  have hcm : ∀ q : V3 K, q ∈ g.common a b ↔ ∀ i, lo i ≤ q.get i ∧ q.get i ≤ hi i := fun q => by
    simp only [Grid.common, Set.mem_ofPred_eq, AABB.mem_pts, lo, hi, max_le_iff, le_min_iff]
    constructor
    · rintro ⟨h1, h2, h3⟩ i; exact ⟨⟨⟨(h3 i).1, (h1 i).1⟩, (h2 i).1⟩, ⟨(h3 i).2, (h1 i).2⟩, (h2 i).2⟩
    · intro h
      exact ⟨fun i => ⟨(h i).1.1.2, (h i).2.1.2⟩, fun i => ⟨(h i).1.2, (h i).2.2⟩, fun i => ⟨(h i).1.1.1, (h i).2.1.1⟩⟩
  have hne : ∃ q, q ∈ g.common a b := ⟨⟨lo 0, lo 1, lo 2⟩, (hcm _).mpr fun i => by
    fin_cases i
    · exact ⟨le_rfl, hle 0⟩
    · exact ⟨le_rfl, hle 1⟩
    · exact ⟨le_rfl, hle 2⟩⟩
  have hpl : ∀ i (k : ℤ), ¬ (lo i = hi i ∧ lo i = g.scene.lo.get i + k * g.cell) := by
    rintro i k ⟨h1, h2⟩
    obtain ⟨q, hq, hne⟩ := hcl i k hne
    have := (hcm q).mp hq i
    exact hne (le_antisymm (by linarith) (by linarith))
  let k (i : Fin 3) : ℤ := ⌊(lo i - g.scene.lo.get i) / g.cell⌋
  refine ⟨g.key (k 0) (k 1) (k 2), key_mem g _ k fun i => ?_, key_mem g _ k fun i => ?_⟩
  · rw [Grid.first, Grid.last, (inner_get g a ((AABB.overlap_get _ _).mpr ha) i).1,
      (inner_get g a ((AABB.overlap_get _ _).mpr ha) i).2]
    exact axis_cell hc (hle i) (le_max_left _ _) (min_le_left _ _) (hpl i)
  · rw [Grid.first, Grid.last, (inner_get g b ((AABB.overlap_get _ _).mpr hb) i).1,
      (inner_get g b ((AABB.overlap_get _ _).mpr hb) i).2]
    refine axis_cell hc (hle i) ?_ ?_ (hpl i)
    · exact max_le_max (le_max_left _ _) le_rfl
    · exact min_le_min (min_le_left _ _) le_rfl

/-- The objects a query with box `b` goes through. -/
theorem lists_spec {g : Grid K} {n : ℕ} {ex : Prop} {kb : O → Option (AABB K)} {m : SHM K O} (hn : n ≠ 0)
    (hi : Inv g n ex kb m) (hc : 0 < g.cell) (hv : g.scene.Valid) (w : O → AABB K) (hw : ∀ o b, kb o = some b → b = w o)
    (b : AABB K) : ∃ l : List O × List O, lists g m b = .ok l ∧
      (∀ o, kb o ≠ none → g.Meet (w o) b → o ∈ l.1 ++ l.2) ∧
      (ex → (l.1 ++ l.2).Nodup ∧ ∀ o ∈ l.1 ++ l.2, kb o ≠ none) := by
  have hkn : ∀ o, kb o ≠ none → kb o = some (w o) := fun o h => by
    obtain ⟨b, hb⟩ := Option.ne_none_iff_exists'.mp h
    rw [hb, hw o b hb]
  have hmeet : ∀ {o}, g.Meet (w o) b → ∀ i, (w o).lo.get i ≤ b.hi.get i ∧ b.lo.get i ≤ (w o).hi.get i ∧
      (w o).lo.get i ≤ (w o).hi.get i ∧ b.lo.get i ≤ b.hi.get i := by
    rintro o ⟨⟨p, h1, h2⟩, -⟩ i
    rw [AABB.mem_pts] at h1 h2
    have := h1 i; have := h2 i
    refine ⟨?_, ?_, ?_, ?_⟩ <;> linarith
  rw [AABB.valid_iff] at hv
  by_cases hq : g.scene.overlap b = true
  · obtain ⟨r, er, hr, hmr⟩ := m.table.query_spec g.keys (inner g b) (by rw [hi.p.len]; exact hn)
    have hin : ∀ o, o ∈ r ↔ ∃ b', kb o = some b' ∧ g.scene.overlap b' = true ∧
        ∃ c ∈ cells g n b, c ∈ cells g n b' := fun o => by
      rw [hmr]
      simp only [hi.p.bins, hi.p.len]
      constructor
      · rintro ⟨c, h1, b, h2, h3, h4⟩; exact ⟨b, h2, h3, c, h1, h4⟩
      · rintro ⟨b, h2, h3, c, h1, h4⟩; exact ⟨c, h1, b, h2, h3, h4⟩
    have hcell : ∀ o, kb o ≠ none → g.Meet (w o) b → g.scene.overlap (w o) = true → o ∈ r := by
      intro o ho hm h
      obtain ⟨k, hk1, hk2⟩ := shared_cell g hc ((AABB.valid_iff _).mpr hv) hm h hq
      exact (hin o).mpr ⟨w o, hkn o ho, h, k % n, List.mem_map_of_mem hk2, List.mem_map_of_mem hk1⟩
    have hrn : r.Nodup := hr.imp (fun h => ne_of_lt h)
    by_cases hcq : g.scene.contain b = true
    · refine ⟨(r, []), ?_, fun o ho hm => ?_, fun _ => ?_⟩
      · simp [lists, hq, er, hcq]
      · rw [List.append_nil]
        refine hcell o ho hm ?_
        rw [AABB.overlap_get]
        intro i
        rw [AABB.contain_get] at hcq
        have := hmeet hm i; have := hcq i
        constructor <;> linarith
      · rw [List.append_nil]
        refine ⟨hrn, fun o ho => ?_⟩
        obtain ⟨b, hb, -⟩ := (hin o).mp ho
        rw [hb]; simp
    · refine ⟨(r, m.outside), ?_, fun o ho hm => ?_, fun _ => ⟨?_, fun o ho => ?_⟩⟩
      · simp [lists, hq, er, hcq]
      · by_cases h : g.scene.overlap (w o) = true
        · exact List.mem_append_left _ (hcell o ho hm h)
        · exact List.mem_append_right _ ((hi.p.out o).mpr ⟨w o, hkn o ho, by simpa using h⟩)
      · rw [List.nodup_append]
        refine ⟨hrn, hi.p.nodup, ?_⟩
        rintro o ho _ ho' rfl
        obtain ⟨b, hb, h1, -⟩ := (hin o).mp ho
        obtain ⟨b', hb', h2⟩ := (hi.p.out o).mp ho'
        rw [hb] at hb'
        rw [Option.some.inj hb', h2] at h1; simp at h1
      · rcases List.mem_append.mp ho with ho | ho
        · obtain ⟨b, hb, -⟩ := (hin o).mp ho
          rw [hb]; simp
        · obtain ⟨b, hb, -⟩ := (hi.p.out o).mp ho
          rw [hb]; simp
  · refine ⟨(m.part, m.outside), ?_, fun o ho hm => ?_, fun hex => ⟨?_, fun o ho => ?_⟩⟩
    · simp [lists, hq]
    · by_cases h : g.scene.overlap (w o) = true
      · refine List.mem_append_left _ (hi.p.across o (w o) (hkn o ho) h ?_)
        rw [Bool.eq_false_iff]
        intro hco
        apply hq
        rw [AABB.overlap_get]
        intro i
        rw [AABB.contain_get] at hco
        have := hmeet hm i; have := hco i
        constructor <;> linarith
      · exact List.mem_append_right _ ((hi.p.out o).mpr ⟨w o, hkn o ho, by simpa using h⟩)
    · rw [List.nodup_append]
      refine ⟨(hi.p.exact' hex).1, hi.p.nodup, ?_⟩
      rintro o ho _ ho' rfl
      obtain ⟨b, hb, h1, -⟩ := (hi.p.exact' hex).2 o ho
      obtain ⟨b', hb', h2⟩ := (hi.p.out o).mp ho'
      rw [hb] at hb'
      rw [Option.some.inj hb', h2] at h1; simp at h1
    · rcases List.mem_append.mp ho with ho | ho
      · obtain ⟨b, hb, -⟩ := (hi.p.exact' hex).2 o ho
        rw [hb]; simp
      · obtain ⟨b, hb, -⟩ := (hi.p.out o).mp ho
        rw [hb]; simp

theorem scan_eq {σ : Type*} (cb : CB σ O) (q : O) (keep : O → Bool) (l : List O) (s : σ) :
    scan cb q keep l s = runUntil cb s ((l.filter keep).map (fun o => (q, o))) := by
  induction l generalizing s with
  | nil => rfl
  | cons o l ih =>
    rw [scan]
    by_cases h : keep o = true
    · simp only [h, if_true, List.filter_cons, List.map_cons, runUntil, ih]
    · simp only [h, Bool.false_eq_true, if_false, List.filter_cons, ih]

/-- The objects offered to the callback by `visit`, before filtering. -/
theorem visit_spec.{v} {g : Grid K} {n : ℕ} {ex : Prop} {kb : O → Option (AABB K)} {m : SHM K O} (hn : n ≠ 0)
    (hi : Inv g n ex kb m) (hc : 0 < g.cell) (hv : g.scene.Valid) (w : O → AABB K) (hw : ∀ o b, kb o = some b → b = w o)
    (q : O) : ∃ l : List O, (∀ {σ : Type v} (cb : CB σ O) (keep : O → Bool) (s : σ),
        visit g w m cb keep q s = .ok (runUntil cb s ((l.filter keep).map (fun o => (q, o))))) ∧
      (∀ o, kb o ≠ none → g.Meet (w o) (w q) → o ∈ l) ∧
      (ex → l.Nodup ∧ ∀ o ∈ l, kb o ≠ none) := by
  obtain ⟨l, e, h1, h2⟩ := lists_spec hn hi hc hv w hw (w q)
  refine ⟨l.1 ++ l.2, fun cb keep s => ?_, h1, h2⟩
  rw [visit, e]
  simp only [scan_eq, List.filter_append, List.map_append, runUntil_append, andThen]
  split <;> rfl

end SHM
end Fcl
