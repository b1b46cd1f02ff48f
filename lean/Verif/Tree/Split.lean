import Verif.Tree.Build
import Mathlib.Algebra.Order.Field.Basic
import Mathlib.Tactic.FinCases
import Mathlib.Algebra.Order.BigOperators.Group.List
import Mathlib.Algebra.BigOperators.Group.List.Basic

/-! The split decision of `topdown_1` in exact arithmetic. -/

namespace Fcl
namespace HTree
variable {K : Type*} [Field K] [LinearOrder K]

/-- Coordinate of the centre of a box. -/
def centerC (i : Fin 3) (b : AABB K) : K := b.center.get i

/-- `split_p[i]`, lines 471-478 of `hierarchy_tree-inl.h`: mean of the centres. -/
def splitP (bs : List (AABB K)) (i : Fin 3) : K := (bs.map (centerC i)).sum / (bs.length : K)

/-- `splitcount[i][1]` and `splitcount[i][0]`, lines 481-487. -/
def countHi (bs : List (AABB K)) (i : Fin 3) : Nat :=
  (bs.filter (fun b => decide (centerC i b - splitP bs i > 0))).length
@[inherit_doc countHi] def countLo (bs : List (AABB K)) (i : Fin 3) : Nat :=
  (bs.filter (fun b => !decide (centerC i b - splitP bs i > 0))).length

/-- One iteration of the axis choice, lines 489-500; the state is `best_axis` (`none` for -1) and
`bestmidp`. -/
def axisStep (bs : List (AABB K)) (st : Option (Fin 3) × Nat) (i : Fin 3) : Option (Fin 3) × Nat :=
  if countLo bs i > 0 ∧ countHi bs i > 0 then
    let midp := ((countLo bs i : Int) - countHi bs i).natAbs
    if midp < st.2 then (some i, midp) else st
  else st

/-- The chosen axis, lines 479-502. -/
def splitAxis (bs : List (AABB K)) : Fin 3 :=
  ((([0, 1, 2] : List (Fin 3)).foldl (axisStep bs) (none, bs.length)).1).getD 0

/-- The partition test, lines 504-508. -/
def splitBelow (bs : List (AABB K)) (b : AABB K) : Bool :=
  decide (centerC (splitAxis bs) b < splitP bs (splitAxis bs))

variable [IsStrictOrderedRing K]

theorem exists_lt_splitP (bs : List (AABB K)) (i : Fin 3) (h : ∃ b ∈ bs, splitP bs i < centerC i b) :
    ∃ b ∈ bs, centerC i b < splitP bs i := by
  by_contra hc
  push Not at hc
  have hlt := List.sum_lt_sum (fun _ : AABB K => splitP bs i) (centerC i) (l := bs) hc h
  rw [List.map_const', List.sum_replicate, nsmul_eq_mul, splitP] at hlt
  have hpos : (0 : K) < bs.length := by
    obtain ⟨b, hb, -⟩ := h
    exact_mod_cast List.length_pos_of_mem hb
  rw [mul_div_cancel₀ _ hpos.ne'] at hlt
  exact lt_irrefl _ hlt

theorem exists_gt_splitP (bs : List (AABB K)) (i : Fin 3) (h : ∃ b ∈ bs, centerC i b < splitP bs i) :
    ∃ b ∈ bs, splitP bs i < centerC i b := by
  by_contra hc
  push Not at hc
  have hlt := List.sum_lt_sum (centerC i) (fun _ : AABB K => splitP bs i) (l := bs) hc h
  rw [List.map_const', List.sum_replicate, nsmul_eq_mul, splitP] at hlt
  have hpos : (0 : K) < bs.length := by
    obtain ⟨b, hb, -⟩ := h
    exact_mod_cast List.length_pos_of_mem hb
  rw [mul_div_cancel₀ _ hpos.ne'] at hlt
  exact lt_irrefl _ hlt

omit [IsStrictOrderedRing K] in
theorem countHi_pos (bs : List (AABB K)) (i : Fin 3) (hb : 0 < countHi bs i) :
    ∃ b ∈ bs, centerC i b - splitP bs i > 0 := by
  obtain ⟨b, hb⟩ := List.exists_mem_of_length_pos hb
  obtain ⟨h1, h2⟩ := List.mem_filter.1 hb
  exact ⟨b, h1, of_decide_eq_true h2⟩

omit [IsStrictOrderedRing K] in
theorem count_add (bs : List (AABB K)) (i : Fin 3) : countHi bs i + countLo bs i = bs.length := by
  unfold countHi countLo
  have := List.length_eq_length_filter_add (l := bs) (fun b => decide (centerC i b - splitP bs i > 0))
  rw [this]

/-- When the centres are not all equal, the chosen axis has centres on both sides of the split value. -/
theorem splitAxis_good (bs : List (AABB K)) (i : Fin 3)
    (h : ∃ b ∈ bs, ∃ c ∈ bs, centerC i b ≠ centerC i c) :
    (∃ b ∈ bs, splitBelow bs b = true) ∧ (∃ b ∈ bs, splitBelow bs b = false) := by
  -- an axis with both counts positive
  have hi : 0 < countLo bs i ∧ 0 < countHi bs i := by
    obtain ⟨b, hb, c, hc, hne⟩ := h
    have : ∃ x ∈ bs, centerC i x ≠ splitP bs i := by
      by_cases hbs : centerC i b = splitP bs i
      · exact ⟨c, hc, fun e => hne (hbs.trans e.symm)⟩
      · exact ⟨b, hb, hbs⟩
    obtain ⟨x, hx, hxs⟩ := this
    have key : (∃ b ∈ bs, centerC i b < splitP bs i) ∧ (∃ b ∈ bs, splitP bs i < centerC i b) := by
      rcases lt_or_gt_of_ne hxs with h1 | h1
      · exact ⟨⟨x, hx, h1⟩, exists_gt_splitP bs i ⟨x, hx, h1⟩⟩
      · exact ⟨exists_lt_splitP bs i ⟨x, hx, h1⟩, ⟨x, hx, h1⟩⟩
    obtain ⟨⟨y, hy, hy'⟩, ⟨z, hz, hz'⟩⟩ := key
    constructor
    · apply List.length_pos_of_mem (a := y)
      refine List.mem_filter.2 ⟨hy, ?_⟩
      simp [hy'.le]
    · apply List.length_pos_of_mem (a := z)
      refine List.mem_filter.2 ⟨hz, ?_⟩
      simp [hz']
  have hstep : ∀ (st : Option (Fin 3) × Nat) (j : Fin 3),
      (∀ k, st.1 = some k → 0 < countLo bs k ∧ 0 < countHi bs k) →
      (st.1 = none → st.2 = bs.length) →
      (∀ k, (axisStep bs st j).1 = some k → 0 < countLo bs k ∧ 0 < countHi bs k) ∧
      ((axisStep bs st j).1 = none → (axisStep bs st j).2 = bs.length ∧ st.1 = none ∧
        ¬ (0 < countLo bs j ∧ 0 < countHi bs j)) := by
    intro st j h1 h2
    unfold axisStep
    by_cases hj : countLo bs j > 0 ∧ countHi bs j > 0
    · rw [if_pos hj]
      dsimp only
      split
      · refine ⟨?_, by simp⟩
        intro k hk
        simp only [Option.some.injEq] at hk
        exact hk ▸ hj
      · rename_i hm
        refine ⟨h1, ?_⟩
        intro hn
        exfalso
        have := count_add bs j
        rw [h2 hn] at hm
        omega
    · rw [if_neg hj]
      exact ⟨h1, fun hn => ⟨h2 hn, hn, hj⟩⟩
  obtain ⟨a1, a2⟩ := hstep (none, bs.length) 0 (by simp) (by simp)
  obtain ⟨b1, b2⟩ := hstep _ 1 a1 (fun h => (a2 h).1)
  obtain ⟨c1, c2⟩ := hstep _ 2 b1 (fun h => (b2 h).1)
  have hax : 0 < countLo bs (splitAxis bs) ∧ 0 < countHi bs (splitAxis bs) := by
    unfold splitAxis
    simp only [List.foldl_cons, List.foldl_nil]
    cases hr : (axisStep bs (axisStep bs (axisStep bs (none, bs.length) 0) 1) 2).1 with
    | some k => exact c1 k hr
    | none =>
      exfalso
      obtain ⟨-, n2, m2⟩ := c2 hr
      obtain ⟨-, n1, m1⟩ := b2 n2
      obtain ⟨-, -, m0⟩ := a2 n1
      fin_cases i
      · exact m0 hi
      · exact m1 hi
      · exact m2 hi
  obtain ⟨z, hz, hz'⟩ := countHi_pos bs _ hax.2
  have hz'' : splitP bs (splitAxis bs) < centerC (splitAxis bs) z := sub_pos.1 hz'
  obtain ⟨y, hy, hy'⟩ := exists_lt_splitP bs _ ⟨z, hz, hz''⟩
  refine ⟨⟨y, hy, ?_⟩, ⟨z, hz, ?_⟩⟩
  · simp [splitBelow, hy']
  · simp [splitBelow, hz''.le]

/-- When all centres are equal nothing is below the split value. -/
theorem splitBelow_const (bs : List (AABB K)) (h : ∀ i, ∀ b ∈ bs, ∀ c ∈ bs, centerC i b = centerC i c)
    (b : AABB K) (hb : b ∈ bs) : splitBelow bs b = false := by
  simp only [splitBelow, decide_eq_false_iff_not, not_lt]
  by_contra hc
  rw [not_le] at hc
  obtain ⟨c, hc1, hc2⟩ := exists_gt_splitP bs (splitAxis bs) ⟨b, hb, hc⟩
  rw [h _ c hc1 b hb] at hc2
  exact absurd hc2 (not_lt.2 hc.le)

end HTree
end Fcl
