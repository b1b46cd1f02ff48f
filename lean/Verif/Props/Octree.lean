import Verif.Octree.Cell
import Verif.AABB.Spec
import Mathlib.Tactic.Linarith
import Mathlib.Tactic.NormNum
import Mathlib.Tactic.FieldSimp
import Mathlib.Tactic.IntervalCases
import Mathlib.Analysis.SpecialFunctions.Log.Basic

/-!
# C49: octree cells tile the space, and the occupancy classification
-/

namespace Fcl
open Octree
variable {K : Type*} [Field K] [LinearOrder K] [IsStrictOrderedRing K]

/-- Strictly inside a box. -/
def AABB.interior (a : AABB K) : Set (V3 K) :=
  {p | (a.lo.x < p.x ∧ p.x < a.hi.x) ∧ (a.lo.y < p.y ∧ p.y < a.hi.y) ∧ (a.lo.z < p.z ∧ p.z < a.hi.z)}

namespace Octree

theorem half_mem (lo hi v : K) (h : lo ≤ hi) : (∃ b, (half b lo hi).1 ≤ v ∧ v ≤ (half b lo hi).2) ↔ lo ≤ v ∧ v ≤ hi := by
  constructor
  · rintro ⟨b, h1, h2⟩
    cases b <;> simp only [half, Bool.false_eq_true, if_false, if_true] at h1 h2 <;> constructor <;> linarith
  · rintro ⟨h1, h2⟩
    rcases le_total v ((lo + hi) * (1 / 2)) with hv | hv
    · exact ⟨false, h1, hv⟩
    · exact ⟨true, hv, h2⟩

theorem half_disj {lo hi v : K} {a b : Bool} (h1 : (half a lo hi).1 < v) (h2 : v < (half a lo hi).2)
    (h3 : (half b lo hi).1 < v) (h4 : v < (half b lo hi).2) : a = b := by
  cases a <;> cases b <;> first | rfl | (exfalso; simp only [half, Bool.false_eq_true, if_false, if_true] at h1 h2 h3 h4; linarith)

theorem half_le {lo hi : K} (h : lo ≤ hi) (b : Bool) : (half b lo hi).1 ≤ (half b lo hi).2 := by
  cases b <;> simp only [half, Bool.false_eq_true, if_false, if_true] <;> linarith

theorem half_size (lo hi : K) (b : Bool) : (half b lo hi).2 - (half b lo hi).1 = (hi - lo) / 2 := by
  cases b <;> simp only [half, Bool.false_eq_true, if_false, if_true] <;> ring

theorem bits_inj {i j : ℕ} (hi : i < 8) (hj : j < 8) (h0 : i.testBit 0 = j.testBit 0) (h1 : i.testBit 1 = j.testBit 1)
    (h2 : i.testBit 2 = j.testBit 2) : i = j := by
  interval_cases i <;> interval_cases j <;> first | rfl | (exfalso; revert h0 h1 h2; decide)

theorem bits_surj (a b c : Bool) : ∃ i < 8, Nat.testBit i 0 = a ∧ Nat.testBit i 1 = b ∧ Nat.testBit i 2 = c := by
  revert a b c; decide

theorem childBV_valid {b : AABB K} (h : b.Valid) (i : ℕ) : (childBV b i).Valid :=
  ⟨half_le h.1 _, half_le h.2.1 _, half_le h.2.2 _⟩

theorem interior_sub {b : AABB K} {p : V3 K} (h : b.Valid) {i : ℕ} (hp : p ∈ (childBV b i).interior) : p ∈ b.interior := by
  have aux : ∀ {lo hi v : K} (bit : Bool), lo ≤ hi → (half bit lo hi).1 < v ∧ v < (half bit lo hi).2 → lo < v ∧ v < hi := by
    intro lo hi v bit hl h
    cases bit <;> simp only [half, Bool.false_eq_true, if_false, if_true] at h <;> constructor <;> linarith [h.1, h.2]
  exact ⟨aux _ h.1 hp.1, aux _ h.2.1 hp.2.1, aux _ h.2.2 hp.2.2⟩

theorem cell_interior_sub {b : AABB K} {p : V3 K} (h : b.Valid) {l : List ℕ} (hp : p ∈ (cell b l).interior) :
    p ∈ b.interior := by
  induction l generalizing b with
  | nil => exact hp
  | cons i l ih => exact interior_sub h (ih (childBV_valid h i) hp)

end Octree

/-- C49: the eight children of a cell cover it and lie inside it: a point belongs to the cell iff it belongs
to one of them. -/
theorem C49_children_tile {b : AABB K} (h : b.Valid) (p : V3 K) :
    p ∈ b.pts ↔ ∃ i < 8, p ∈ (childBV b i).pts := by
  constructor
  · rintro ⟨hx, hy, hz⟩
    obtain ⟨bx, hx⟩ := (half_mem _ _ _ h.1).2 hx
    obtain ⟨bY, hy⟩ := (half_mem _ _ _ h.2.1).2 hy
    obtain ⟨bz, hz⟩ := (half_mem _ _ _ h.2.2).2 hz
    obtain ⟨i, hi, rfl, rfl, rfl⟩ := bits_surj bx bY bz
    exact ⟨i, hi, hx, hy, hz⟩
  · rintro ⟨i, -, hx, hy, hz⟩
    exact ⟨(half_mem _ _ _ h.1).1 ⟨_, hx⟩, (half_mem _ _ _ h.2.1).1 ⟨_, hy⟩, (half_mem _ _ _ h.2.2).1 ⟨_, hz⟩⟩

/-- C49: different children have no common inner point. -/
theorem C49_children_disjoint (b : AABB K) {i j : ℕ} (hi : i < 8) (hj : j < 8) (hij : i ≠ j) (p : V3 K) :
    ¬ (p ∈ (childBV b i).interior ∧ p ∈ (childBV b j).interior) := by
  rintro ⟨⟨⟨a1, a2⟩, ⟨a3, a4⟩, a5, a6⟩, ⟨b1, b2⟩, ⟨b3, b4⟩, b5, b6⟩
  exact hij (bits_inj hi hj (half_disj a1 a2 b1 b2) (half_disj a3 a4 b3 b4) (half_disj a5 a6 b5 b6))

/-- C49: every child has half the size of its parent. -/
theorem C49_children_size (b : AABB K) (i : ℕ) : ((childBV b i).hi.x - (childBV b i).lo.x = (b.hi.x - b.lo.x) / 2) ∧
    ((childBV b i).hi.y - (childBV b i).lo.y = (b.hi.y - b.lo.y) / 2) ∧
    ((childBV b i).hi.z - (childBV b i).lo.z = (b.hi.z - b.lo.z) / 2) :=
  ⟨half_size _ _ _, half_size _ _ _, half_size _ _ _⟩

/-- C49 for the cells of every depth `n`: those reached by `n` child indices cover the start cell and lie
inside it. -/
theorem C49_cells_tile {b : AABB K} (h : b.Valid) (n : ℕ) (p : V3 K) :
    p ∈ b.pts ↔ ∃ l : List ℕ, l.length = n ∧ (∀ i ∈ l, i < 8) ∧ p ∈ (cell b l).pts := by
  induction n generalizing b with
  | zero =>
    constructor
    · exact fun hp => ⟨[], rfl, by simp, hp⟩
    · rintro ⟨l, hl, -, hp⟩
      obtain rfl := List.length_eq_zero_iff.1 hl
      exact hp
  | succ n ih =>
    rw [C49_children_tile h]
    constructor
    · rintro ⟨i, hi, hp⟩
      obtain ⟨l, h1, h2, h3⟩ := (ih (childBV_valid h i)).1 hp
      exact ⟨i :: l, by simp [h1], by simpa [hi] using h2, h3⟩
    · rintro ⟨l, hl, h8, hp⟩
      cases l with
      | nil => cases hl
      | cons i l =>
        have h8' : i < 8 ∧ ∀ j ∈ l, j < 8 := by simpa using h8
        exact ⟨i, h8'.1, (ih (childBV_valid h i)).2 ⟨l, by simpa using hl, h8'.2, hp⟩⟩

/-- C49 for cells of any depths: two cells neither of which contains the other (no path is the beginning of
the other) have no common inner point. -/
theorem C49_cells_disjoint {b : AABB K} (h : b.Valid) {l l' : List ℕ} (hl : ∀ i ∈ l, i < 8) (hl' : ∀ i ∈ l', i < 8)
    (h1 : ¬ l <+: l') (h2 : ¬ l' <+: l) (p : V3 K) : ¬ (p ∈ (cell b l).interior ∧ p ∈ (cell b l').interior) := by
  induction l generalizing b l' with
  | nil => exact absurd (List.nil_prefix) h1
  | cons i l ih =>
    cases l' with
    | nil => exact absurd (List.nil_prefix) h2
    | cons j l' =>
      rintro ⟨p1, p2⟩
      have a1 : i < 8 ∧ ∀ k ∈ l, k < 8 := by simpa using hl
      have a2 : j < 8 ∧ ∀ k ∈ l', k < 8 := by simpa using hl'
      by_cases hij : i = j
      · subst hij
        exact ih (childBV_valid h i) a1.2 a2.2 (fun hp => h1 (List.prefix_cons_inj i |>.2 hp))
          (fun hp => h2 (List.prefix_cons_inj i |>.2 hp)) ⟨p1, p2⟩
      · exact C49_children_disjoint b a1.1 a2.1 hij p
          ⟨cell_interior_sub (childBV_valid h i) p1, cell_interior_sub (childBV_valid h j) p2⟩

/-- C49: the cells at full depth of an octree of the given resolution have that side length. -/
theorem C49_leaf_size (res : K) (l : List ℕ) :
    (cell (rootBV l.length res) l).hi.x - (cell (rootBV l.length res) l).lo.x = res ∧
    (cell (rootBV l.length res) l).hi.y - (cell (rootBV l.length res) l).lo.y = res ∧
    (cell (rootBV l.length res) l).hi.z - (cell (rootBV l.length res) l).lo.z = res := by
  have key : ∀ (l : List ℕ) (b : AABB K),
      ((cell b l).hi.x - (cell b l).lo.x) * 2 ^ l.length = b.hi.x - b.lo.x ∧
      ((cell b l).hi.y - (cell b l).lo.y) * 2 ^ l.length = b.hi.y - b.lo.y ∧
      ((cell b l).hi.z - (cell b l).lo.z) * 2 ^ l.length = b.hi.z - b.lo.z := by
    intro l
    induction l with
    | nil => intro b; simp [cell]
    | cons i l ih =>
      intro b
      obtain ⟨h1, h2, h3⟩ := ih (childBV b i)
      obtain ⟨s1, s2, s3⟩ := C49_children_size b i
      simp only [cell, List.length_cons, pow_succ]
      refine ⟨?_, ?_, ?_⟩
      · rw [← mul_assoc, h1, s1]; ring
      · rw [← mul_assoc, h2, s2]; ring
      · rw [← mul_assoc, h3, s3]; ring
  obtain ⟨h1, h2, h3⟩ := key l (rootBV l.length res)
  have hp : (2 : K) ^ l.length ≠ 0 := pow_ne_zero _ two_ne_zero
  have e : (2 : K) ^ l.length * res / 2 - -((2 : K) ^ l.length * res / 2) = res * 2 ^ l.length := by ring
  exact ⟨mul_right_cancel₀ hp (h1.trans e), mul_right_cancel₀ hp (h2.trans e), mul_right_cancel₀ hp (h3.trans e)⟩

/-- Non-vacuity: the root of depth 16 and resolution 1/10 is valid, and so is every cell of it. -/
example : (rootBV 16 (1 / 10) : AABB ℚ).Valid := by
  unfold rootBV AABB.Valid; norm_num

/-- C49, classification: when the free threshold is below the occupancy threshold, every node is exactly one
of occupied, free and uncertain. -/
theorem C49_classification {t : Thresholds} (h : t.free < t.occ) (v : ℝ) :
    (t.isOccupied v ∧ ¬ t.isFree v ∧ ¬ t.isUncertain v) ∨ (¬ t.isOccupied v ∧ t.isFree v ∧ ¬ t.isUncertain v) ∨
      (¬ t.isOccupied v ∧ ¬ t.isFree v ∧ t.isUncertain v) := by
  unfold Thresholds.isUncertain Thresholds.isOccupied Thresholds.isFree
  rcases lt_or_ge v t.occ with h1 | h1 <;> rcases le_or_gt v t.free with h2 | h2
  · right; left; exact ⟨not_le.2 h1, h2, fun h => h.2 h2⟩
  · right; right; exact ⟨not_le.2 h1, not_le.2 h2, not_le.2 h1, not_le.2 h2⟩
  · linarith
  · left; exact ⟨h1, not_le.2 h2, fun h => h.1 h1⟩

/-- Non-vacuity, and how a user gets there: thresholds given as probabilities in order. -/
theorem C49_thresholds_ordered {p q : ℝ} (h0 : 0 < p) (h1 : p < q) (h2 : q < 1) (t : Thresholds) :
    ((t.setFree p).setOccupancy q).free < ((t.setFree p).setOccupancy q).occ := by
  show logodds p < logodds q
  unfold logodds
  apply Real.log_lt_log
  · exact div_pos h0 (by linarith)
  · rw [div_lt_div_iff₀ (by linarith) (by linarith)]
    nlinarith

/-- C49, classification, is violated by the default thresholds: they are equal (0.5 has the log odds 0), and
a node with log odds 0 is both occupied and free. -/
theorem C49_violated_default : Thresholds.default.isOccupied 0 ∧ Thresholds.default.isFree 0 := by
  have h : logodds (1 / 2) = 0 := by unfold logodds; norm_num
  unfold Thresholds.isOccupied Thresholds.isFree Thresholds.default
  simp only [h]
  exact ⟨le_refl _, le_refl _⟩

end Fcl
