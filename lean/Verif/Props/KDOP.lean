import Verif.KDOP.Spec
import Mathlib.Data.Rat.Lemmas
import Mathlib.Algebra.Order.Field.Rat
import Mathlib.Tactic.IntervalCases

/-! # C44: k-DOP operations are conservative -/

namespace Fcl
set_option linter.unusedSectionVars false
variable {K : Type*} [Field K] [LinearOrder K] [IsStrictOrderedRing K] {n : KDopN}

/-- The value the code computes for a slab is the product with its normal. -/
theorem slabValue_along (p : V3 K) {i : ℕ} {v : V3 ℤ} (h : n.normals[i]? = some v) :
    slabValue n p i = along v p := by
  cases n
  all_goals
    simp only [KDopN.normals] at h
    obtain ⟨hi, e⟩ := List.getElem?_eq_some_iff.1 h
    simp only [List.length_cons, List.length_nil] at hi
    interval_cases i <;> simp only [List.getElem_cons_zero, List.getElem_cons_succ] at e <;> subst e <;>
      simp [slabValue, getDistances, getDistances5, getDistances6, getDistances9, along] <;> ring

theorem half_normals {i : ℕ} : i < n.half ↔ ∃ v, n.normals[i]? = some v := by
  have : n.half = n.normals.length := by cases n <;> rfl
  rw [this]
  exact ⟨fun h => ⟨_, List.getElem?_eq_getElem h⟩, fun ⟨v, h⟩ => (List.getElem?_eq_some_iff.1 h).1⟩

theorem KDOP.mem_pts {a : KDOP n K} {p : V3 K} :
    p ∈ a.pts ↔ ∀ i, i < n.half → a.lo i ≤ slabValue n p i ∧ slabValue n p i ≤ a.hi i := by
  constructor
  · intro h i hi
    obtain ⟨v, hv⟩ := half_normals.1 hi
    rw [slabValue_along p hv]; exact h i v hv
  · intro h i v hv
    rw [← slabValue_along p hv]; exact h i (half_normals.2 ⟨v, hv⟩)

/-- **C44.** `inside(p)` says exactly whether `p` lies in the solid. -/
theorem C44_inside (a : KDOP n K) (p : V3 K) : a.inside p = true ↔ p ∈ a.pts := by
  rw [KDOP.mem_pts]
  simp only [KDOP.inside, List.all_eq_true, List.mem_range]
  refine forall_congr' fun i => forall_congr' fun _ => ?_
  split
  · rename_i h
    refine ⟨fun h => (by simp at h), fun ⟨h1, h2⟩ => ?_⟩
    rcases h with h | h
    · exact absurd h1 (not_le.2 h)
    · exact absurd h2 (not_le.2 h)
  · rename_i h
    push Not at h
    exact ⟨fun _ => h, fun _ => rfl⟩

/-- **C44.** `KDOP(v)` is the single point `v`. -/
theorem C44_ofPoint (v : V3 K) : (KDOP.ofPoint v : KDOP n K).pts = {v} := by
  ext p
  rw [KDOP.mem_pts, Set.mem_singleton_iff]
  constructor
  · intro h
    have key : ∀ i, i < n.half → slabValue n p i = slabValue n v i := fun i hi => le_antisymm (h i hi).2 (h i hi).1
    have h3 : 3 ≤ n.half := by cases n <;> decide
    refine V3.ext' ?_ ?_ ?_
    · simpa [slabValue] using key 0 (by omega)
    · simpa [slabValue] using key 1 (by omega)
    · simpa [slabValue] using key 2 (by omega)
  · rintro rfl i _; exact ⟨le_refl _, le_refl _⟩

/-- **C44.** `KDOP(a, b)` contains both points, and every k-DOP of the same kind that contains both points contains
all of it. -/
theorem C44_ofPoints (a b : V3 K) :
    a ∈ (KDOP.ofPoints a b : KDOP n K).pts ∧ b ∈ (KDOP.ofPoints a b : KDOP n K).pts ∧
      ∀ c : KDOP n K, a ∈ c.pts → b ∈ c.pts → (KDOP.ofPoints a b : KDOP n K).pts ⊆ c.pts := by
  refine ⟨KDOP.mem_pts.2 fun i _ => ?_, KDOP.mem_pts.2 fun i _ => ?_, fun c ha hb p hp => KDOP.mem_pts.2 fun i hi => ?_⟩
  · simp only [KDOP.ofPoints]; split
    · rename_i h; exact ⟨le_of_lt h, le_refl _⟩
    · rename_i h; exact ⟨le_refl _, not_lt.1 h⟩
  · simp only [KDOP.ofPoints]; split
    · rename_i h; exact ⟨le_refl _, le_of_lt h⟩
    · rename_i h; exact ⟨not_lt.1 h, le_refl _⟩
  · have h1 := KDOP.mem_pts.1 ha i hi
    have h2 := KDOP.mem_pts.1 hb i hi
    have h3 := KDOP.mem_pts.1 hp i hi
    simp only [KDOP.ofPoints] at h3
    split at h3
    · exact ⟨h2.1.trans h3.1, h3.2.trans h1.2⟩
    · exact ⟨h1.1.trans h3.1, h3.2.trans h2.2⟩

/-- **C44.** `+=` with a point keeps the solid and adds the point. -/
theorem C44_addPoint (a : KDOP n K) (p : V3 K) : p ∈ (a.addPoint p).pts ∧ a.pts ⊆ (a.addPoint p).pts := by
  have hl : ∀ i, (a.addPoint p).lo i ≤ slabValue n p i ∧ (a.addPoint p).lo i ≤ a.lo i := by
    intro i; simp only [KDOP.addPoint]; split
    · rename_i h; exact ⟨le_refl _, le_of_lt h⟩
    · rename_i h; exact ⟨not_lt.1 h, le_refl _⟩
  have hh : ∀ i, slabValue n p i ≤ (a.addPoint p).hi i ∧ a.hi i ≤ (a.addPoint p).hi i := by
    intro i; simp only [KDOP.addPoint]; split
    · rename_i h; exact ⟨le_refl _, le_of_lt h⟩
    · rename_i h; exact ⟨not_lt.1 h, le_refl _⟩
  refine ⟨KDOP.mem_pts.2 fun i _ => ⟨(hl i).1, (hh i).1⟩, fun q hq => KDOP.mem_pts.2 fun i hi => ?_⟩
  have := KDOP.mem_pts.1 hq i hi
  exact ⟨(hl i).2.trans this.1, this.2.trans (hh i).2⟩

/-- **C44.** `+` and `+=` with a k-DOP contain both. -/
theorem C44_merge (a b : KDOP n K) : a.pts ⊆ (a.merge b).pts ∧ b.pts ⊆ (a.merge b).pts := by
  have hl : ∀ i, (a.merge b).lo i ≤ a.lo i ∧ (a.merge b).lo i ≤ b.lo i := by
    intro i; simp only [KDOP.merge]; split
    · rename_i h; exact ⟨le_refl _, le_of_lt h⟩
    · rename_i h; exact ⟨not_lt.1 h, le_refl _⟩
  have hh : ∀ i, a.hi i ≤ (a.merge b).hi i ∧ b.hi i ≤ (a.merge b).hi i := by
    intro i; simp only [KDOP.merge]; split
    · rename_i h; exact ⟨le_refl _, le_of_lt h⟩
    · rename_i h; exact ⟨not_lt.1 h, le_refl _⟩
  refine ⟨fun q hq => KDOP.mem_pts.2 fun i hi => ?_, fun q hq => KDOP.mem_pts.2 fun i hi => ?_⟩
  · have := KDOP.mem_pts.1 hq i hi
    exact ⟨(hl i).1.trans this.1, this.2.trans (hh i).1⟩
  · have := KDOP.mem_pts.1 hq i hi
    exact ⟨(hl i).2.trans this.1, this.2.trans (hh i).2⟩

/-- **C44.** `overlap` never answers false for two k-DOPs with a common point. -/
theorem C44_overlap (a b : KDOP n K) {p : V3 K} (ha : p ∈ a.pts) (hb : p ∈ b.pts) : a.overlap b = true := by
  simp only [KDOP.overlap, List.all_eq_true, List.mem_range]
  intro i hi
  have h1 := KDOP.mem_pts.1 ha i hi
  have h2 := KDOP.mem_pts.1 hb i hi
  rw [if_neg (not_lt.2 (h1.1.trans h2.2)), if_neg (not_lt.2 (h2.1.trans h1.2))]

theorem KDOP.overlap_iff (a b : KDOP n K) :
    a.overlap b = true ↔ ∀ i, i < n.half → a.lo i ≤ b.hi i ∧ b.lo i ≤ a.hi i := by
  simp only [KDOP.overlap, List.all_eq_true, List.mem_range]
  refine forall_congr' fun i => forall_congr' fun _ => ?_
  split
  · rename_i h; exact ⟨fun h => (by simp at h), fun g => absurd g.1 (not_le.2 h)⟩
  · rename_i h
    split
    · rename_i h; exact ⟨fun h => (by simp at h), fun g => absurd g.2 (not_le.2 h)⟩
    · rename_i h'; exact ⟨fun _ => ⟨not_lt.1 h, not_lt.1 h'⟩, fun _ => rfl⟩

/-- **C44.** `overlap` does not depend on the order of its arguments. -/
theorem C44_overlap_comm (a b : KDOP n K) : a.overlap b = b.overlap a := by
  rw [Bool.eq_iff_iff, KDOP.overlap_iff, KDOP.overlap_iff]
  exact forall_congr' fun i => forall_congr' fun _ => and_comm

/-- **C44.** `translate` moves the solid by exactly `t`. -/
theorem C44_translate (a : KDOP n K) (t p : V3 K) : p ∈ (a.translate t).pts ↔ p - t ∈ a.pts := by
  refine forall_congr' fun i => forall_congr' fun v => forall_congr' fun hv => ?_
  have e : along v (p - t) = along v p - along v t := by simp only [along, V3.sub_x, V3.sub_y, V3.sub_z]; ring
  simp only [KDOP.translate, slabValue_along t hv, e]
  constructor <;> rintro ⟨h1, h2⟩ <;> constructor <;> linarith

/-- The k-DOP obtained by adding the points one by one to an initial one, as done by every fitter (for example
`fitn`, include/fcl/math/bv/utility-inl.h, `bv += ps[i]`). -/
def KDOP.addAll (a : KDOP n K) (ps : List (V3 K)) : KDOP n K := ps.foldl KDOP.addPoint a

theorem addAll_lo (a : KDOP n K) (ps : List (V3 K)) (i : ℕ) :
    (∀ p ∈ ps, (a.addAll ps).lo i ≤ slabValue n p i) ∧ (a.addAll ps).lo i ≤ a.lo i ∧
    ((a.addAll ps).lo i = a.lo i ∨ ∃ p ∈ ps, (a.addAll ps).lo i = slabValue n p i) := by
  induction ps generalizing a with
  | nil => exact ⟨fun _ h => (by simp at h), le_refl _, Or.inl rfl⟩
  | cons q ps ih =>
    obtain ⟨h1, h2, h3⟩ := ih (a.addPoint q)
    have e : (a.addAll (q :: ps)) = (a.addPoint q).addAll ps := rfl
    have hq : (a.addPoint q).lo i ≤ slabValue n q i ∧ (a.addPoint q).lo i ≤ a.lo i ∧
        ((a.addPoint q).lo i = a.lo i ∨ (a.addPoint q).lo i = slabValue n q i) := by
      simp only [KDOP.addPoint]; split
      · rename_i h; exact ⟨le_refl _, le_of_lt h, Or.inr rfl⟩
      · rename_i h; exact ⟨not_lt.1 h, le_refl _, Or.inl rfl⟩
    rw [e]
    refine ⟨fun p hp => ?_, h2.trans hq.2.1, ?_⟩
    · rcases List.mem_cons.1 hp with rfl | hp
      · exact h2.trans hq.1
      · exact h1 p hp
    · rcases h3 with h3 | ⟨p, hp, h3⟩
      · rcases hq.2.2 with g | g
        · exact Or.inl (h3.trans g)
        · exact Or.inr ⟨q, by simp, h3.trans g⟩
      · exact Or.inr ⟨p, by simp [hp], h3⟩

theorem addAll_hi (a : KDOP n K) (ps : List (V3 K)) (i : ℕ) :
    (∀ p ∈ ps, slabValue n p i ≤ (a.addAll ps).hi i) ∧ a.hi i ≤ (a.addAll ps).hi i ∧
    ((a.addAll ps).hi i = a.hi i ∨ ∃ p ∈ ps, (a.addAll ps).hi i = slabValue n p i) := by
  induction ps generalizing a with
  | nil => exact ⟨fun _ h => (by simp at h), le_refl _, Or.inl rfl⟩
  | cons q ps ih =>
    obtain ⟨h1, h2, h3⟩ := ih (a.addPoint q)
    have e : (a.addAll (q :: ps)) = (a.addPoint q).addAll ps := rfl
    have hq : slabValue n q i ≤ (a.addPoint q).hi i ∧ a.hi i ≤ (a.addPoint q).hi i ∧
        ((a.addPoint q).hi i = a.hi i ∨ (a.addPoint q).hi i = slabValue n q i) := by
      simp only [KDOP.addPoint]; split
      · rename_i h; exact ⟨le_refl _, le_of_lt h, Or.inr rfl⟩
      · rename_i h; exact ⟨not_lt.1 h, le_refl _, Or.inl rfl⟩
    rw [e]
    refine ⟨fun p hp => ?_, hq.2.1.trans h2, ?_⟩
    · rcases List.mem_cons.1 hp with rfl | hp
      · exact hq.1.trans h2
      · exact h1 p hp
    · rcases h3 with h3 | ⟨p, hp, h3⟩
      · rcases hq.2.2 with g | g
        · exact Or.inl (h3.trans g)
        · exact Or.inr ⟨q, by simp, h3.trans g⟩
      · exact Or.inr ⟨p, by simp [hp], h3⟩

/-- The slab values of a point are no larger than `M` in absolute value: no overflow happens for it. -/
def KDopN.InRange (n : KDopN) (M : K) (p : V3 K) : Prop := ∀ v ∈ n.normals, -M ≤ along v p ∧ along v p ≤ M

theorem addAll_default_tight {M : K} {ps : List (V3 K)} (hne : ps ≠ []) (hr : ∀ p ∈ ps, n.InRange M p) {i : ℕ}
    (hi : i < n.half) :
    (∃ p ∈ ps, ((KDOP.default M : KDOP n K).addAll ps).lo i = slabValue n p i) ∧
    (∃ p ∈ ps, ((KDOP.default M : KDOP n K).addAll ps).hi i = slabValue n p i) := by
  obtain ⟨v, hv⟩ := half_normals.1 hi
  have hm : v ∈ n.normals := List.mem_of_getElem? hv
  obtain ⟨p, hp⟩ := List.exists_mem_of_ne_nil ps hne
  have hb := hr p hp v hm
  rw [← slabValue_along p hv] at hb
  obtain ⟨l1, _, l3⟩ := addAll_lo (KDOP.default M : KDOP n K) ps i
  obtain ⟨u1, _, u3⟩ := addAll_hi (KDOP.default M : KDOP n K) ps i
  refine ⟨?_, ?_⟩
  · rcases l3 with l3 | l3
    · refine ⟨p, hp, le_antisymm (l1 p hp) ?_⟩
      rw [l3]; exact hb.2
    · exact l3
  · rcases u3 with u3 | u3
    · refine ⟨p, hp, le_antisymm ?_ (u1 p hp)⟩
      rw [u3]; exact hb.1
    · exact u3

/-- **C44.** Adding any points to a default constructed k-DOP gives the smallest k-DOP that contains them: it
contains every one of them, and every k-DOP of the same kind that contains all of them contains all of it. -/
theorem C44_smallest {M : K} {ps : List (V3 K)} (hne : ps ≠ []) (hr : ∀ p ∈ ps, n.InRange M p) :
    (∀ p ∈ ps, p ∈ ((KDOP.default M : KDOP n K).addAll ps).pts) ∧
      ∀ c : KDOP n K, (∀ p ∈ ps, p ∈ c.pts) → ((KDOP.default M : KDOP n K).addAll ps).pts ⊆ c.pts := by
  refine ⟨fun p hp => KDOP.mem_pts.2 fun i _ => ⟨(addAll_lo _ ps i).1 p hp, (addAll_hi _ ps i).1 p hp⟩,
    fun c hc q hq => KDOP.mem_pts.2 fun i hi => ?_⟩
  obtain ⟨⟨p, hp, e⟩, ⟨p', hp', e'⟩⟩ := addAll_default_tight (n := n) hne hr hi
  have h := KDOP.mem_pts.1 hq i hi
  exact ⟨(KDOP.mem_pts.1 (hc p hp) i hi).1.trans (e ▸ h.1), (e' ▸ h.2).trans (KDOP.mem_pts.1 (hc p' hp') i hi).2⟩

/-- **C44.** The same starting from the k-DOP of a first point; no bound on the values is needed. -/
theorem C44_smallest_from (q : V3 K) (ps : List (V3 K)) :
    (∀ p ∈ q :: ps, p ∈ ((KDOP.ofPoint q : KDOP n K).addAll ps).pts) ∧
      ∀ c : KDOP n K, (∀ p ∈ q :: ps, p ∈ c.pts) → ((KDOP.ofPoint q : KDOP n K).addAll ps).pts ⊆ c.pts := by
  refine ⟨fun p hp => KDOP.mem_pts.2 fun i _ => ?_, fun c hc r hr => KDOP.mem_pts.2 fun i hi => ?_⟩
  · rcases List.mem_cons.1 hp with rfl | hp
    · exact ⟨(addAll_lo (KDOP.ofPoint p) ps i).2.1, (addAll_hi (KDOP.ofPoint p) ps i).2.1⟩
    · exact ⟨(addAll_lo _ ps i).1 p hp, (addAll_hi _ ps i).1 p hp⟩
  · have h := KDOP.mem_pts.1 hr i hi
    constructor
    · rcases (addAll_lo (KDOP.ofPoint q : KDOP n K) ps i).2.2 with e | ⟨p, hp, e⟩
      · have := h.1
        rw [e] at this; exact (KDOP.mem_pts.1 (hc q (by simp)) i hi).1.trans this
      · exact (KDOP.mem_pts.1 (hc p (by simp [hp])) i hi).1.trans (e ▸ h.1)
    · rcases (addAll_hi (KDOP.ofPoint q : KDOP n K) ps i).2.2 with e | ⟨p, hp, e⟩
      · have := h.2
        rw [e] at this; exact this.trans (KDOP.mem_pts.1 (hc q (by simp)) i hi).2
      · exact (e ▸ h.2).trans (KDOP.mem_pts.1 (hc p (by simp [hp])) i hi).2

/-- **C44.** The merge of the k-DOPs of two point sets is the smallest k-DOP that contains all the points. -/
theorem C44_merge_smallest {M : K} {ps qs : List (V3 K)} (hp : ps ≠ []) (hq : qs ≠ [])
    (hpr : ∀ p ∈ ps, n.InRange M p) (hqr : ∀ p ∈ qs, n.InRange M p) (c : KDOP n K)
    (h1 : ∀ p ∈ ps, p ∈ c.pts) (h2 : ∀ p ∈ qs, p ∈ c.pts) :
    (((KDOP.default M : KDOP n K).addAll ps).merge ((KDOP.default M).addAll qs)).pts ⊆ c.pts := by
  intro r hr
  refine KDOP.mem_pts.2 fun i hi => ?_
  obtain ⟨⟨p, hp, e⟩, ⟨p', hp', e'⟩⟩ := addAll_default_tight (n := n) hp hpr hi
  obtain ⟨⟨q, hq, f⟩, ⟨q', hq', f'⟩⟩ := addAll_default_tight (n := n) hq hqr hi
  have h := KDOP.mem_pts.1 hr i hi
  simp only [KDOP.merge] at h
  constructor
  · have := h.1
    split at this
    · rw [e] at this; exact (KDOP.mem_pts.1 (h1 p hp) i hi).1.trans this
    · rw [f] at this; exact (KDOP.mem_pts.1 (h2 q hq) i hi).1.trans this
  · have := h.2
    split at this
    · rw [e'] at this; exact this.trans (KDOP.mem_pts.1 (h1 p' hp') i hi).2
    · rw [f'] at this; exact this.trans (KDOP.mem_pts.1 (h2 q' hq') i hi).2

/-- **C44.** For the k-DOPs of two point sets, `overlap` answers false exactly when one of the normals strictly
separates the two sets. -/
theorem C44_overlap_exact {M : K} {ps qs : List (V3 K)} (hp : ps ≠ []) (hq : qs ≠ [])
    (hpr : ∀ p ∈ ps, n.InRange M p) (hqr : ∀ p ∈ qs, n.InRange M p) :
    ((KDOP.default M : KDOP n K).addAll ps).overlap ((KDOP.default M).addAll qs) = false ↔
      ∃ v ∈ n.normals, (∀ p ∈ ps, ∀ q ∈ qs, along v p < along v q) ∨ (∀ p ∈ ps, ∀ q ∈ qs, along v q < along v p) := by
  rw [← Bool.not_eq_true, KDOP.overlap_iff]
  constructor
  · intro h
    push Not at h
    obtain ⟨i, hi, h⟩ := h
    obtain ⟨v, hv⟩ := half_normals.1 hi
    refine ⟨v, List.mem_of_getElem? hv, ?_⟩
    by_cases h0 : ((KDOP.default M : KDOP n K).addAll ps).lo i ≤ ((KDOP.default M : KDOP n K).addAll qs).hi i
    · have h := h h0
      refine Or.inl fun p hp q hq => ?_
      rw [← slabValue_along p hv, ← slabValue_along q hv]
      exact lt_of_le_of_lt ((addAll_hi _ ps i).1 p hp) (lt_of_lt_of_le h ((addAll_lo _ qs i).1 q hq))
    · refine Or.inr fun p hp q hq => ?_
      rw [← slabValue_along p hv, ← slabValue_along q hv]
      exact lt_of_le_of_lt ((addAll_hi _ qs i).1 q hq) (lt_of_lt_of_le (not_le.1 h0) ((addAll_lo _ ps i).1 p hp))
  · rintro ⟨v, hv, h⟩ g
    obtain ⟨i, hv⟩ := List.mem_iff_getElem?.1 hv
    have hi := half_normals.2 ⟨v, hv⟩
    obtain ⟨⟨p, hp, e⟩, ⟨p', hp', e'⟩⟩ := addAll_default_tight (n := n) hp hpr hi
    obtain ⟨⟨q, hq, f⟩, ⟨q', hq', f'⟩⟩ := addAll_default_tight (n := n) hq hqr hi
    have g := g i hi
    rw [e, e', f, f', slabValue_along p hv, slabValue_along p' hv, slabValue_along q hv, slabValue_along q' hv] at g
    rcases h with h | h
    · exact absurd (h p' hp' q hq) (not_lt.2 g.2)
    · exact absurd (h p hp q' hq') (not_lt.2 g.1)

/-- **C44.** A default constructed k-DOP is empty. -/
theorem C44_default {M : K} (hM : 0 < M) : (KDOP.default M : KDOP n K).pts = ∅ := by
  ext p
  simp only [Set.mem_empty_iff_false, iff_false]
  intro h
  have := KDOP.mem_pts.1 h 0 (by cases n <;> decide)
  simp only [KDOP.default] at this
  linarith [this.1, this.2]

/-- **C44.** `size()` bounds the square of the distance of any two points of the solid, and every point is at most
half the extent away from `center()` along each axis. -/
theorem C44_size (a : KDOP n K) {p q : V3 K} (hp : p ∈ a.pts) (hq : q ∈ a.pts) :
    (p - q).dot (p - q) ≤ a.size ∧ |p.x - a.center.x| ≤ a.width / 2 ∧ |p.y - a.center.y| ≤ a.height / 2 ∧
      |p.z - a.center.z| ≤ a.depth / 2 := by
  have h3 : 3 ≤ n.half := by cases n <;> decide
  have p0 := KDOP.mem_pts.1 hp 0 (by omega)
  have p1 := KDOP.mem_pts.1 hp 1 (by omega)
  have p2 := KDOP.mem_pts.1 hp 2 (by omega)
  have q0 := KDOP.mem_pts.1 hq 0 (by omega)
  have q1 := KDOP.mem_pts.1 hq 1 (by omega)
  have q2 := KDOP.mem_pts.1 hq 2 (by omega)
  simp [slabValue] at p0 p1 p2 q0 q1 q2
  have sq : ∀ u v l h : K, l ≤ u → u ≤ h → l ≤ v → v ≤ h → (u - v) * (u - v) ≤ (h - l) * (h - l) := by
    intro u v l h h1 h2 h3 h4
    have := abs_le_abs (a := u - v) (b := h - l) (by linarith) (by linarith)
    nlinarith [mul_self_le_mul_self (abs_nonneg _) this, abs_mul_abs_self (u - v), abs_mul_abs_self (h - l)]
  refine ⟨?_, ?_, ?_, ?_⟩
  · simp only [V3.dot, V3.sub_x, V3.sub_y, V3.sub_z, KDOP.size, KDOP.width, KDOP.height, KDOP.depth]
    linarith [sq _ _ _ _ p0.1 p0.2 q0.1 q0.2, sq _ _ _ _ p1.1 p1.2 q1.1 q1.2, sq _ _ _ _ p2.1 p2.2 q2.1 q2.2]
  · simp only [KDOP.center, KDOP.width]; rw [abs_le]; constructor <;> linarith [p0.1, p0.2]
  · simp only [KDOP.center, KDOP.height]; rw [abs_le]; constructor <;> linarith [p1.1, p1.2]
  · simp only [KDOP.center, KDOP.depth]; rw [abs_le]; constructor <;> linarith [p2.1, p2.2]

/-- `distance` is a stub: it answers 0 also for k-DOPs that do not overlap. -/
theorem C44_distance_stub_neg :
    ∃ a b : KDOP .n16 ℚ, a.overlap b = false ∧ a.distance b = 0 :=
  ⟨.ofPoint ⟨0, 0, 0⟩, .ofPoint ⟨5, 0, 0⟩, by decide +kernel, rfl⟩

/-- `overlap` is only conservative: it may answer true for k-DOPs without a common point. The two solids here are
a segment along (1,1,1) and a segment along (1,0,0) that passes next to it. -/
theorem C44_overlap_not_exact :
    ∃ a b : KDOP .n16 ℚ, a.overlap b = true ∧ ∀ p, ¬ (p ∈ a.pts ∧ p ∈ b.pts) := by
  refine ⟨.ofPoints ⟨0, 0, 0⟩ ⟨10, 10, 10⟩, .ofPoints ⟨0, 5, 4⟩ ⟨10, 5, 4⟩, by decide +kernel, fun p ⟨h, g⟩ => ?_⟩
  have h1 := KDOP.mem_pts.1 h 6 (by decide)
  have h2 := KDOP.mem_pts.1 h 7 (by decide)
  have g1 := KDOP.mem_pts.1 g 1 (by decide)
  have g2 := KDOP.mem_pts.1 g 2 (by decide)
  simp [slabValue, KDOP.ofPoints, getDistances, getDistances5] at h1 h2 g1 g2
  linarith [h1.1, h1.2, h2.1, h2.2, g1.1, g1.2, g2.1, g2.2]

/-! ### The hypotheses are met -/

example : ∀ p ∈ ([⟨0, 0, 0⟩, ⟨1, 2, 3⟩, ⟨-4, 1, 1⟩] : List (V3 ℚ)), KDopN.n24.InRange 100 p := by
  simp only [KDopN.InRange, KDopN.normals, along]; decide +kernel
example : ((KDOP.default 100 : KDOP .n24 ℚ).addAll [⟨0, 0, 0⟩, ⟨1, 2, 3⟩, ⟨-4, 1, 1⟩]).inside ⟨0, 1, 1⟩ = true := by
  decide +kernel
example : ((KDOP.default 100 : KDOP .n24 ℚ).addAll [⟨0, 0, 0⟩, ⟨1, 2, 3⟩]).inside ⟨1, 0, 1⟩ = false := by
  decide +kernel

end Fcl
