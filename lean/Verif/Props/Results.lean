import Verif.Narrow.Results
import Mathlib.Data.List.Induction
import Mathlib.Data.Finset.Card
import Mathlib.Data.Finset.Dedup
import Mathlib.Data.List.Dedup
import Mathlib.Algebra.Order.Ring.Int
import Mathlib.Algebra.Order.Ring.Rat

/-! # C27, C28: `DistanceResult` and `CollisionResult` -/

namespace Fcl
open DistResult

set_option linter.unusedSectionVars false

section C27
variable {K V G : Type*} [LinearOrder K]

/-- C27: after any sequence of `update` calls, `min_distance` is a lower bound of the initial value and
of all offers. Either no offer was below the initial value, and nothing changed; or the record holds
distance, geometries and primitives of one offer, the first among those with the smallest distance, and
also its points if it came with points. -/
theorem C27_minimum (r : DistResult K V G) (os : List (Offer K V G)) :
    let f := os.foldl update r
    (f.minDist ≤ r.minDist ∧ ∀ o ∈ os, f.minDist ≤ o.d) ∧
    ((f = r ∧ ∀ o ∈ os, r.minDist ≤ o.d) ∨
      ∃ l₁ o l₂, os = l₁ ++ o :: l₂ ∧ o.d < r.minDist ∧ (∀ x ∈ l₁, o.d < x.d) ∧ (∀ x ∈ l₂, o.d ≤ x.d) ∧
        f.minDist = o.d ∧ f.o1 = o.o1 ∧ f.o2 = o.o2 ∧ f.b1 = o.b1 ∧ f.b2 = o.b2 ∧
        ∀ p, o.pts = some p → f.nearest = p) := by
  induction os using List.reverseRecOn with
  | nil => exact ⟨⟨le_refl _, by simp⟩, Or.inl ⟨rfl, by simp⟩⟩
  | append_singleton os x ih =>
    simp only [List.foldl_append, List.foldl_cons, List.foldl_nil] at ih ⊢
    set f := os.foldl update r with hf
    obtain ⟨⟨h1, h2⟩, h3⟩ := ih
    unfold update
    by_cases hx : f.minDist > x.d
    · rw [if_pos hx]
      have key : ∀ g : DistResult K V G, g.minDist = x.d → g.o1 = x.o1 → g.o2 = x.o2 → g.b1 = x.b1 →
          g.b2 = x.b2 → (∀ p, x.pts = some p → g.nearest = p) →
          (g.minDist ≤ r.minDist ∧ ∀ o ∈ os ++ [x], g.minDist ≤ o.d) ∧
          ((g = r ∧ ∀ o ∈ os ++ [x], r.minDist ≤ o.d) ∨
            ∃ l₁ o l₂, os ++ [x] = l₁ ++ o :: l₂ ∧ o.d < r.minDist ∧ (∀ x ∈ l₁, o.d < x.d) ∧
              (∀ x ∈ l₂, o.d ≤ x.d) ∧ g.minDist = o.d ∧ g.o1 = o.o1 ∧ g.o2 = o.o2 ∧ g.b1 = o.b1 ∧
              g.b2 = o.b2 ∧ ∀ p, o.pts = some p → g.nearest = p) := by
        intro g g1 g2 g3 g4 g5 g6
        refine ⟨⟨by rw [g1]; exact hx.le.trans h1, ?_⟩, Or.inr ⟨os, x, [], rfl, lt_of_lt_of_le hx h1, ?_,
          by simp, g1, g2, g3, g4, g5, g6⟩⟩
        · intro o ho
          rw [g1]
          rcases List.mem_append.1 ho with ho | ho
          · exact hx.le.trans (h2 o ho)
          · rw [List.mem_singleton.1 ho]
        · exact fun y hy => lt_of_lt_of_le hx (h2 y hy)
      cases hp : x.pts with
      | none =>
        exact key { f with minDist := x.d, o1 := x.o1, o2 := x.o2, b1 := x.b1, b2 := x.b2 } rfl rfl rfl rfl
          rfl (by simp [hp])
      | some p =>
        exact key ⟨x.d, p, x.o1, x.o2, x.b1, x.b2⟩ rfl rfl rfl rfl rfl (by simp [hp])
    · rw [if_neg hx]
      have hx := not_lt.1 hx
      refine ⟨⟨h1, ?_⟩, ?_⟩
      · intro o ho
        rcases List.mem_append.1 ho with ho | ho
        · exact h2 o ho
        · rw [List.mem_singleton.1 ho]; exact hx
      · rcases h3 with ⟨e, h3⟩ | ⟨l₁, o, l₂, e, k1, k2, k3, k4, k5⟩
        · refine Or.inl ⟨e, ?_⟩
          intro o ho
          rcases List.mem_append.1 ho with ho | ho
          · exact h3 o ho
          · rw [List.mem_singleton.1 ho, ← e]; exact hx
        · refine Or.inr ⟨l₁, o, l₂ ++ [x], by rw [e]; simp, k1, k2, ?_, k4, k5⟩
          intro y hy
          rcases List.mem_append.1 hy with hy | hy
          · exact k3 y hy
          · rw [List.mem_singleton.1 hy, ← k4]; exact hx

/-- Merging a partial result with `update(other_result)` is the same as having offered its distance,
geometries, primitives and points. -/
theorem C27_merge (r other : DistResult K V G) :
    r.updateFrom other =
      r.update ⟨other.minDist, other.o1, other.o2, other.b1, other.b2, some other.nearest⟩ := by
  unfold updateFrom update
  split <;> rfl

/-- Two results collected separately and merged record the minimum over both collections. -/
theorem C27_merge_minimum (big : K) (j j' : V × V) (os os' : List (Offer K V G)) :
    ((os.foldl update (init big j)).updateFrom (os'.foldl update (init big j'))).minDist =
      ((os ++ os').foldl update (init big j)).minDist := by
  obtain ⟨⟨a1, a2⟩, a3⟩ := C27_minimum (init big j : DistResult K V G) os
  obtain ⟨⟨b1, b2⟩, b3⟩ := C27_minimum (init big j' : DistResult K V G) os'
  obtain ⟨⟨c1, c2⟩, c3⟩ := C27_minimum (init big j : DistResult K V G) (os ++ os')
  generalize os.foldl update (init big j) = A at *
  generalize os'.foldl update (init big j') = B at *
  generalize (os ++ os').foldl update (init big j) = C at *
  have hi : ∀ j : V × V, (init big j : DistResult K V G).minDist = big := fun _ => rfl
  simp only [hi] at a1 a3 b1 b3 c1 c3
  have hm : (A.updateFrom B).minDist = min A.minDist B.minDist := by
    unfold updateFrom
    split
    · rename_i h; exact (min_eq_right h.le).symm
    · rename_i h; exact (min_eq_left (not_lt.1 h)).symm
  rw [hm]
  apply le_antisymm
  · rcases c3 with ⟨e, -⟩ | ⟨l₁, o, l₂, e, -, -, -, c4, -⟩
    · rw [e, hi]; exact min_le_of_left_le a1
    · rw [c4]
      have : o ∈ os ++ os' := by rw [e]; simp
      rcases List.mem_append.1 this with ho | ho
      · exact min_le_of_left_le (a2 o ho)
      · exact min_le_of_right_le (b2 o ho)
  · refine le_min ?_ ?_
    · rcases a3 with ⟨e, -⟩ | ⟨l₁, o, l₂, e, -, -, -, a4, -⟩
      · rw [e, hi]; exact c1
      · rw [a4]; exact c2 o (by rw [e]; simp)
    · rcases b3 with ⟨e, -⟩ | ⟨l₁, o, l₂, e, -, -, -, b4, -⟩
      · rw [e, hi]; exact c1
      · rw [b4]; exact c2 o (by rw [e]; simp)

/-- C27, `clear()`: the record is a freshly constructed one, except for the nearest points. -/
theorem C27_clear_partial (big : K) (r : DistResult K V G) : r.clear big = init big r.nearest := rfl

/-- Missing from the full statement: `clear()` leaves the points of the last pair in place. -/
theorem C27_clear_keeps_points :
    ¬ ∀ (junk : ℕ × ℕ) (os : List (Offer ℤ ℕ ℕ)),
      ((os.foldl update (init 100 junk)).clear 100).nearest = junk := by
  intro h
  have := h (0, 0) [⟨5, some 1, some 2, -1, -1, some (3, 4)⟩]
  revert this; decide

/-- Missing from the full statement: the overload of `update` without points leaves the points of an
earlier, farther pair beside the distance of the closest pair. -/
theorem C27_stale_points :
    ¬ ∀ (r : DistResult ℤ ℕ ℕ) (os : List (Offer ℤ ℕ ℕ)) (o : Offer ℤ ℕ ℕ) (p : ℕ × ℕ),
      o ∈ os → o.pts = some p → (os.foldl update r).nearest = p → (os.foldl update r).minDist = o.d := by
  intro h
  have := h (init 100 (0, 0)) [⟨5, some 1, some 2, -1, -1, some (3, 4)⟩, ⟨1, some 1, some 6, -1, -1, none⟩]
    ⟨5, some 1, some 2, -1, -1, some (3, 4)⟩ (3, 4) (by simp) rfl (by decide)
  revert this; decide

/-- Non-vacuity: ties and a decrease; the first of the two offers at distance 3 is kept. -/
example : (let f := ([⟨7, some 1, some 2, 0, 0, some (10, 11)⟩, ⟨3, some 3, some 4, 5, 6, some (12, 13)⟩,
      ⟨3, some 5, some 6, 7, 8, some (14, 15)⟩] : List (Offer ℤ ℕ ℕ)).foldl update (init 100 (0, 0))
    (f.minDist, f.o1, f.o2, f.b1, f.b2, f.nearest)) = (3, some 3, some 4, 5, 6, (12, 13)) := by decide

end C27

section C28
variable {C K : Type*} [LinearOrder K]
open CollResult

/-- Specification: what the order on cost sources looks at. Two sources with the same rank are the same
source for the result. -/
def CostSource.rank (c : CostSource K) : K × K × V3 K := (c.total, c.density, c.box.lo)

/-- Specification: the sources offered since the last `clear()`. -/
def offeredCosts : List (ROp C K) → List (CostSource K)
  | [] => []
  | .cost c _ :: ops => if ops.any (fun | .clear => true | _ => false) then offeredCosts ops
      else c :: offeredCosts ops
  | _ :: ops => offeredCosts ops

/-- Specification: the contacts added since the last `clear()`. -/
def addedContacts : List (ROp C K) → List C
  | [] => []
  | .contact c :: ops => if ops.any (fun | .clear => true | _ => false) then addedContacts ops
      else c :: addedContacts ops
  | _ :: ops => addedContacts ops

namespace CostSource

/-- Lexicographic order of the ranks. -/
def Before (a b : CostSource K) : Prop :=
  b.total < a.total ∨ b.total = a.total ∧ (b.density < a.density ∨ b.density = a.density ∧
    (a.box.lo.x < b.box.lo.x ∨ a.box.lo.x = b.box.lo.x ∧ (a.box.lo.y < b.box.lo.y ∨
      a.box.lo.y = b.box.lo.y ∧ a.box.lo.z < b.box.lo.z)))

theorem lt_iff (a b : CostSource K) : lt a b = true ↔ Before a b := by
  unfold lt Before
  rcases lt_trichotomy a.total b.total with h | h | h
  · simp [h, not_lt_of_gt h, h.ne']
  · rcases lt_trichotomy a.density b.density with h' | h' | h'
    · simp [h, h', not_lt_of_gt h', h'.ne']
    · by_cases hx : a.box.lo.x = b.box.lo.x
      · by_cases hy : a.box.lo.y = b.box.lo.y
        · by_cases hz : a.box.lo.z = b.box.lo.z
          · simp [h, h', hx, hy, hz]
          · simp [h, h', hx, hy, hz]
        · simp [h, h', hx, hy]
      · simp [h, h', hx]
    · simp [h, h', not_lt_of_gt h']
  · simp [h, not_lt_of_gt h]

theorem Before.trans {a b c : CostSource K} (h : Before a b) (h' : Before b c) : Before a c := by
  unfold Before at *
  rcases h with h | ⟨e, h⟩
  · rcases h' with h' | ⟨e', h'⟩
    · exact Or.inl (h'.trans h)
    · exact Or.inl (e'.symm ▸ h)
  rcases h' with h' | ⟨e', h'⟩
  · exact Or.inl (e ▸ h')
  refine Or.inr ⟨e'.trans e, ?_⟩
  rcases h with h | ⟨d, h⟩
  · rcases h' with h' | ⟨d', h'⟩
    · exact Or.inl (h'.trans h)
    · exact Or.inl (d'.symm ▸ h)
  rcases h' with h' | ⟨d', h'⟩
  · exact Or.inl (d ▸ h')
  refine Or.inr ⟨d'.trans d, ?_⟩
  rcases h with h | ⟨x, h⟩
  · rcases h' with h' | ⟨x', h'⟩
    · exact Or.inl (h.trans h')
    · exact Or.inl (x' ▸ h)
  rcases h' with h' | ⟨x', h'⟩
  · exact Or.inl (x.symm ▸ h')
  refine Or.inr ⟨x.trans x', ?_⟩
  rcases h with h | ⟨y, h⟩
  · rcases h' with h' | ⟨y', h'⟩
    · exact Or.inl (h.trans h')
    · exact Or.inl (y' ▸ h)
  rcases h' with h' | ⟨y', h'⟩
  · exact Or.inl (y.symm ▸ h')
  exact Or.inr ⟨y.trans y', h.trans h'⟩

theorem Before.ne {a b : CostSource K} (h : Before a b) : a.rank ≠ b.rank := by
  intro e
  unfold rank at e
  simp only [Prod.mk.injEq] at e
  obtain ⟨e1, e2, e3⟩ := e
  unfold Before at h
  simp [e1, e2, e3] at h

theorem trichotomy (a b : CostSource K) : Before a b ∨ a.rank = b.rank ∨ Before b a := by
  have hr : a.rank = b.rank ↔ a.total = b.total ∧ a.density = b.density ∧ a.box.lo.x = b.box.lo.x ∧
      a.box.lo.y = b.box.lo.y ∧ a.box.lo.z = b.box.lo.z := by
    unfold rank
    rcases a with ⟨⟨⟨x, y, z⟩, h⟩, d, t⟩
    rcases b with ⟨⟨⟨x', y', z'⟩, h'⟩, d', t'⟩
    simp
  rw [hr]
  unfold Before
  rcases lt_trichotomy a.total b.total with h | h | h
  · exact Or.inr (Or.inr (Or.inl h))
  · rcases lt_trichotomy a.density b.density with h' | h' | h'
    · exact Or.inr (Or.inr (Or.inr ⟨h, Or.inl h'⟩))
    · rcases lt_trichotomy a.box.lo.x b.box.lo.x with hx | hx | hx
      · exact Or.inl (Or.inr ⟨h.symm, Or.inr ⟨h'.symm, Or.inl hx⟩⟩)
      · rcases lt_trichotomy a.box.lo.y b.box.lo.y with hy | hy | hy
        · exact Or.inl (Or.inr ⟨h.symm, Or.inr ⟨h'.symm, Or.inr ⟨hx, Or.inl hy⟩⟩⟩)
        · rcases lt_trichotomy a.box.lo.z b.box.lo.z with hz | hz | hz
          · exact Or.inl (Or.inr ⟨h.symm, Or.inr ⟨h'.symm, Or.inr ⟨hx, Or.inr ⟨hy, hz⟩⟩⟩⟩)
          · exact Or.inr (Or.inl ⟨h, h', hx, hy, hz⟩)
          · exact Or.inr (Or.inr (Or.inr ⟨h, Or.inr ⟨h', Or.inr ⟨hx.symm, Or.inr ⟨hy.symm, hz⟩⟩⟩⟩))
        · exact Or.inr (Or.inr (Or.inr ⟨h, Or.inr ⟨h', Or.inr ⟨hx.symm, Or.inl hy⟩⟩⟩))
      · exact Or.inr (Or.inr (Or.inr ⟨h, Or.inr ⟨h', Or.inl hx⟩⟩))
    · exact Or.inl (Or.inr ⟨h.symm, Or.inl h'⟩)
  · exact Or.inl (Or.inl h)

theorem Before.total_le {a b : CostSource K} (h : Before a b) : b.total ≤ a.total := by
  rcases h with h | ⟨h, -⟩
  · exact h.le
  · exact h.le

end CostSource

/-! `std::set` -/
section set
variable {α : Type*}

theorem take_setInsert_take (lt : α → α → Bool) (c : α) (l : List α) (k : ℕ) :
    (setInsert lt c (l.take k)).take k = (setInsert lt c l).take k := by
  induction l generalizing k with
  | nil => simp
  | cons a l ih =>
    cases k with
    | zero => simp
    | succ k =>
      rw [List.take_succ_cons, setInsert, setInsert]
      split
      · cases k with
        | zero => simp
        | succ k => simp [List.take_take]
      · split
        · simp [ih]
        · simp [List.take_take]

theorem eraseDown_eq (k : ℕ) (l : List α) : eraseDown k l = l.take k := by
  have : ∀ n (l : List α), List.dropLast^[n] l = l.take (l.length - n) := by
    intro n
    induction n with
    | zero => simp
    | succ n ih =>
      intro l
      rw [Function.iterate_succ_apply, ih, List.length_dropLast, List.dropLast_eq_take, List.take_take]
      congr 1
      omega
  unfold eraseDown
  rw [this]
  rcases Nat.le_total l.length k with h | h
  · rw [List.take_of_length_le (by omega), List.take_of_length_le h]
  · congr 1; omega

end set

namespace CostSource

theorem mem_setInsert {c x : CostSource K} {l : List (CostSource K)} (h : x ∈ setInsert lt c l) :
    x = c ∨ x ∈ l := by
  induction l with
  | nil => exact Or.inl (List.mem_singleton.1 h)
  | cons a l ih =>
    rw [setInsert] at h
    split at h
    · exact List.mem_cons.1 h
    · split at h
      · rcases List.mem_cons.1 h with h | h
        · exact Or.inr (h ▸ List.mem_cons_self ..)
        · exact (ih h).imp_right (List.mem_cons_of_mem _)
      · exact Or.inr h

theorem mem_setInsert_of_mem {c x : CostSource K} {l : List (CostSource K)} (h : x ∈ l) :
    x ∈ setInsert lt c l := by
  induction l with
  | nil => exact absurd h (by simp)
  | cons a l ih =>
    rw [setInsert]
    split
    · exact List.mem_cons_of_mem _ h
    · split
      · rcases List.mem_cons.1 h with h | h
        · exact h ▸ List.mem_cons_self ..
        · exact List.mem_cons_of_mem _ (ih h)
      · exact h

theorem exists_rank_setInsert (c : CostSource K) (l : List (CostSource K)) :
    ∃ x ∈ setInsert lt c l, x.rank = c.rank := by
  induction l with
  | nil => exact ⟨c, by simp [setInsert], rfl⟩
  | cons a l ih =>
    rw [setInsert]
    split
    · exact ⟨c, List.mem_cons_self .., rfl⟩
    · rename_i h1
      split
      · obtain ⟨x, hx, e⟩ := ih
        exact ⟨x, List.mem_cons_of_mem _ hx, e⟩
      · rename_i h2
        refine ⟨a, List.mem_cons_self .., ?_⟩
        rw [lt_iff] at h1 h2
        rcases trichotomy a c with h | h | h
        · exact absurd h h2
        · exact h
        · exact absurd h h1

theorem pairwise_setInsert {c : CostSource K} {l : List (CostSource K)} (h : l.Pairwise Before) :
    (setInsert lt c l).Pairwise Before := by
  induction l with
  | nil => exact List.pairwise_singleton _ _
  | cons a l ih =>
    obtain ⟨h1, h2⟩ := List.pairwise_cons.1 h
    rw [setInsert]
    split
    · rename_i hc
      rw [lt_iff] at hc
      refine List.pairwise_cons.2 ⟨?_, h⟩
      intro x hx
      rcases List.mem_cons.1 hx with rfl | hx
      · exact hc
      · exact hc.trans (h1 x hx)
    · split
      · rename_i hc
        rw [lt_iff] at hc
        refine List.pairwise_cons.2 ⟨?_, ih h2⟩
        intro x hx
        rcases mem_setInsert hx with rfl | hx
        · exact hc
        · exact h1 x hx
      · exact h

end CostSource

open CostSource

theorem costs_take (k : ℕ) (cs l : List (CostSource K)) (r : CollResult C K) (hr : r.costs = l.take k) :
    (cs.foldl (fun r c => r.addCostSource c k) r).costs =
      (cs.foldl (fun l c => setInsert lt c l) l).take k := by
  induction cs generalizing r l with
  | nil => exact hr
  | cons c cs ih =>
    refine ih _ _ ?_
    show eraseDown k (setInsert lt c r.costs) = _
    rw [eraseDown_eq, hr, take_setInsert_take]

/-- The set of all offers without eviction. -/
theorem allOffers_spec (cs l : List (CostSource K)) (hl : l.Pairwise Before) :
    let F := cs.foldl (fun l c => setInsert lt c l) l
    F.Pairwise Before ∧ (∀ x ∈ F, x ∈ cs ∨ x ∈ l) ∧ (∀ x ∈ l, x ∈ F) ∧
      ∀ c ∈ cs, ∃ x ∈ F, x.rank = c.rank := by
  induction cs generalizing l with
  | nil => exact ⟨hl, fun x hx => Or.inr hx, fun x hx => hx, by simp⟩
  | cons c cs ih =>
    obtain ⟨i1, i2, i3, i4⟩ := ih _ (pairwise_setInsert (c := c) hl)
    refine ⟨i1, ?_, fun x hx => i3 x (mem_setInsert_of_mem hx), ?_⟩
    · intro x hx
      rcases i2 x hx with h | h
      · exact Or.inl (List.mem_cons_of_mem _ h)
      · rcases mem_setInsert h with rfl | h
        · exact Or.inl (List.mem_cons_self ..)
        · exact Or.inr h
    · intro x hx
      rcases List.mem_cons.1 hx with rfl | hx
      · obtain ⟨y, hy, e⟩ := exists_rank_setInsert x l
        exact ⟨y, i3 y hy, e⟩
      · exact i4 x hx

/-- The cost sources depend on the sources offered since the last `clear()` only. -/
theorem costs_run (k : ℕ) (ops : List (ROp C K)) (hk : ∀ c k', .cost c k' ∈ ops → k' = k)
    (r : CollResult C K) : (r.run ops).costs =
      ((offeredCosts ops).foldl (fun r c => r.addCostSource c k)
        (if ops.any (fun | .clear => true | _ => false) then (CollResult.empty : CollResult C K) else r)).costs := by
  have hcong : ∀ (cs : List (CostSource K)) (r r' : CollResult C K), r.costs = r'.costs →
      (cs.foldl (fun r c => r.addCostSource c k) r).costs =
        (cs.foldl (fun r c => r.addCostSource c k) r').costs := by
    intro cs
    induction cs with
    | nil => exact fun _ _ h => h
    | cons c cs ih => exact fun r r' h => ih _ _ (by simp [addCostSource, h])
  induction ops generalizing r with
  | nil => rfl
  | cons op ops ih =>
    have e : r.run (op :: ops) = (r.step op).run ops := rfl
    rw [e, ih (fun c k' h => hk c k' (List.mem_cons_of_mem _ h))]
    cases op with
    | contact c =>
      simp only [offeredCosts, List.any_cons, Bool.false_or]
      apply hcong
      split <;> rfl
    | cost c k' =>
      obtain rfl := hk c k' (List.mem_cons_self ..)
      simp only [offeredCosts, List.any_cons, Bool.false_or]
      split
      · rfl
      · rfl
    | clear =>
      simp only [offeredCosts, List.any_cons, Bool.true_or, if_true]
      split <;> rfl

/-- C28, what holds: after offering any sources with a fixed limit `k` (contacts and `clear()` calls in
between), the result holds only offered
sources, in order of decreasing cost and with pairwise different ranks, as many as `k` and the number of
different ranks offered allow; and a source whose rank is missing was evicted by a full set of sources
that cost at least as much. Missing from the full statement: "different" means different rank, see
`C28_same_rank_dropped`. -/
theorem C28_best_k_partial (k : ℕ) (ops : List (ROp C K)) (hk : ∀ c k', .cost c k' ∈ ops → k' = k) :
    let r := ((CollResult.empty : CollResult C K).run ops).costs
    let cs := offeredCosts ops
    (∀ x ∈ r, x ∈ cs) ∧ r.Pairwise (fun a b => b.total ≤ a.total ∧ a.rank ≠ b.rank) ∧
    r.length = min k (cs.map CostSource.rank).toFinset.card ∧
    ∀ c ∈ cs, (∃ x ∈ r, x.rank = c.rank) ∨ (r.length = k ∧ ∀ x ∈ r, c.total ≤ x.total) := by
  intro r cs
  have hr : r = (cs.foldl (fun l c => setInsert lt c l) []).take k := by
    have := costs_run k ops hk (CollResult.empty : CollResult C K)
    rw [ite_self] at this
    refine this.trans (costs_take k cs [] _ ?_)
    simp [CollResult.empty]
  obtain ⟨f1, f2, -, f4⟩ := allOffers_spec cs [] List.Pairwise.nil
  generalize hF : cs.foldl (fun l c => setInsert lt c l) [] = F at *
  have hlen : F.length = (cs.map CostSource.rank).toFinset.card := by
    have hn : (F.map CostSource.rank).Nodup := by
      rw [List.Nodup, List.pairwise_map]
      exact f1.imp fun h => h.ne
    rw [← List.length_map (f := CostSource.rank), ← List.toFinset_card_of_nodup hn]
    congr 1
    ext y
    simp only [List.mem_toFinset, List.mem_map]
    constructor
    · rintro ⟨x, hx, rfl⟩
      exact ⟨x, (f2 x hx).resolve_right (by simp), rfl⟩
    · rintro ⟨c, hc, rfl⟩
      obtain ⟨x, hx, e⟩ := f4 c hc
      exact ⟨x, hx, e⟩
  rw [hr]
  refine ⟨fun x hx => (f2 x (List.mem_of_mem_take hx)).resolve_right (by simp), ?_, ?_, ?_⟩
  · exact (f1.sublist (List.take_sublist k F)).imp fun h => ⟨h.total_le, h.ne⟩
  · rw [List.length_take, hlen]
  · intro c hc
    obtain ⟨x, hx, e⟩ := f4 c hc
    rw [← List.take_append_drop k F] at hx f1
    rcases List.mem_append.1 hx with hx | hx
    · exact Or.inl ⟨x, hx, e⟩
    · right
      have hk : k < F.length := by
        by_contra hk
        rw [List.drop_eq_nil_of_le (not_lt.1 hk)] at hx
        exact absurd hx (by simp)
      refine ⟨by rw [List.length_take]; omega, fun y hy => ?_⟩
      have := ((List.pairwise_append.1 f1).2.2 y hy x hx).total_le
      have e' : x.total = c.total := congrArg (·.1) e
      rwa [e'] at this

/-- Non-vacuity and sharpness: three sources, two kept; and the cheapest is the one evicted. -/
example : (((CollResult.empty : CollResult ℕ ℤ).run [.cost ⟨⟨⟨0, 0, 0⟩, ⟨1, 1, 1⟩⟩, 1, 1⟩ 2, .contact 7,
    .cost ⟨⟨⟨0, 0, 0⟩, ⟨3, 1, 1⟩⟩, 1, 3⟩ 2, .cost ⟨⟨⟨0, 0, 0⟩, ⟨2, 1, 1⟩⟩, 1, 2⟩ 2]).costs.map (·.total)) =
    [3, 2] := by decide

/-- Missing from the full statement: two different regions of the same total cost, density and lower
corner count as one, so one of them is lost although there is room. -/
theorem C28_same_rank_dropped :
    ¬ ∀ (k : ℕ) (cs : List (CostSource ℤ)), cs.length ≤ k → (cs.map (fun c => (c.box, c.density))).Nodup →
      ∀ c ∈ cs, ∃ x ∈ ((CollResult.empty : CollResult ℕ ℤ).run (cs.map (fun c => .cost c k))).costs,
        x.box = c.box := by
  intro h
  have := h 2 [CostSource.ofBox ⟨⟨0, 0, 0⟩, ⟨1, 2, 1⟩⟩ 1, CostSource.ofBox ⟨⟨0, 0, 0⟩, ⟨2, 1, 1⟩⟩ 1]
    (by decide) (by decide) (CostSource.ofBox ⟨⟨0, 0, 0⟩, ⟨2, 1, 1⟩⟩ 1) (by simp)
  revert this
  decide

/-- C28: `numContacts`, `isCollision` and `getContact` reflect exactly the contacts added since the last
`clear()`, whatever else was called. -/
theorem C28_contacts (ops : List (ROp C K)) :
    let r := (CollResult.empty : CollResult C K).run ops
    r.numContacts = (addedContacts ops).length ∧ (r.isCollision = true ↔ addedContacts ops ≠ []) ∧
    (∀ i, i < r.numContacts → r.getContact i = (addedContacts ops)[i]?) ∧
    (∀ i, r.numContacts ≤ i → r.getContact i = (addedContacts ops).getLast?) := by
  have key : ∀ (ops : List (ROp C K)) (r : CollResult C K), (r.run ops).contacts =
      (if ops.any (fun | .clear => true | _ => false) then [] else r.contacts) ++ addedContacts ops := by
    intro ops
    induction ops with
    | nil => intro r; simp [CollResult.run, addedContacts]
    | cons op ops ih =>
      intro r
      have e : r.run (op :: ops) = (r.step op).run ops := rfl
      rw [e, ih]
      cases op with
      | contact c =>
        simp only [step, addContact, addedContacts, List.any_cons, Bool.false_or]
        split <;> simp
      | cost c k => simp [step, addCostSource, addedContacts]
      | clear =>
        simp only [step, CollResult.clear, addedContacts, List.any_cons, Bool.true_or, if_true]
        split <;> rfl
  intro r
  have hc : r.contacts = addedContacts ops := by
    rw [key]; simp [CollResult.empty]
  unfold numContacts isCollision getContact
  rw [hc]
  refine ⟨rfl, ?_, fun i hi => if_pos hi, fun i hi => if_neg (not_lt.2 hi)⟩
  rw [decide_eq_true_iff, gt_iff_lt, List.length_pos_iff]

/-- Non-vacuity: a history with a `clear()` in the middle. -/
example : addedContacts [.contact 1, .clear, .contact 2, .cost ⟨⟨⟨0, 0, 0⟩, ⟨1, 1, 1⟩⟩, 1, 1⟩ 4,
    (.contact 3 : ROp ℕ ℤ)] = [2, 3] := rfl

/-- C28, `clear()`: the cost sources after a `clear()` are those of a fresh result. -/
theorem C28_clear (ops ops' : List (ROp C K)) (r : CollResult C K) :
    r.run (ops ++ .clear :: ops') = (CollResult.empty : CollResult C K).run ops' := by
  unfold CollResult.run
  rw [List.foldl_append]
  rfl

end C28

end Fcl
