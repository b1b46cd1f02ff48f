import Verif.Props.Traversal
import Verif.Traversal.DistLemmas
import Mathlib.Algebra.Order.Field.Rat

/-! # C35, C60: distance traversals of bounding volume hierarchies -/

namespace Fcl
set_option linter.unusedSectionVars false
variable {K V P W Q : Type*} [Field K] [LinearOrder K] [IsStrictOrderedRing K]
variable {bvDist leafDist : BT V P → BT W Q → K} {absErr relErr : K}
variable {T : Trav (BT V P) (BT W Q)} {C : BT V P → BT W Q → Prop}

/-- A bound on the length of a traversal. -/
def enough (a : BT V P) (b : BT W Q) : ℕ := a.depth + b.depth + 2 * (leafPairs a b).length

theorem distanceNode_walked (hrel : 0 ≤ 1 + relErr) (hT : T.Follows C) {pick : Pick K (BT V P) (BT W Q)}
    (hpick : LawfulPick pick) (qsize : ℤ) {a : BT V P} {b : BT W Q} (hC : C a b)
    (hB : LowerBounds bvDist leafDist a b) {fuel : ℕ} (hf : enough a b < fuel)
    (s : BestPair K (BT V P) (BT W Q)) (F : Front (BT V P) (BT W Q)) :
    ∃ s' F', distanceNode (meshDistNode bvDist leafDist absErr relErr) T pick qsize fuel a b (s, F) = some (s', F') ∧
      Walked leafDist absErr relErr (leafPairs a b) s s' := by
  simp only [enough] at hf
  by_cases hq : qsize ≤ 2
  · obtain ⟨s', L, e, w, _⟩ := distanceRecurse_ok (absErr := absErr) hrel hT fuel hC hB (by omega) (s, F)
    exact ⟨s', _, by rw [distanceNode, if_pos hq]; exact e, w⟩
  · obtain ⟨s', F', e, w⟩ := distanceQueueLoop_ok (absErr := absErr) (qsize := qsize.toNat) hrel hT hpick (by omega) hC
      hB fuel a b [] ⟨.refl a, .refl b⟩ (by simp) (by simp only [steps, stepsQ, List.map_nil, List.sum_nil]; omega) s F
    exact ⟨s', F', by rw [distanceNode, if_neg hq]; exact e, by simpa [queued] using w⟩

/-- **C35.** For every pair of trees whose volume distances are lower bounds, for both versions of the traversal,
every size of the queue and every choice among equal elements of the queue: the traversal ends; the distance reported
is the one known before or the distance of the pair of leaves that is reported, which is smaller; and for every pair
of leaves it is at most the distance of the pair plus `abs_err` and at most that distance times `1 + rel_err`. -/
theorem C35_distance (habs : 0 ≤ absErr) (hrel : 0 ≤ relErr) (hT : T.Follows C)
    {pick : Pick K (BT V P) (BT W Q)} (hpick : LawfulPick pick) (qsize : ℤ) {a : BT V P} {b : BT W Q} (hC : C a b)
    (hB : LowerBounds bvDist leafDist a b) (hpos : ∀ p ∈ leafPairs a b, 0 ≤ leafDist p.1 p.2) {fuel : ℕ}
    (hf : enough a b < fuel) (s : BestPair K (BT V P) (BT W Q)) (F : Front (BT V P) (BT W Q)) :
    ∃ s' F', distanceNode (meshDistNode bvDist leafDist absErr relErr) T pick qsize fuel a b (s, F) = some (s', F') ∧
      (s' = s ∨ ∃ p ∈ leafPairs a b, s' = ⟨leafDist p.1 p.2, some p⟩ ∧ s'.minDistance < s.minDistance) ∧
      ∀ p ∈ leafPairs a b, s'.minDistance ≤ leafDist p.1 p.2 + absErr ∧
        s'.minDistance ≤ leafDist p.1 p.2 * (1 + relErr) := by
  obtain ⟨s', F', e, w⟩ := distanceNode_walked (absErr := absErr) (relErr := relErr) (by linarith) hT hpick qsize hC
    hB hf s F
  refine ⟨s', F', e, w.found, fun p hp => ?_⟩
  rcases w.near p hp with h | h
  · have := mul_nonneg (hpos p hp) hrel
    exact ⟨by linarith, by linarith⟩
  · exact h

/-- **C35.** Without error bounds the smallest distance over all pairs of leaves is reported, with a pair of leaves
at that distance, unless the distance known before was already as small. -/
theorem C35_exact (hT : T.Follows C) {pick : Pick K (BT V P) (BT W Q)} (hpick : LawfulPick pick) (qsize : ℤ)
    {a : BT V P} {b : BT W Q} (hC : C a b) (hB : LowerBounds bvDist leafDist a b) {fuel : ℕ} (hf : enough a b < fuel)
    (s : BestPair K (BT V P) (BT W Q)) (F : Front (BT V P) (BT W Q)) :
    ∃ s' F', distanceNode (meshDistNode bvDist leafDist 0 0) T pick qsize fuel a b (s, F) = some (s', F') ∧
      (∀ p ∈ leafPairs a b, s'.minDistance ≤ leafDist p.1 p.2) ∧
      ((∀ p ∈ leafPairs a b, s.minDistance ≤ leafDist p.1 p.2) → s' = s) ∧
      ((∃ p ∈ leafPairs a b, leafDist p.1 p.2 < s.minDistance) →
        ∃ p ∈ leafPairs a b, s' = ⟨leafDist p.1 p.2, some p⟩) := by
  obtain ⟨s', F', e, w⟩ := distanceNode_walked (absErr := (0 : K)) (relErr := 0) (by simp) hT hpick qsize hC hB hf s F
  have hle : ∀ p ∈ leafPairs a b, s'.minDistance ≤ leafDist p.1 p.2 := fun p hp => by
    rcases w.near p hp with h | h
    · exact h
    · simpa using h.1
  refine ⟨s', F', e, hle, fun h => ?_, fun ⟨p, hp, h⟩ => ?_⟩
  · rcases w.found with h' | ⟨q, hq, h1, h2⟩
    · exact h'
    · rw [h1] at h2
      exact absurd h2 (not_lt.2 (h q hq))
  · rcases w.found with h' | ⟨q, hq, h1, _⟩
    · rw [h'] at hle
      exact absurd h (not_lt.2 (hle p hp))
    · exact ⟨q, hq, h1⟩

/-- **C36.** `distanceRecurse` adds a front of the two trees to the front list. -/
theorem C36_distanceRecurse (hrel : 0 ≤ 1 + relErr) (hT : T.Follows C) {a : BT V P} {b : BT W Q} (hC : C a b)
    (hB : LowerBounds bvDist leafDist a b) {fuel : ℕ} (hf : a.depth + b.depth < fuel)
    (s : BestPair K (BT V P) (BT W Q)) (F : List (BT V P × BT W Q)) :
    ∃ s' L, distanceRecurse (meshDistNode bvDist leafDist absErr relErr) T fuel a b (s, some F) =
      some (s', some (F ++ L)) ∧ IsFront a b L := by
  obtain ⟨s', L, e, _, h⟩ := distanceRecurse_ok (absErr := absErr) hrel hT fuel hC hB hf (s, some F)
  exact ⟨s', L, e, h⟩

/-! ### C60: a shape and a mesh, in this order -/

/-- **C60.** With a shape as the first object and a mesh with more than one triangle as the second, the distance
traversal does not end, whatever the distances are, unless the stopping rule already holds for the root: no number of
steps is enough. -/
theorem C60_shape_mesh_diverges {σ : Type*} (N : DistNode σ K (BT V P) (BT W Q)) (a : BT V P) {bv : W} {l r : BT W Q}
    (s : σ) (F : Front (BT V P) (BT W Q)) (h : N.canStop s (N.bvDist a (.node bv l r)) = false) (fuel : ℕ) :
    distanceRecurse N Trav.shapeBvhDistance fuel a (.node bv l r) (s, F) = none := by
  induction fuel with
  | zero => rfl
  | succ fuel ih =>
    simp only [distanceRecurse, Trav.shapeBvhDistance, BT.isLeaf, Bool.and_false, Bool.false_eq_true, if_false, if_true]
    simp only [Trav.shapeBvhDistance] at ih
    simp only [h, lt_self_iff_false, if_false, Bool.not_false, if_true, ih]

/-- **C60.** For meshes whose distance is not yet known the stopping rule does not hold: the traversal does not end. -/
theorem C60_conservative_advancement_diverges (a : BT V P) {bv : W} {l r : BT W Q} (m : K) (pr : Option (BT V P × BT W Q))
    (F : Front (BT V P) (BT W Q)) (h : bvDist a (.node bv l r) + absErr < m) (fuel : ℕ) :
    distanceRecurse (meshDistNode bvDist leafDist absErr relErr) Trav.shapeBvhDistance fuel a (.node bv l r) (⟨m, pr⟩, F) =
      none := by
  refine C60_shape_mesh_diverges _ a _ F ?_ fuel
  simp only [meshDistNode]
  rw [if_neg]
  intro h'
  linarith [h'.1]

/-- **C60, the part that holds.** With the mesh first and the shape second the traversal ends with the smallest
distance, for every mesh; with the shape first it does so for a mesh of one triangle. Missing: a shape and a mesh of
more triangles, in this order, where it is false (`C60_shape_mesh_diverges`). -/
theorem C60_order_partial {a : BT V P} {b : BT W Q} (hB : LowerBounds bvDist leafDist a b) {fuel : ℕ}
    (hf : a.depth + b.depth < fuel) (s : BestPair K (BT V P) (BT W Q)) :
    (b.isLeaf = true → ∃ s', distanceRecurse (meshDistNode bvDist leafDist 0 0) Trav.bvhShape fuel a b (s, none) =
      some (s', none) ∧ ∀ p ∈ leafPairs a b, s'.minDistance ≤ leafDist p.1 p.2) ∧
    (a.isLeaf = true → b.isLeaf = true →
      ∃ s', distanceRecurse (meshDistNode bvDist leafDist 0 0) Trav.shapeBvhDistance fuel a b (s, none) =
        some (s', none) ∧ s'.minDistance ≤ leafDist a b) := by
  constructor
  · intro hb
    obtain ⟨s', L, e, w, _⟩ := distanceRecurse_ok (absErr := (0 : K)) (relErr := 0) (by simp) follows_bvhShape fuel hb
      hB hf (s, none)
    refine ⟨s', e, fun p hp => ?_⟩
    rcases w.near p hp with h | h
    · exact h
    · simpa using h.1
  · intro ha hb
    cases fuel with
    | zero => omega
    | succ fuel =>
      refine ⟨(meshDistNode bvDist leafDist 0 0).leafTest s a b, by simp [distanceRecurse, Trav.shapeBvhDistance, hb, Front.push], ?_⟩
      simp only [meshDistNode]
      split
      · exact le_refl _
      · rename_i h; exact not_lt.1 h

/-! ### Examples -/

section examples

/-- The distance of two segments on a line. -/
def Seg.dist (x y : Seg) : ℚ := max 0 (max ((x.1 : ℚ) - y.2) (y.1 - x.2))
/-- The distance of the volumes of two nodes. -/
def exDist (a b : BT Seg ℕ) : ℚ := Seg.dist a.bv b.bv
/-- Two trees that are apart. -/
def exFar1 : BT Seg ℕ := .node (0, 9) (.node (0, 5) (.leaf (0, 2) 0) (.leaf (3, 5) 1)) (.leaf (8, 9) 2)
def exFar2 : BT Seg ℕ := .node (12, 30) (.leaf (20, 30) 10) (.leaf (12, 15) 11)
/-- Takes the first of the smallest elements. -/
def firstPick {A B : Type*} : Pick ℚ A B
  | [] => none
  | x :: q =>
    match firstPick q with
    | none => some (x, [])
    | some (y, rest) => if x.1 ≤ y.1 then some (x, y :: rest) else some (y, x :: rest)

theorem firstPick_lawful {A B : Type*} : LawfulPick (firstPick : Pick ℚ A B) where
  nil := rfl
  some q hq := by
    induction q with
    | nil => exact absurd rfl hq
    | cons x q ih =>
      by_cases hn : q = []
      · subst hn
        exact ⟨x, [], rfl, by simp, by simp⟩
      · obtain ⟨y, rest, e, hp, hm⟩ := ih hn
        by_cases h : x.1 ≤ y.1
        · refine ⟨x, y :: rest, by simp [firstPick, e, h], List.Perm.cons _ hp, ?_⟩
          intro z hz
          rcases List.mem_cons.1 hz with rfl | hz
          · exact h
          · exact h.trans (hm z hz)
        · refine ⟨y, x :: rest, by simp [firstPick, e, h], (List.Perm.swap _ _ _).trans (List.Perm.cons _ hp), ?_⟩
          intro z hz
          rcases List.mem_cons.1 hz with rfl | hz
          · exact le_of_not_ge h
          · exact hm z hz

/-- Both versions find the smallest distance, 3. -/
example : (distanceNode (meshDistNode exDist exDist 0 0) exWalk firstPick 2 40 exFar1 exFar2 (⟨1000, none⟩, none)).map
    (fun x => x.1.minDistance) = some 3 := by decide +kernel
example : (distanceNode (meshDistNode exDist exDist 0 0) exWalk firstPick 4 40 exFar1 exFar2 (⟨1000, none⟩, none)).map
    (fun x => x.1.minDistance) = some 3 := by decide +kernel
/-- With an error bound of 5 the first pair found, at distance 11, may be replaced or not. -/
example : (distanceNode (meshDistNode exDist exDist 5 2) exWalk firstPick 2 40 exFar1 exFar2 (⟨7, none⟩, none)).map
    (fun x => x.1.minDistance) = some 7 := by decide +kernel
example : enough exFar1 exFar2 < 40 := by decide +kernel
example : ∀ p ∈ leafPairs exFar1 exFar2, 0 ≤ exDist p.1 p.2 := by decide +kernel
example : LowerBounds exDist exDist exFar1 exFar2 := fun u v hu hv =>
  (show ∀ u ∈ exFar1.subtrees, ∀ v ∈ exFar2.subtrees, ∀ p ∈ leafPairs u v, exDist u v ≤ exDist p.1 p.2 by
    decide +kernel) u (mem_subtrees hu) v (mem_subtrees hv)

/-- A triangle and a mesh with two triangles, the distance not yet known: no result after a thousand steps. -/
example : distanceRecurse (meshDistNode exDist exDist 0 0) Trav.shapeBvhDistance 1000 (.leaf (0, 2) 0) exFar2
    (⟨1000, none⟩, none) = none :=
  C60_conservative_advancement_diverges _ _ _ _ (by decide +kernel) _

/-- **C36, negative.** The version with a queue leaves pairs of nodes out of the front list when it stops: here the
list stands for only three of the six pairs of leaves. -/
theorem C36_queue_front_incomplete :
    ((distanceNode (meshDistNode exDist exDist 0 0) exWalk firstPick 9 40 exFar1 exFar2 (⟨1000, none⟩, some [])).bind
      (·.2)).map (fun F => ((F.flatMap fun p => leafPairs p.1 p.2).length, (leafPairs exFar1 exFar2).length)) =
      some (3, 6) := by
  decide +kernel

end examples
end Fcl
