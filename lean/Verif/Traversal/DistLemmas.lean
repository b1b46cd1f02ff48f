import Verif.Traversal.FrontLemmas
import Mathlib.Algebra.Order.Field.Basic
import Mathlib.Algebra.BigOperators.Group.List.Basic

/-! # Lemmas on `distanceRecurse` and `distanceQueueRecurse` -/

namespace Fcl
set_option linter.unusedSectionVars false
variable {K V P W Q : Type*} [Field K] [LinearOrder K] [IsStrictOrderedRing K]

/-- The value `m` is good enough for a pair of leaves at distance `d`. -/
def Near (absErr relErr m d : K) : Prop := m ≤ d ∨ (m ≤ d + absErr ∧ m ≤ d * (1 + relErr))

theorem Near.anti {absErr relErr m m' d : K} (h : Near absErr relErr m d) (hm : m' ≤ m) : Near absErr relErr m' d :=
  h.imp hm.trans fun h => ⟨hm.trans h.1, hm.trans h.2⟩

/-- What a walk over the pairs of leaves `L` does to the result. -/
structure Walked (leafDist : BT V P → BT W Q → K) (absErr relErr : K) (L : List (BT V P × BT W Q))
    (s s' : BestPair K (BT V P) (BT W Q)) : Prop where
  found : s' = s ∨ ∃ p ∈ L, s' = ⟨leafDist p.1 p.2, some p⟩ ∧ s'.minDistance < s.minDistance
  near : ∀ p ∈ L, Near absErr relErr s'.minDistance (leafDist p.1 p.2)

variable {leafDist bvDist : BT V P → BT W Q → K} {absErr relErr : K} {s s' s'' : BestPair K (BT V P) (BT W Q)}
  {L M : List (BT V P × BT W Q)}

theorem Walked.le (h : Walked leafDist absErr relErr L s s') : s'.minDistance ≤ s.minDistance := by
  rcases h.found with rfl | ⟨p, _, _, h⟩
  · exact le_refl _
  · exact le_of_lt h

theorem Walked.append (h : Walked leafDist absErr relErr L s s') (g : Walked leafDist absErr relErr M s' s'') :
    Walked leafDist absErr relErr (L ++ M) s s'' where
  found := by
    rcases g.found with rfl | ⟨p, hp, e, hlt⟩
    · rcases h.found with rfl | ⟨p, hp, e, hlt⟩
      · exact Or.inl rfl
      · exact Or.inr ⟨p, List.mem_append_left _ hp, e, hlt⟩
    · exact Or.inr ⟨p, List.mem_append_right _ hp, e, lt_of_lt_of_le hlt h.le⟩
  near p hp := by
    rcases List.mem_append.1 hp with hp | hp
    · exact (h.near p hp).anti g.le
    · exact g.near p hp

theorem Walked.perm (h : Walked leafDist absErr relErr L s s') (e : L.Perm M) :
    Walked leafDist absErr relErr M s s' where
  found := h.found.imp id fun ⟨p, hp, g⟩ => ⟨p, (e.mem_iff).1 hp, g⟩
  near p hp := h.near p ((e.mem_iff).2 hp)

theorem Walked.nil : Walked leafDist absErr relErr [] s s := ⟨Or.inl rfl, by simp⟩

theorem Walked.leaf (a : BT V P) (b : BT W Q) : Walked leafDist absErr relErr [(a, b)] s
    ((meshDistNode bvDist leafDist absErr relErr).leafTest s a b) := by
  simp only [meshDistNode]
  split
  · rename_i h
    exact ⟨Or.inr ⟨(a, b), by simp, rfl, h⟩, by simp [Near]⟩
  · rename_i h
    exact ⟨Or.inl rfl, by simpa [Near] using Or.inl (not_lt.1 h)⟩

/-- Leaving out pairs of leaves that are all at least `c` away. -/
theorem Walked.stop {c : K} (hrel : 0 ≤ 1 + relErr) (hc : (meshDistNode bvDist leafDist absErr relErr).canStop s c)
    (hL : ∀ p ∈ L, c ≤ leafDist p.1 p.2) : Walked leafDist absErr relErr L s s := by
  refine ⟨Or.inl rfl, fun p hp => Or.inr ?_⟩
  simp only [meshDistNode] at hc
  split at hc
  · rename_i h
    have h1 := hL p hp
    have h2 := mul_le_mul_of_nonneg_right h1 hrel
    exact ⟨by linarith [h.1], by linarith [h.2]⟩
  · simp at hc

variable {T : Trav (BT V P) (BT W Q)} {C : BT V P → BT W Q → Prop}

theorem LowerBounds.mono {a u : BT V P} {b v : BT W Q} (h : LowerBounds bvDist leafDist a b) (hu : BT.Below u a)
    (hv : BT.Below v b) : LowerBounds bvDist leafDist u v :=
  fun x y hx hy => h x y (hx.trans hu) (hy.trans hv)

theorem LowerBounds.here {a : BT V P} {b : BT W Q} (h : LowerBounds bvDist leafDist a b) :
    ∀ p ∈ leafPairs a b, bvDist a b ≤ leafDist p.1 p.2 := h a b (.refl a) (.refl b)

theorem meshDistNode_bvDist : (meshDistNode bvDist leafDist absErr relErr).bvDist = bvDist := rfl

/-- The children of a pair of nodes. -/
theorem children (hT : T.Follows C) {a : BT V P} {b : BT W Q} (hC : C a b) (hl : (a.isLeaf && b.isLeaf) = false) :
    ∃ x y : BT V P × BT W Q,
      (if T.fos a b then ((T.left1 a, b), (T.right1 a, b)) else ((a, T.left2 b), (a, T.right2 b))) = (x, y) ∧
      (leafPairs x.1 x.2 ++ leafPairs y.1 y.2).Perm (leafPairs a b) ∧
      (BT.Below x.1 a ∧ BT.Below x.2 b) ∧ (BT.Below y.1 a ∧ BT.Below y.2 b) ∧
      x.1.depth + x.2.depth < a.depth + b.depth ∧ y.1.depth + y.2.depth < a.depth + b.depth := by
  by_cases hfos : T.fos a b = true
  · obtain ⟨bv, l, r, rfl, hleft, hright, hcl, hcr⟩ := hT.first hC hl hfos
    refine ⟨(l, b), (r, b), by rw [if_pos hfos, hleft, hright], by rw [leafPairs_first], ⟨.left (.refl _), .refl _⟩,
      ⟨.right (.refl _), .refl _⟩, ?_, ?_⟩ <;> simp only [BT.depth] <;> omega
  · have hfos' := hfos
    rw [Bool.not_eq_true] at hfos'
    obtain ⟨bv, l, r, rfl, hleft, hright, hcl, hcr⟩ := hT.second hC hl hfos'
    refine ⟨(a, l), (a, r), by rw [if_neg hfos, hleft, hright], (leafPairs_second ..).symm,
      ⟨.refl _, .left (.refl _)⟩, ⟨.refl _, .right (.refl _)⟩, ?_, ?_⟩ <;> simp only [BT.depth] <;> omega

/-- What a call does to the result and to the front list. -/
def DistOK (leafDist : BT V P → BT W Q → K) (absErr relErr : K) (a : BT V P) (b : BT W Q)
    (x : BestPair K (BT V P) (BT W Q) × Front (BT V P) (BT W Q))
    (y : Option (BestPair K (BT V P) (BT W Q) × Front (BT V P) (BT W Q))) : Prop :=
  ∃ s' L, y = some (s', x.2.map (· ++ L)) ∧ Walked leafDist absErr relErr (leafPairs a b) x.1 s' ∧ IsFront a b L

theorem IsFront.single (a : BT V P) (b : BT W Q) : IsFront a b [(a, b)] :=
  ⟨by simp [BT.Below.refl], by simp⟩

theorem distanceRecurse_ok (hrel : 0 ≤ 1 + relErr) (hT : T.Follows C) (fuel : ℕ) {a : BT V P} {b : BT W Q}
    (hC : C a b) (hB : LowerBounds bvDist leafDist a b) (hf : a.depth + b.depth < fuel)
    (x : BestPair K (BT V P) (BT W Q) × Front (BT V P) (BT W Q)) :
    DistOK leafDist absErr relErr a b x
      (distanceRecurse (meshDistNode bvDist leafDist absErr relErr) T fuel a b x) := by
  induction fuel generalizing a b x with
  | zero => omega
  | succ fuel ih =>
    obtain ⟨s, F⟩ := x
    have e1 := hT.leaf1 hC
    have e2 := hT.leaf2 hC
    by_cases hl : (a.isLeaf && b.isLeaf) = true
    · simp only [distanceRecurse, e1, e2, hl, if_true]
      rw [Bool.and_eq_true] at hl
      refine ⟨_, [(a, b)], rfl, ?_, .single a b⟩
      rw [leafPairs_leaf hl.1 hl.2]
      exact .leaf a b
    · rw [Bool.not_eq_true] at hl
      obtain ⟨p, q, hpq, hcov, hp, hq, hdp, hdq⟩ := children hT hC hl
      have visit : ∀ (r : BT V P × BT W Q) (x : BestPair K (BT V P) (BT W Q) × Front (BT V P) (BT W Q)),
          BT.Below r.1 a ∧ BT.Below r.2 b → r.1.depth + r.2.depth < a.depth + b.depth →
          DistOK leafDist absErr relErr r.1 r.2 x
            (if !(meshDistNode bvDist leafDist absErr relErr).canStop x.1 (bvDist r.1 r.2) then
              distanceRecurse (meshDistNode bvDist leafDist absErr relErr) T fuel r.1 r.2 x
            else some (x.1, x.2.push r.1 r.2)) := by
        intro r x hr hd
        split
        · exact ih (hT.below hC hr.1 hr.2) (hB.mono hr.1 hr.2) (by omega) x
        · rename_i h
          simp only [Bool.not_eq_true, Bool.not_eq_eq_eq_not, Bool.not_true, Bool.not_eq_false] at h
          refine ⟨x.1, [r], rfl, .stop hrel h (hB.mono hr.1 hr.2).here, .single _ _⟩
      have both : ∀ (r t : BT V P × BT W Q), BT.Below r.1 a ∧ BT.Below r.2 b → BT.Below t.1 a ∧ BT.Below t.2 b →
          r.1.depth + r.2.depth < a.depth + b.depth → t.1.depth + t.2.depth < a.depth + b.depth →
          (leafPairs r.1 r.2 ++ leafPairs t.1 t.2).Perm (leafPairs a b) →
          ∃ x, (if !(meshDistNode bvDist leafDist absErr relErr).canStop s (bvDist r.1 r.2) then
                distanceRecurse (meshDistNode bvDist leafDist absErr relErr) T fuel r.1 r.2 (s, F)
              else some (s, F.push r.1 r.2)) = some x ∧
            DistOK leafDist absErr relErr a b (s, F)
              (if !(meshDistNode bvDist leafDist absErr relErr).canStop x.1 (bvDist t.1 t.2) then
                distanceRecurse (meshDistNode bvDist leafDist absErr relErr) T fuel t.1 t.2 x
              else some (x.1, x.2.push t.1 t.2)) := by
        intro r t hr ht hdr hdt hc
        obtain ⟨s1, L, y1, w1, f1⟩ := visit r (s, F) hr hdr
        obtain ⟨s2, M, y2, w2, f2⟩ := visit t (s1, F.map (· ++ L)) ht hdt
        refine ⟨(s1, F.map (· ++ L)), y1, s2, L ++ M, ?_, (w1.append w2).perm hc, ?_, ?_⟩
        · rw [y2]
          cases F <;> simp
        · intro z hz
          rcases List.mem_append.1 hz with hz | hz
          · exact ⟨(f1.1 z hz).1.trans hr.1, (f1.1 z hz).2.trans hr.2⟩
          · exact ⟨(f2.1 z hz).1.trans ht.1, (f2.1 z hz).2.trans ht.2⟩
        · rw [List.flatMap_append]
          exact (f1.2.append f2.2).trans hc
      simp only [distanceRecurse, e1, e2, hl, Bool.false_eq_true, if_false, hpq, meshDistNode_bvDist]
      split
      · obtain ⟨x, e, h⟩ := both q p hq hp hdq hdp (List.perm_append_comm.trans hcov)
        simp only [e]
        exact h
      · obtain ⟨x, e, h⟩ := both p q hp hq hdp hdq hcov
        simp only [e]
        exact h

/-- The number of steps the queue version takes for a pair of nodes. -/
def steps (a : BT V P) (b : BT W Q) : ℕ := 2 * (leafPairs a b).length - 1

/-- The number of steps it takes for the pairs in the queue. -/
def stepsQ (q : List (K × BT V P × BT W Q)) : ℕ := (q.map fun e => steps e.2.1 e.2.2).sum

theorem steps_pos (a : BT V P) (b : BT W Q) : 0 < steps a b := by
  have := leafPairs_length a b
  simp only [steps]; omega

theorem length_le_stepsQ (q : List (K × BT V P × BT W Q)) : q.length ≤ stepsQ q := by
  induction q with
  | nil => simp
  | cons e q ih =>
    have := steps_pos e.2.1 e.2.2
    simp only [stepsQ, List.map_cons, List.sum_cons, List.length_cons] at ih ⊢
    omega

theorem stepsQ_perm {q q' : List (K × BT V P × BT W Q)} (h : q.Perm q') : stepsQ q = stepsQ q' :=
  List.Perm.sum_eq (h.map _)

/-- The pairs of leaves below the pairs in the queue. -/
def queued (q : List (K × BT V P × BT W Q)) : List (BT V P × BT W Q) := q.flatMap fun e => leafPairs e.2.1 e.2.2

theorem distanceQueueLoop_ok (hrel : 0 ≤ 1 + relErr) (hT : T.Follows C) {pick : Pick K (BT V P) (BT W Q)}
    (hpick : LawfulPick pick) {qsize : ℕ} (hq2 : 2 < qsize) {a₀ : BT V P} {b₀ : BT W Q} (hC : C a₀ b₀)
    (hB : LowerBounds bvDist leafDist a₀ b₀) (fuel : ℕ) (a : BT V P) (b : BT W Q) (q : List (K × BT V P × BT W Q))
    (hab : BT.Below a a₀ ∧ BT.Below b b₀)
    (hq : ∀ e ∈ q, e.1 = bvDist e.2.1 e.2.2 ∧ BT.Below e.2.1 a₀ ∧ BT.Below e.2.2 b₀)
    (hf : steps a b + stepsQ q ≤ fuel) (s : BestPair K (BT V P) (BT W Q)) (F : Front (BT V P) (BT W Q)) :
    ∃ s' F', distanceQueueLoop (meshDistNode bvDist leafDist absErr relErr) T pick qsize fuel a b q (s, F) =
      some (s', F') ∧ Walked leafDist absErr relErr (leafPairs a b ++ queued q) s s' := by
  induction fuel generalizing a b q s F with
  | zero => have := steps_pos a b; omega
  | succ fuel ih =>
    have hCab := hT.below hC hab.1 hab.2
    have e1 := hT.leaf1 hCab
    have e2 := hT.leaf2 hCab
    -- what comes after the first half of the body
    have rest : ∀ (q' : List (K × BT V P × BT W Q)) (s' : BestPair K (BT V P) (BT W Q)) (F' : Front (BT V P) (BT W Q)),
        (∀ e ∈ q', e.1 = bvDist e.2.1 e.2.2 ∧ BT.Below e.2.1 a₀ ∧ BT.Below e.2.2 b₀) → stepsQ q' ≤ fuel →
        ∃ s'' F'', Walked leafDist absErr relErr (queued q') s' s'' ∧
          ((pick q' = none ∧ s'' = s' ∧ F'' = F') ∨ ∃ d a' b' q, pick q' = some ((d, a', b'), q) ∧
            (if (meshDistNode bvDist leafDist absErr relErr).canStop s' d then some (s', F'.push a' b')
            else distanceQueueLoop (meshDistNode bvDist leafDist absErr relErr) T pick qsize fuel a' b' q (s', F')) =
            some (s'', F'')) := by
      intro q' s' F' hq' hf'
      by_cases hn : q' = []
      · subst hn
        exact ⟨s', F', .nil, Or.inl ⟨hpick.nil, rfl, rfl⟩⟩
      · obtain ⟨⟨d, a', b'⟩, r, e, hperm, hmin⟩ := hpick.some q' hn
        have hx := hq' (d, a', b') ((hperm.mem_iff).1 (by simp))
        simp only at hx
        have hqp : (queued ((d, a', b') :: r)).Perm (queued q') := List.Perm.flatMap_right _ hperm
        by_cases hc : (meshDistNode bvDist leafDist absErr relErr).canStop s' d = true
        · refine ⟨s', _, (Walked.stop hrel hc ?_).perm hqp, Or.inr ⟨d, a', b', r, e, by rw [if_pos hc]⟩⟩
          intro p hp
          obtain ⟨y, hy, hp⟩ := List.mem_flatMap.1 hp
          have hy' := hq' y ((hperm.mem_iff).1 hy)
          have h1 := (hB.mono hy'.2.1 hy'.2.2).here p hp
          rw [← hy'.1] at h1
          refine le_trans ?_ h1
          rcases List.mem_cons.1 hy with rfl | hy
          · exact le_refl _
          · exact hmin y hy
        · have hst := stepsQ_perm hperm
          simp only [stepsQ, List.map_cons, List.sum_cons] at hst hf'
          obtain ⟨s'', F'', e', w⟩ := ih a' b' r hx.2 (fun y hy => hq' y ((hperm.mem_iff).1 (by simp [hy])))
            (by simp only [stepsQ]; omega) s' F'
          exact ⟨s'', F'', w.perm hqp, Or.inr ⟨d, a', b', r, e, by rw [if_neg hc]; exact e'⟩⟩
    have hpos := steps_pos a b
    simp only [distanceQueueLoop, e1, e2]
    by_cases hl : (a.isLeaf && b.isLeaf) = true
    · simp only [hl, if_true]
      rw [Bool.and_eq_true] at hl
      obtain ⟨s'', F'', w, e⟩ := rest q ((meshDistNode bvDist leafDist absErr relErr).leafTest s a b) (F.push a b) hq
        (by omega)
      refine ⟨s'', F'', ?_, ?_⟩
      · rcases e with ⟨e, rfl, rfl⟩ | ⟨d, a', b', r, e, h⟩
        · simp only [e]
        · simp only [e]; exact h
      rw [leafPairs_leaf hl.1 hl.2]
      exact (Walked.leaf a b).append w
    · rw [Bool.not_eq_true] at hl
      simp only [hl, Bool.false_eq_true, if_false]
      by_cases hfull : q.length + 1 ≥ qsize
      · have hlen := length_le_stepsQ q
        obtain ⟨s', F', e, w⟩ := ih a b [] hab (by simp) (by simp only [stepsQ, List.map_nil, List.sum_nil]; omega) s F
        obtain ⟨s'', F'', w', e'⟩ := rest q s' F' hq (by omega)
        refine ⟨s'', F'', ?_, ?_⟩
        · simp only [hfull, if_true, e]
          rcases e' with ⟨e', rfl, rfl⟩ | ⟨d, a', b', r, e', h⟩
          · simp only [e']
          · simp only [e']; exact h
        · have := w.append w'
          simpa [queued] using this
      · obtain ⟨x, y, hxy, hcov, hx, hy, hdx, hdy⟩ := children hT hCab hl
        simp only [hfull, if_false]
        have hstep : (if T.fos a b = true then
              some (q ++ [((meshDistNode bvDist leafDist absErr relErr).bvDist (T.left1 a) b, T.left1 a, b),
                ((meshDistNode bvDist leafDist absErr relErr).bvDist (T.right1 a) b, T.right1 a, b)], s, F)
            else some (q ++ [((meshDistNode bvDist leafDist absErr relErr).bvDist a (T.left2 b), a, T.left2 b),
              ((meshDistNode bvDist leafDist absErr relErr).bvDist a (T.right2 b), a, T.right2 b)], s, F)) =
            some (q ++ [(bvDist x.1 x.2, x.1, x.2), (bvDist y.1 y.2, y.1, y.2)], s, F) := by
          by_cases hfos : T.fos a b = true
          · rw [if_pos hfos, Prod.mk.injEq] at hxy
            rw [if_pos hfos, ← hxy.1, ← hxy.2]; rfl
          · rw [if_neg hfos, Prod.mk.injEq] at hxy
            rw [if_neg hfos, ← hxy.1, ← hxy.2]; rfl
        rw [hstep]
        simp only
        have hlen := hcov.length_eq
        rw [List.length_append] at hlen
        have l1 := leafPairs_length x.1 x.2
        have l2 := leafPairs_length y.1 y.2
        obtain ⟨s'', F'', w, e⟩ := rest (q ++ [(bvDist x.1 x.2, x.1, x.2), (bvDist y.1 y.2, y.1, y.2)]) s F (by
            intro e he
            rcases List.mem_append.1 he with he | he
            · exact hq e he
            · rcases List.mem_cons.1 he with rfl | he
              · exact ⟨rfl, hx.1.trans hab.1, hx.2.trans hab.2⟩
              · rw [List.mem_singleton.1 he]
                exact ⟨rfl, hy.1.trans hab.1, hy.2.trans hab.2⟩)
          (by
            simp only [stepsQ, List.map_append, List.sum_append, List.map_cons, List.map_nil, List.sum_cons,
              List.sum_nil, steps] at hf ⊢
            omega)
        refine ⟨s'', F'', ?_, w.perm ?_⟩
        · rcases e with ⟨e, rfl, rfl⟩ | ⟨d, a', b', r, e, h⟩
          · simp only [e]
          · simp only [e]; exact h
        simp only [queued, List.flatMap_append, List.flatMap_cons, List.flatMap_nil, List.append_nil]
        exact List.perm_append_comm.trans (List.Perm.append_right _ hcov)

end Fcl
