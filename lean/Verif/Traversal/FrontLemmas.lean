import Verif.Traversal.Lemmas
import Mathlib.Data.List.Perm.Subperm

/-! # Lemmas on `propagateBVHFrontListCollisionRecurse` -/

namespace Fcl
set_option linter.unusedSectionVars false
variable {σ V P W Q : Type*}

theorem below_leaf {u t : BT V P} (h : t.isLeaf = true) (g : BT.Below u t) : u.isLeaf = true := by
  cases g with
  | refl => exact h
  | left => simp [BT.isLeaf] at h
  | right => simp [BT.isLeaf] at h

theorem below_depth {u t : BT V P} (g : BT.Below u t) : u.depth ≤ t.depth := by
  induction g with
  | refl => exact le_refl _
  | left _ ih => simp only [BT.depth]; omega
  | right _ ih => simp only [BT.depth]; omega

theorem leaves_ne (t : BT V P) : 0 < t.leaves.length := by
  induction t with
  | leaf => simp [BT.leaves]
  | node bv l r ihl ihr => simp only [BT.leaves, List.length_append]; omega

theorem leafPairs_length (a : BT V P) (b : BT W Q) : 0 < (leafPairs a b).length := by
  simp only [leafPairs, List.length_product]
  exact Nat.mul_pos (leaves_ne a) (leaves_ne b)

/-- All the pairs of leaves below the pairs of a list. -/
def allPairs (F : List (BT V P × BT W Q)) : List (BT V P × BT W Q) := F.flatMap fun p => leafPairs p.1 p.2

theorem allPairs_append (F G : List (BT V P × BT W Q)) : allPairs (F ++ G) = allPairs F ++ allPairs G :=
  List.flatMap_append ..

theorem allPairs_cons (p : BT V P × BT W Q) (G : List (BT V P × BT W Q)) :
    allPairs (p :: G) = leafPairs p.1 p.2 ++ allPairs G := List.flatMap_cons ..

theorem allPairs_length (F : List (BT V P × BT W Q)) : F.length ≤ (allPairs F).length := by
  induction F with
  | nil => simp
  | cons p F ih =>
    rw [allPairs_cons, List.length_append, List.length_cons]
    have := leafPairs_length p.1 p.2
    omega

variable (N : ColNode σ (BT V P) (BT W Q)) {T : Trav (BT V P) (BT W Q)} {C : BT V P → BT W Q → Prop}

/-- A pair of the front list from which the walk does not go on. -/
def ended (p : BT V P × BT W Q) : Bool := (p.1.isLeaf && p.2.isLeaf) || N.disjoint p.1 p.2

/-- The pairs of leaves, twice for the pairs from which the walk goes on. -/
def weight : List (BT V P × BT W Q) → List (BT V P × BT W Q)
  | [] => []
  | p :: F => (if ended N p then leafPairs p.1 p.2 else leafPairs p.1 p.2 ++ leafPairs p.1 p.2) ++ weight F

/-- The number of iterations the pairs of a list give rise to. -/
def cost : List (BT V P × BT W Q) → ℕ
  | [] => 0
  | p :: F => (if ended N p then 1 else 1 + (leafPairs p.1 p.2).length) + cost F

theorem weight_append (F G : List (BT V P × BT W Q)) : weight N (F ++ G) = weight N F ++ weight N G := by
  induction F with
  | nil => rfl
  | cons p F ih => simp only [List.cons_append, weight, ih, List.append_assoc]

theorem cost_append (F G : List (BT V P × BT W Q)) : cost N (F ++ G) = cost N F + cost N G := by
  induction F with
  | nil => simp [cost]
  | cons p F ih => simp only [List.cons_append, cost, ih]; omega

theorem weight_ended {F : List (BT V P × BT W Q)} (h : ∀ p ∈ F, ended N p = true) : weight N F = allPairs F := by
  induction F with
  | nil => rfl
  | cons p F ih =>
    rw [allPairs_cons, ← ih fun q hq => h q (by simp [hq]), weight, if_pos (h p (by simp))]

theorem cost_ended {F : List (BT V P × BT W Q)} (h : ∀ p ∈ F, ended N p = true) : cost N F = F.length := by
  induction F with
  | nil => rfl
  | cons p F ih =>
    rw [cost, ih fun q hq => h q (by simp [hq]), if_pos (h p (by simp)), List.length_cons, Nat.add_comm]

theorem weight_subperm (F : List (BT V P × BT W Q)) : (weight N F).Subperm (allPairs F ++ allPairs F) := by
  induction F with
  | nil => simp [weight, allPairs]
  | cons p F ih =>
    have e : ((leafPairs p.1 p.2 ++ leafPairs p.1 p.2) ++ (allPairs F ++ allPairs F)).Perm
        (allPairs (p :: F) ++ allPairs (p :: F)) := by
      rw [allPairs_cons]
      simp only [List.append_assoc]
      refine List.Perm.append_left _ ?_
      rw [← List.append_assoc, ← List.append_assoc]
      exact List.Perm.append_right _ List.perm_append_comm
    refine List.Subperm.trans ?_ e.subperm
    rw [weight]
    refine List.Subperm.append ?_ ih
    split
    · exact List.Sublist.subperm (List.sublist_append_left _ _)
    · exact List.Subperm.refl _

theorem cost_le {a : BT V P} {b : BT W Q} {F : List (BT V P × BT W Q)} (h : IsFront a b F) :
    cost N F ≤ 2 * (leafPairs a b).length := by
  have e : (allPairs F).length = (leafPairs a b).length := h.2.length_eq
  rw [← e]
  clear * -
  induction F with
  | nil => simp [cost]
  | cons p F ih =>
    have := leafPairs_length p.1 p.2
    rw [cost, allPairs_cons, List.length_append]
    split <;> omega

theorem Ends.ended {a : BT V P} {b : BT W Q} {L : List (BT V P × BT W Q)} (h : Ends N a b L) :
    ∀ p ∈ L, ended N p = true := by
  intro p hp
  rcases h.last p hp with g | g
  · simp [Fcl.ended, g.1, g.2]
  · simp [Fcl.ended, g]

theorem descend_ends (hT : T.Follows C) (fuel : ℕ) {a : BT V P} {b : BT W Q} (hC : C a b)
    (hl : (a.isLeaf && b.isLeaf) = false) (hf : a.depth + b.depth < fuel) :
    ∃ L, Ends N a b L ∧
      ∀ s f, descend N T fuel a b s (some f) = some (L.foldl (atEnd N) s, some (f ++ L)) := by
  by_cases hfos : T.fos a b = true
  · obtain ⟨bv, l, r, rfl, hleft, hright, hcl, hcr⟩ := hT.first hC hl hfos
    simp only [BT.depth] at hf
    obtain ⟨L, hL, eL⟩ := collisionRecurse_runFrom N hT fuel hcl (by omega)
    obtain ⟨M, hM, eM⟩ := collisionRecurse_runFrom N hT fuel hcr (by omega)
    refine ⟨L ++ M, .first N hL hM, fun s f => ?_⟩
    simp only [descend, hfos, hleft, hright, eL, eM, if_true, runFrom, List.foldl_append, List.append_assoc]
  · rw [Bool.not_eq_true] at hfos
    obtain ⟨bv, l, r, rfl, hleft, hright, hcl, hcr⟩ := hT.second hC hl hfos
    simp only [BT.depth] at hf
    obtain ⟨L, hL, eL⟩ := collisionRecurse_runFrom N hT fuel hcl (by omega)
    obtain ⟨M, hM, eM⟩ := collisionRecurse_runFrom N hT fuel hcr (by omega)
    refine ⟨L ++ M, .second N hL hM, fun s f => ?_⟩
    simp only [descend, hfos, hleft, hright, eL, eM, Bool.false_eq_true, if_false, runFrom, List.foldl_append,
      List.append_assoc]

theorem propagateLoop_spec (hT : T.Follows C) {a : BT V P} {b : BT W Q} (hC : C a b) (fuel : ℕ)
    (todo kept app : List (BT V P × BT W Q)) (s : σ)
    (ht : ∀ p ∈ todo, BT.Below p.1 a ∧ BT.Below p.2 b) (hk : ∀ p ∈ kept, BT.Below p.1 a ∧ BT.Below p.2 b)
    (ha : ∀ p ∈ app, BT.Below p.1 a ∧ BT.Below p.2 b) (hf : cost N todo + a.depth + b.depth + 2 ≤ fuel) :
    ∃ (s' : σ) (kept' app' calls : List (BT V P × BT W Q)), propagateLoop N T fuel todo kept app s = some (s', kept', app') ∧
      s' = calls.foldl (fun s p => N.leafTest s p.1 p.2) s ∧
      (∀ p ∈ kept' ++ app', BT.Below p.1 a ∧ BT.Below p.2 b) ∧
      (allPairs (kept' ++ app')).Perm (allPairs (kept ++ app ++ todo)) ∧
      (∀ p ∈ calls, N.disjoint p.1 p.2 = false) ∧ calls.Subperm (weight N todo) ∧
      (∀ p ∈ allPairs todo,
        p ∈ calls ∨ ∃ u v, BT.Below u a ∧ BT.Below v b ∧ p ∈ leafPairs u v ∧ N.disjoint u v = true) ∧
      (kept ++ app ++ todo ≠ [] → kept' ++ app' ≠ []) := by
  induction fuel generalizing todo kept app s with
  | zero => omega
  | succ fuel ih =>
    cases todo with
    | nil =>
      refine ⟨s, kept, app, [], rfl, rfl, fun p hp => (List.mem_append.1 hp).elim (hk p) (ha p), by simp, by simp,
        by simp [weight], by simp [allPairs], by simp⟩
    | cons p todo =>
      obtain ⟨x, y⟩ := p
      have hxy := ht (x, y) (by simp)
      have hCp := hT.below hC hxy.1 hxy.2
      have hd1 := below_depth hxy.1
      have hd2 := below_depth hxy.2
      have ht' : ∀ p ∈ todo, BT.Below p.1 a ∧ BT.Below p.2 b := fun p hp => ht p (by simp [hp])
      simp only at hd1 hd2 hCp hxy
      have e1 := hT.leaf1 hCp
      have e2 := hT.leaf2 hCp
      by_cases hl : (x.isLeaf && y.isLeaf) = true
      · -- a pair of leaves
        have hend : ended N (x, y) = true := by simp [ended, hl]
        rw [cost, if_pos hend] at hf
        have hl' := hl
        rw [Bool.and_eq_true] at hl'
        have ec : collisionRecurse N T fuel x y (s, some app) = some (atEnd N s (x, y), some (app ++ [(x, y)])) := by
          cases fuel with
          | zero => omega
          | succ n =>
            simp only [collisionRecurse, e1, e2, hl, if_true, Front.push, Option.map_some, atEnd]
            split <;> rfl
        have ha' : ∀ p ∈ app ++ [(x, y)], BT.Below p.1 a ∧ BT.Below p.2 b := by
          intro p hp
          rcases List.mem_append.1 hp with h | h
          · exact ha p h
          · rw [List.mem_singleton.1 h]; exact hxy
        obtain ⟨s', kept', app', calls, h0, h1, h2, h3, h4, h5, h6, h7⟩ :=
          ih todo kept (app ++ [(x, y)]) (atEnd N s (x, y)) ht' hk ha' (by omega)
        have hw : weight N ((x, y) :: todo) = (x, y) :: weight N todo := by
          rw [weight, if_pos hend, leafPairs_leaf hl'.1 hl'.2]; rfl
        have hcov : kept ++ app ++ (x, y) :: todo = kept ++ (app ++ [(x, y)]) ++ todo := by simp
        have hloop : propagateLoop N T (fuel + 1) ((x, y) :: todo) kept app s = some (s', kept', app') := by
          rw [propagateLoop]
          simp only [e1, e2, hl, if_true, ec]
          exact h0
        by_cases hd : N.disjoint x y = true
        · refine ⟨s', kept', app', calls, hloop, ?_, h2, by rw [hcov]; exact h3, h4, ?_, ?_, ?_⟩
          · rw [h1]; simp [atEnd, hd]
          · rw [hw]; exact h5.trans (List.Sublist.subperm (List.sublist_cons_self _ _))
          · intro q hq
            rw [allPairs_cons, leafPairs_leaf hl'.1 hl'.2] at hq
            rcases List.mem_append.1 hq with hq | hq
            · rw [List.mem_singleton.1 hq]
              exact Or.inr ⟨x, y, hxy.1, hxy.2, by rw [leafPairs_leaf hl'.1 hl'.2]; simp, hd⟩
            · exact h6 q hq
          · rw [hcov]; exact h7
        · rw [Bool.not_eq_true] at hd
          refine ⟨s', kept', app', (x, y) :: calls, hloop, ?_, h2, by rw [hcov]; exact h3, ?_, ?_, ?_, ?_⟩
          · rw [h1]; simp [atEnd, hd]
          · intro q hq
            rcases List.mem_cons.1 hq with rfl | hq
            · exact hd
            · exact h4 q hq
          · rw [hw]; exact (List.subperm_cons _).2 h5
          · intro q hq
            rw [allPairs_cons, leafPairs_leaf hl'.1 hl'.2] at hq
            rcases List.mem_append.1 hq with hq | hq
            · rw [List.mem_singleton.1 hq]; exact Or.inl (by simp)
            · exact (h6 q hq).imp (fun h => by simp [h]) id
          · rw [hcov]; exact h7
      · rw [Bool.not_eq_true] at hl
        by_cases hd : N.disjoint x y = true
        · -- still disjoint
          have hend : ended N (x, y) = true := by simp [ended, hd]
          rw [cost, if_pos hend] at hf
          have hk' : ∀ p ∈ kept ++ [(x, y)], BT.Below p.1 a ∧ BT.Below p.2 b := by
            intro p hp
            rcases List.mem_append.1 hp with h | h
            · exact hk p h
            · rw [List.mem_singleton.1 h]; exact hxy
          obtain ⟨s', kept', app', calls, h0, h1, h2, h3, h4, h5, h6, h7⟩ :=
            ih todo (kept ++ [(x, y)]) app s ht' hk' ha (by omega)
          refine ⟨s', kept', app', calls, ?_, h1, h2, h3.trans ?_, h4, ?_, ?_, fun _ => h7 (by simp)⟩
          · rw [propagateLoop]
            simp only [e1, e2, hl, hd, Bool.not_true, Bool.false_eq_true, if_false]
            exact h0
          · refine (List.Perm.flatMap_right _ ?_)
            simp only [List.append_assoc, List.singleton_append]
            refine List.Perm.append_left _ ?_
            exact List.perm_middle.symm
          · rw [weight, if_pos hend]
            exact h5.trans (List.Sublist.subperm (List.sublist_append_right _ _))
          · intro q hq
            rw [allPairs_cons] at hq
            rcases List.mem_append.1 hq with hq | hq
            · exact Or.inr ⟨x, y, hxy.1, hxy.2, hq, hd⟩
            · exact h6 q hq
        · -- the walk goes on
          rw [Bool.not_eq_true] at hd
          have hend : ended N (x, y) = false := by simp [ended, hd, hl]
          rw [cost, hend] at hf
          simp only [Bool.false_eq_true, if_false] at hf
          have hpos := leafPairs_length x y
          obtain ⟨L, hL, eL⟩ := descend_ends N hT fuel hCp hl (by omega)
          have hLb : ∀ p ∈ todo ++ L, BT.Below p.1 a ∧ BT.Below p.2 b := by
            intro p hp
            rcases List.mem_append.1 hp with h | h
            · exact ht' p h
            · exact ⟨(hL.below p h).1.trans hxy.1, (hL.below p h).2.trans hxy.2⟩
          have hlen : L.length ≤ (leafPairs x y).length := by
            rw [← hL.cover.length_eq]; exact allPairs_length L
          obtain ⟨s', kept', app', calls, h0, h1, h2, h3, h4, h5, h6, h7⟩ :=
            ih (todo ++ L) kept app (L.foldl (atEnd N) s) hLb hk ha (by
              rw [cost_append, cost_ended N hL.ended]; omega)
          refine ⟨s', kept', app', tested N L ++ calls, ?_, ?_, h2, h3.trans ?_, ?_, ?_, ?_,
            fun _ => h7 (by simp [hL.ne])⟩
          · rw [propagateLoop]
            simp only [e1, e2, hl, hd, eL, Bool.not_false, Bool.false_eq_true, if_false, if_true]
            exact h0
          · rw [h1, foldl_atEnd, List.foldl_append]
          · simp only [allPairs_append, allPairs_cons, ← List.append_assoc]
            simp only [List.append_assoc]
            refine List.Perm.append_left _ (List.Perm.append_left _ ?_)
            refine List.Perm.trans List.perm_append_comm (List.Perm.append_right _ ?_)
            exact hL.cover
          · intro q hq
            rcases List.mem_append.1 hq with hq | hq
            · simpa using (List.mem_filter.1 hq).2
            · exact h4 q hq
          · rw [weight, hend]
            simp only [Bool.false_eq_true, if_false]
            rw [weight_append, weight_ended N hL.ended] at h5
            have ht1 : (tested N L).Subperm (leafPairs x y) :=
              (List.Sublist.subperm (List.sublist_append_left _ _)).trans hL.split.subperm
            have h5' : calls.Subperm (leafPairs x y ++ weight N todo) :=
              h5.trans (List.perm_append_comm.trans (List.Perm.append_right _ hL.cover)).subperm
            rw [List.append_assoc]
            exact List.Subperm.append ht1 h5'
          · intro q hq
            rw [allPairs_cons] at hq
            have : q ∈ allPairs (todo ++ L) := by
              rw [allPairs_append]
              rcases List.mem_append.1 hq with hq | hq
              · exact List.mem_append_right _ ((hL.cover.mem_iff).2 hq)
              · exact List.mem_append_left _ hq
            exact (h6 q this).imp (fun h => List.mem_append_right _ h) id

end Fcl
