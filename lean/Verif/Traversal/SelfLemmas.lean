import Verif.Traversal.FrontLemmas

/-! # Lemmas on `selfCollisionRecurse` -/

namespace Fcl
set_option linter.unusedSectionVars false
variable {σ V P W Q : Type*}

/-- A walk that calls the leaf test on an initial part of `todo`, in order, and stops as the code does. -/
def Runs (N : ColNode σ (BT V P) (BT W Q)) (todo : List (BT V P × BT W Q))
    (f : σ × Front (BT V P) (BT W Q) → Option (σ × Front (BT V P) (BT W Q))) : Prop :=
  ∀ s F, ∃ (done rest : List (BT V P × BT W Q)) (s' : σ) (F' : Front (BT V P) (BT W Q)),
    f (s, F) = some (s', F') ∧ done ++ rest = todo ∧
    s' = done.foldl (fun s p => N.leafTest s p.1 p.2) s ∧
    (rest ≠ [] → F = none ∧ N.canStop s' = true) ∧
    (F = none → ∀ pre q post, done = pre ++ q :: post → pre ≠ [] →
      N.canStop (pre.foldl (fun s p => N.leafTest s p.1 p.2) s) = false) ∧ F'.isNone = F.isNone

variable {N : ColNode σ (BT V P) (BT W Q)}

theorem runs_recurse {T : Trav (BT V P) (BT W Q)} {C : BT V P → BT W Q → Prop} (hT : T.Follows C) {a : BT V P}
    {b : BT W Q} (hC : C a b) {fuel : ℕ} (hf : a.depth + b.depth < fuel) :
    ∃ L, Ends N a b L ∧ Runs N (tested N L) (collisionRecurse N T fuel a b) := by
  obtain ⟨L, hL, e⟩ := collisionRecurse_runFrom N hT fuel hC hf
  refine ⟨L, hL, fun s F => ?_⟩
  cases F with
  | none =>
    obtain ⟨done, rest, h1, h2, h3, h4⟩ := runEnds_spec N s L
    exact ⟨done, rest, _, _, e _, h1, h2, fun h => ⟨rfl, h3 h⟩, fun _ => h4, rfl⟩
  | some f =>
    exact ⟨tested N L, [], _, _, e _, by simp, foldl_atEnd N s L, by simp, by simp, rfl⟩

theorem Runs.andThen {f g : σ × Front (BT V P) (BT W Q) → Option (σ × Front (BT V P) (BT W Q))}
    {L M : List (BT V P × BT W Q)} (hf : Runs N L f) (hg : Runs N M g) :
    Runs N (L ++ M) fun x =>
      match f x with
      | none => none
      | some (s, F) => if N.canStop s && F.isNone then some (s, F) else g (s, F) := by
  intro s F
  obtain ⟨d1, r1, s1, F1, e1, rfl, hs1, hr1, hp1, hF1⟩ := hf s F
  simp only [e1]
  by_cases hc : (N.canStop s1 && F1.isNone) = true
  · rw [if_pos hc]
    rw [Bool.and_eq_true] at hc
    refine ⟨d1, r1 ++ M, s1, F1, rfl, by simp, hs1, fun _ => ⟨?_, hc.1⟩, hp1, hF1⟩
    rw [hF1, Option.isNone_iff_eq_none] at hc
    exact hc.2
  · rw [if_neg hc]
    rw [Bool.not_eq_true] at hc
    obtain ⟨d2, r2, s2, F2, e2, rfl, hs2, hr2, hp2, hF2⟩ := hg s1 F1
    have hr : r1 = [] := by
      by_contra h
      obtain ⟨h1, h2⟩ := hr1 h
      subst h1
      simp [h2, hF1] at hc
    subst hr
    refine ⟨d1 ++ d2, r2, s2, F2, e2, by simp, by rw [hs2, hs1, List.foldl_append], fun h => ⟨?_, (hr2 h).2⟩, ?_,
      hF2.trans hF1⟩
    · have := (hr2 h).1
      rw [← Option.isNone_iff_eq_none, ← hF1, this]; rfl
    · intro hFn pre q post he hne
      have hF1n : F1 = none := by rw [← Option.isNone_iff_eq_none, hF1, hFn]; rfl
      have hcs : N.canStop s1 = false := by simpa [hF1n] using hc
      rcases List.append_eq_append_iff.1 he with ⟨c, h1, h2⟩ | ⟨c, h1, h2⟩
      · -- `pre` reaches into the second part
        subst h1
        rw [List.foldl_append, ← hs1]
        by_cases hcn : c = []
        · subst hcn; exact hcs
        · exact hp2 hF1n c q post h2 hcn
      · cases c with
        | nil =>
          simp only [List.append_nil] at h1
          subst h1
          rw [← hs1]; exact hcs
        | cons x c =>
          simp only [List.cons_append, List.cons.injEq] at h2
          obtain ⟨rfl, h2⟩ := h2
          exact hp1 hFn pre q c h1 hne

theorem twoOf_append {α : Type*} (l m : List α) : (twoOf (l ++ m)).Perm (twoOf l ++ twoOf m ++ l ×ˢ m) := by
  induction l with
  | nil => simp [twoOf]
  | cons x l ih =>
    simp only [List.cons_append, twoOf, List.map_append, List.append_assoc, List.product_cons]
    refine List.Perm.append_left _ ?_
    refine (List.Perm.append_left _ ih).trans ?_
    simp only [List.append_assoc]
    refine (List.perm_append_comm_assoc ..).trans (List.Perm.append_left _ ?_)
    exact List.perm_append_comm_assoc ..

/-- What is known of the pairs a walk of one tree tests and leaves out. -/
structure SelfParts (N : ColNode σ (BT V P) (BT V P)) (a : BT V P) (todo pruned : List (BT V P × BT V P)) :
    Prop where
  split : (todo ++ pruned).Perm (twoOf a.leaves)
  sound : ∀ p ∈ todo, N.disjoint p.1 p.2 = false
  why : ∀ p ∈ pruned, ∃ u v, BT.Below u a ∧ BT.Below v a ∧ p ∈ leafPairs u v ∧ N.disjoint u v = true

theorem selfParts {N : ColNode σ (BT V P) (BT V P)} (larger : V → V → Bool) (a : BT V P) (fuel : ℕ)
    (hf : 2 * a.depth < fuel) : ∃ todo pruned, SelfParts N a todo pruned ∧
      Runs N todo (selfCollisionRecurse N (Trav.bvh larger) fuel a) := by
  induction fuel generalizing a with
  | zero => omega
  | succ fuel ih =>
    cases a with
    | leaf bv p =>
      refine ⟨[], [], ⟨by simp [BT.leaves, twoOf], by simp, by simp⟩, fun s F => ?_⟩
      exact ⟨[], [], s, F, by simp [selfCollisionRecurse, Trav.bvh, BT.isLeaf], rfl, rfl, by simp, by simp, rfl⟩
    | node bv l r =>
      simp only [BT.depth] at hf
      obtain ⟨t1, p1, h1, g1⟩ := ih l (by omega)
      obtain ⟨t2, p2, h2, g2⟩ := ih r (by omega)
      obtain ⟨L, hL, g3⟩ := runs_recurse (N := N) (T := Trav.bvh larger) (C := fun _ _ => True)
        ⟨fun _ => rfl, fun _ => rfl, fun {a b} _ h hf => by
            cases a with
            | leaf => cases b <;> simp_all [Trav.bvh, BT.isLeaf]
            | node bv l r => exact ⟨bv, l, r, rfl, rfl, rfl, trivial, trivial⟩,
          fun {a b} _ h hf => by
            cases b with
            | leaf => simp_all [Trav.bvh, BT.isLeaf]
            | node bv l r => exact ⟨bv, l, r, rfl, rfl, rfl, trivial, trivial⟩, fun _ _ _ => trivial⟩
        (a := l) (b := r) trivial (fuel := fuel) (by omega)
      refine ⟨t1 ++ (t2 ++ tested N L), p1 ++ (p2 ++ skipped N L), ⟨?_, ?_, ?_⟩, ?_⟩
      · refine List.Perm.trans ?_ (twoOf_append l.leaves r.leaves).symm
        have := (h1.split.append h2.split).append hL.split
        refine List.Perm.trans ?_ this
        classical
        rw [List.perm_iff_count]
        intro x
        simp only [List.count_append]
        omega
      · intro p hp
        rcases List.mem_append.1 hp with hp | hp
        · exact h1.sound p hp
        · rcases List.mem_append.1 hp with hp | hp
          · exact h2.sound p hp
          · simpa using (List.mem_filter.1 hp).2
      · intro p hp
        rcases List.mem_append.1 hp with hp | hp
        · obtain ⟨u, v, hu, hv, h⟩ := h1.why p hp
          exact ⟨u, v, .left hu, .left hv, h⟩
        · rcases List.mem_append.1 hp with hp | hp
          · obtain ⟨u, v, hu, hv, h⟩ := h2.why p hp
            exact ⟨u, v, .right hu, .right hv, h⟩
          · obtain ⟨q, hq, hp⟩ := List.mem_flatMap.1 hp
            obtain ⟨hq, hd⟩ := List.mem_filter.1 hq
            exact ⟨q.1, q.2, .left (hL.below q hq).1, .right (hL.below q hq).2, hp, hd⟩
      · have := g1.andThen (g2.andThen g3)
        intro s F
        obtain ⟨done, rest, s', F', e, h⟩ := this s F
        refine ⟨done, rest, s', F', ?_, h⟩
        have e1 : (Trav.bvh larger : Trav (BT V P) (BT V P)).left1 (.node bv l r) = l := rfl
        have e2 : (Trav.bvh larger : Trav (BT V P) (BT V P)).right1 (.node bv l r) = r := rfl
        rw [selfCollisionRecurse, if_neg (by simp [Trav.bvh, BT.isLeaf]), ← e, e1, e2]
        simp only
        cases selfCollisionRecurse N (Trav.bvh larger) fuel l (s, F) with
        | none => rfl
        | some x =>
          simp only
          split
          · rfl
          · cases selfCollisionRecurse N (Trav.bvh larger) fuel r (x.1, x.2) with
            | none => rfl
            | some y => rfl

end Fcl
