import Verif.Traversal.SelfLemmas

/-! # C33, C34, C36: collision traversals of bounding volume hierarchies -/

namespace Fcl
set_option linter.unusedSectionVars false
variable {σ V P W Q : Type*}

/-! ### The walks used by the library follow the trees -/

/-- Two hierarchies, whatever the comparison of sizes answers. -/
theorem follows_bvh (larger : V → W → Bool) :
    (Trav.bvh larger : Trav (BT V P) (BT W Q)).Follows fun _ _ => True where
  leaf1 _ := rfl
  leaf2 _ := rfl
  first {a b} _ h hf := by
    cases a with
    | leaf => cases b <;> simp_all [Trav.bvh, BT.isLeaf]
    | node bv l r => exact ⟨bv, l, r, rfl, rfl, rfl, trivial, trivial⟩
  second {a b} _ h hf := by
    cases b with
    | leaf => simp_all [Trav.bvh, BT.isLeaf]
    | node bv l r => exact ⟨bv, l, r, rfl, rfl, rfl, trivial, trivial⟩
  below _ _ _ := trivial

/-- A hierarchy and a shape. -/
theorem follows_bvhShape : (Trav.bvhShape : Trav (BT V P) (BT W Q)).Follows fun _ b => b.isLeaf = true where
  leaf1 _ := rfl
  leaf2 h := h.symm
  first {a b} hb h hf := by
    cases a with
    | leaf => simp_all [BT.isLeaf]
    | node bv l r => exact ⟨bv, l, r, rfl, rfl, rfl, hb, hb⟩
  second _ _ hf := by simp [Trav.bvhShape] at hf
  below hb _ hv := below_leaf hb hv

/-- A shape and a hierarchy, for collision. -/
theorem follows_shapeBvhCollision :
    (Trav.shapeBvhCollision : Trav (BT V P) (BT W Q)).Follows fun a _ => a.isLeaf = true where
  leaf1 h := h.symm
  leaf2 _ := rfl
  first _ _ hf := by simp [Trav.shapeBvhCollision] at hf
  second {a b} ha h hf := by
    cases b with
    | leaf => simp_all [BT.isLeaf]
    | node bv l r => exact ⟨bv, l, r, rfl, rfl, rfl, ha, ha⟩
  below ha hu _ := below_leaf ha hu

section C33
variable (N : ColNode σ (BT V P) (BT W Q)) {T : Trav (BT V P) (BT W Q)} {C : BT V P → BT W Q → Prop}

/-- **C33.** For every pair of trees, every volume test, every leaf test and every stopping rule, the traversal ends.
There is a list of pairs, the same for every run, that contains exactly the pairs of leaves that survive:
every pair of leaves is in `todo` or in `pruned` exactly once; a pair in `todo` was not reported disjoint; for a pair
in `pruned` two nodes above it, or the pair itself, were reported disjoint. A run calls the leaf test on an initial
part of `todo` in order. If it leaves some of it out, then there is no front list and the stopping rule holds at the
end; and without a front list it goes on to the next pair only if the stopping rule did not hold after the last. -/
theorem C33_collisionRecurse (hT : T.Follows C) {a : BT V P} {b : BT W Q} (hC : C a b) {fuel : ℕ}
    (hf : a.depth + b.depth < fuel) :
    ∃ todo pruned,
      (todo ++ pruned).Perm (leafPairs a b) ∧
      (∀ p ∈ todo, N.disjoint p.1 p.2 = false) ∧
      (∀ p ∈ pruned, ∃ u v, BT.Below u a ∧ BT.Below v b ∧ p ∈ leafPairs u v ∧ N.disjoint u v = true) ∧
      ∀ s F, ∃ done rest s' F', collisionRecurse N T fuel a b (s, F) = some (s', F') ∧ done ++ rest = todo ∧
        s' = done.foldl (fun s p => N.leafTest s p.1 p.2) s ∧
        (rest ≠ [] → F = none ∧ N.canStop s' = true) ∧
        (F = none → ∀ pre q post, done = pre ++ q :: post → pre ≠ [] →
          N.canStop (pre.foldl (fun s p => N.leafTest s p.1 p.2) s) = false) := by
  obtain ⟨L, hL, e⟩ := collisionRecurse_runFrom N hT fuel hC hf
  refine ⟨tested N L, skipped N L, hL.split, ?_, ?_, ?_⟩
  · intro p hp
    simpa using (List.mem_filter.1 hp).2
  · intro p hp
    obtain ⟨q, hq, hp⟩ := List.mem_flatMap.1 hp
    obtain ⟨hq, hd⟩ := List.mem_filter.1 hq
    exact ⟨q.1, q.2, (hL.below q hq).1, (hL.below q hq).2, hp, hd⟩
  · intro s F
    cases F with
    | none =>
      obtain ⟨done, rest, h1, h2, h3, h4⟩ := runEnds_spec N s L
      exact ⟨done, rest, _, _, e _, h1, h2, fun h => ⟨rfl, h3 h⟩, fun _ => h4⟩
    | some f =>
      exact ⟨tested N L, [], _, _, e _, by simp, foldl_atEnd N s L, by simp, by simp⟩

/-- **C33.** With volumes that enclose, a run that is not stopped tests exactly the pairs of leaves whose own volumes
are not reported disjoint, each once. -/
theorem C33_exact (hT : T.Follows C) {a : BT V P} {b : BT W Q} (hC : C a b) (hE : N.Encloses a b) {fuel : ℕ}
    (hf : a.depth + b.depth < fuel) :
    ∃ todo, todo.Perm ((leafPairs a b).filter fun p => !N.disjoint p.1 p.2) ∧
      ∀ s F, ∃ done rest s' F', collisionRecurse N T fuel a b (s, F) = some (s', F') ∧ done ++ rest = todo ∧
        s' = done.foldl (fun s p => N.leafTest s p.1 p.2) s ∧ (rest ≠ [] → F = none ∧ N.canStop s' = true) := by
  obtain ⟨todo, pruned, h1, h2, h3, h4⟩ := C33_collisionRecurse N hT hC hf
  refine ⟨todo, ?_, fun s F => ?_⟩
  · refine List.Perm.trans ?_ (h1.filter _)
    rw [List.filter_append, List.filter_eq_self.2 fun p hp => (by simp [h2 p hp]), List.filter_eq_nil_iff.2, List.append_nil]
    intro p hp
    obtain ⟨u, v, hu, hv, hp, hd⟩ := h3 p hp
    simp [hE u v hu hv hd p hp]
  · obtain ⟨done, rest, s', F', e, e1, e2, e3, _⟩ := h4 s F
    exact ⟨done, rest, s', F', e, e1, e2, e3⟩

end C33

/-! ### C36: front lists -/

section C36
variable {T : Trav (BT V P) (BT W Q)} {C : BT V P → BT W Q → Prop}

/-- A leaf test was called on exactly the right pairs of leaves, in some order: only on pairs that are not reported
disjoint, at most twice on each, and on every pair of leaves unless two nodes above it, or the pair itself, are
reported disjoint. -/
structure Complete (N : ColNode σ (BT V P) (BT W Q)) (a : BT V P) (b : BT W Q) (calls : List (BT V P × BT W Q)) :
    Prop where
  sound : ∀ p ∈ calls, N.disjoint p.1 p.2 = false
  twice : calls.Subperm (leafPairs a b ++ leafPairs a b)
  complete : ∀ p ∈ leafPairs a b,
    p ∈ calls ∨ ∃ u v, BT.Below u a ∧ BT.Below v b ∧ p ∈ leafPairs u v ∧ N.disjoint u v = true

/-- **C36.** One call of `collide` with a front list, empty or left by an earlier call in any other configuration:
it ends, the list is a front of the two trees afterwards, and the leaf test was called on the right pairs. -/
theorem C36_step (N : ColNode σ (BT V P) (BT W Q)) (hT : T.Follows C) {a : BT V P} {b : BT W Q} (hC : C a b)
    {F : List (BT V P × BT W Q)} (hF : F = [] ∨ IsFront a b F) {fuel : ℕ}
    (hf : a.depth + b.depth + 2 * (leafPairs a b).length + 2 < fuel) (s : σ) :
    ∃ (s' : σ) (F' calls : List (BT V P × BT W Q)), collideNode N T fuel a b s (some F) = some (s', some F') ∧ F' ≠ [] ∧ IsFront a b F' ∧
      s' = calls.foldl (fun s p => N.leafTest s p.1 p.2) s ∧ Complete N a b calls := by
  cases F with
  | nil =>
    obtain ⟨L, hL, e⟩ := collisionRecurse_runFrom N hT fuel hC (by omega)
    refine ⟨_, L, tested N L, e _, hL.ne, ⟨hL.below, hL.cover⟩, foldl_atEnd N s L, ?_, ?_, ?_⟩
    · intro p hp
      simpa using (List.mem_filter.1 hp).2
    · exact (List.Sublist.subperm (List.sublist_append_left _ _)).trans (hL.split.subperm.trans (List.Sublist.subperm (List.sublist_append_left _ _)))
    · intro p hp
      rcases List.mem_append.1 ((hL.split.mem_iff).2 hp) with h | h
      · exact Or.inl h
      · obtain ⟨q, hq, hp⟩ := List.mem_flatMap.1 h
        obtain ⟨hq, hd⟩ := List.mem_filter.1 hq
        exact Or.inr ⟨q.1, q.2, (hL.below q hq).1, (hL.below q hq).2, hp, hd⟩
  | cons p ps =>
    have hF := hF.resolve_left (by simp)
    obtain ⟨s', kept, app, calls, e, h1, h2, h3, h4, h5, h6, h7⟩ :=
      propagateLoop_spec N hT hC fuel (p :: ps) [] [] s hF.1 (by simp) (by simp) (by
        have := cost_le N hF
        omega)
    refine ⟨s', kept ++ app, calls, ?_, h7 (by simp), ⟨h2, ?_⟩, h1, h4, ?_, ?_⟩
    · simp only [collideNode, propagateFront, e, Option.map_some]
    · simpa [allPairs] using h3.trans hF.2
    · refine h5.trans ?_
      exact (weight_subperm N (p :: ps)).trans ((hF.2.append hF.2).subperm)
    · intro q hq
      exact h6 q ((hF.2.mem_iff).2 hq)

/-- Successive calls of `collide` with the same front list, in changing configurations. -/
def history (T : Trav (BT V P) (BT W Q)) (fuel : ℕ) (a : BT V P) (b : BT W Q) :
    List (ColNode σ (BT V P) (BT W Q)) → σ × Front (BT V P) (BT W Q) → Option (σ × Front (BT V P) (BT W Q))
  | [], x => some x
  | N :: Ns, x => (collideNode N T fuel a b x.1 x.2).bind (history T fuel a b Ns)

/-- **C36.** Along every history of configurations that starts with an empty front list, every call ends, calls the
leaf test on the right pairs for its own configuration, and leaves a front behind. -/
theorem C36_history (hT : T.Follows C) {a : BT V P} {b : BT W Q} (hC : C a b) {fuel : ℕ}
    (hf : a.depth + b.depth + 2 * (leafPairs a b).length + 2 < fuel) (Ns : List (ColNode σ (BT V P) (BT W Q)))
    (N : ColNode σ (BT V P) (BT W Q)) (s₀ : σ) :
    ∃ (s : σ) (F : List (BT V P × BT W Q)) (s' : σ) (F' calls : List (BT V P × BT W Q)), history T fuel a b Ns (s₀, some []) = some (s, some F) ∧
      collideNode N T fuel a b s (some F) = some (s', some F') ∧ IsFront a b F' ∧
      s' = calls.foldl (fun s p => N.leafTest s p.1 p.2) s ∧ Complete N a b calls := by
  have key : ∀ (Ns : List (ColNode σ (BT V P) (BT W Q))) (s₀ : σ) (F₀ : List (BT V P × BT W Q)),
      (F₀ = [] ∨ IsFront a b F₀) → ∃ s F, history T fuel a b Ns (s₀, some F₀) = some (s, some F) ∧
        (F = [] ∨ IsFront a b F) := by
    intro Ns
    induction Ns with
    | nil => exact fun s₀ F₀ h => ⟨s₀, F₀, rfl, h⟩
    | cons M Ns ih =>
      intro s₀ F₀ h
      obtain ⟨s', F', _, e, _, hF', _⟩ := C36_step M hT hC h hf s₀
      obtain ⟨s, F, e', hF⟩ := ih s' F' (Or.inr hF')
      exact ⟨s, F, by simp only [history, e, Option.bind_some, e'], hF⟩
  obtain ⟨s, F, e, hF⟩ := key Ns s₀ [] (Or.inl rfl)
  obtain ⟨s', F', calls, e', _, hF', h1, h2⟩ := C36_step N hT hC hF hf s
  exact ⟨s, F, s', F', calls, e, e', hF', h1, h2⟩

end C36

section C34
variable (N : ColNode σ (BT V P) (BT V P))

/-- **C34.** Self collision of one tree, for every tree, volume test, leaf test and stopping rule: the traversal
ends. There is a list, the same for every run, of the pairs of leaves that survive: every pair of different leaves is
in `todo` or in `pruned` exactly once, in the order left, right, and no leaf is paired with itself; a pair in `todo`
was not reported disjoint; for a pair in `pruned` two nodes above it, or the pair itself, were reported disjoint. A
run calls the leaf test on an initial part of `todo` in order, and leaves pairs out only without a front list and
when the stopping rule holds at the end. -/
theorem C34_selfCollisionRecurse (larger : V → V → Bool) (a : BT V P) {fuel : ℕ} (hf : 2 * a.depth < fuel) :
    ∃ todo pruned,
      (todo ++ pruned).Perm (twoOf a.leaves) ∧
      (∀ p ∈ todo, N.disjoint p.1 p.2 = false) ∧
      (∀ p ∈ pruned, ∃ u v, BT.Below u a ∧ BT.Below v a ∧ p ∈ leafPairs u v ∧ N.disjoint u v = true) ∧
      ∀ s F, ∃ done rest s' F', selfCollisionRecurse N (Trav.bvh larger) fuel a (s, F) = some (s', F') ∧
        done ++ rest = todo ∧
        s' = done.foldl (fun s p => N.leafTest s p.1 p.2) s ∧
        (rest ≠ [] → F = none ∧ N.canStop s' = true) ∧
        (F = none → ∀ pre q post, done = pre ++ q :: post → pre ≠ [] →
          N.canStop (pre.foldl (fun s p => N.leafTest s p.1 p.2) s) = false) := by
  obtain ⟨todo, pruned, h, g⟩ := selfParts (N := N) larger a fuel hf
  refine ⟨todo, pruned, h.split, h.sound, h.why, fun s F => ?_⟩
  obtain ⟨done, rest, s', F', h1, h2, h3, h4, h5, _⟩ := g s F
  exact ⟨done, rest, s', F', h1, h2, h3, h4, h5⟩

end C34

/-! ### Examples -/

section examples

/-- A volume on a line. -/
abbrev Seg := ℤ × ℤ
/-- Two segments on a line are apart. -/
def Seg.apart (x y : Seg) : Bool := x.2 < y.1 || y.2 < x.1
/-- A tree with three leaves. -/
def exTree : BT Seg ℕ := .node (0, 9) (.node (0, 5) (.leaf (0, 2) 0) (.leaf (3, 5) 1)) (.leaf (8, 9) 2)
/-- A tree with two leaves. -/
def exTree' : BT Seg ℕ := .node (1, 8) (.leaf (1, 3) 10) (.leaf (7, 8) 11)
/-- The pair of primitives of two leaves. -/
def primPair : BT Seg ℕ → BT Seg ℕ → List (ℕ × ℕ)
  | .leaf _ p, .leaf _ q => [(p, q)]
  | _, _ => []
/-- Records the pairs of primitives tested, and stops after `n` of them. -/
def exNode (n : ℕ) : ColNode (List (ℕ × ℕ)) (BT Seg ℕ) (BT Seg ℕ) where
  disjoint a b := Seg.apart a.bv b.bv
  leafTest s a b := s ++ primPair a b
  canStop s := n ≤ s.length
/-- The longer segment is taken apart first. -/
def exWalk : Trav (BT Seg ℕ) (BT Seg ℕ) := Trav.bvh fun x y => y.2 - y.1 < x.2 - x.1

/-- Three of the six pairs meet. -/
example : (collisionRecurse (exNode 9) exWalk 5 exTree exTree' ([], none)).map (·.1) = some [(0, 10), (1, 10), (2, 11)] := by
  decide +kernel
/-- With a limit of two contacts the third is left out; with a front list it is not. -/
example : (collisionRecurse (exNode 2) exWalk 5 exTree exTree' ([], none)).map (·.1) = some [(0, 10), (1, 10)] ∧
    (collisionRecurse (exNode 2) exWalk 5 exTree exTree' ([], some [])).map (·.1) =
      some [(0, 10), (1, 10), (2, 11)] := by
  decide +kernel
example : exTree.depth + exTree'.depth < 5 ∧ exTree.depth + exTree'.depth + 2 * (leafPairs exTree exTree').length + 2 < 20
    ∧ 2 * exTree.depth < 5 := by decide +kernel
/-- The segments of the example enclose. -/
example : (exNode 2).Encloses exTree exTree' := fun u v hu hv =>
  (show ∀ u ∈ exTree.subtrees, ∀ v ∈ exTree'.subtrees, (exNode 2).disjoint u v = true →
    ∀ p ∈ leafPairs u v, (exNode 2).disjoint p.1 p.2 = true by decide +kernel) u (mem_subtrees hu) v (mem_subtrees hv)
example : (exNode 2).disjoint exTree exTree' = false ∧ (exNode 2).disjoint exTree.right exTree'.left = true := by
  decide +kernel
/-- Another configuration: the second tree is moved by 3. -/
def exNode' : ColNode (List (ℕ × ℕ)) (BT Seg ℕ) (BT Seg ℕ) where
  disjoint a b := Seg.apart a.bv (b.bv.1 + 3, b.bv.2 + 3)
  leafTest s a b := s ++ primPair a b
  canStop _ := false
/-- A history of two calls: the second starts from the front list of the first. -/
example : (history exWalk 20 exTree exTree' [exNode 9, exNode'] ([], some [])).map (·.1) =
    some [(0, 10), (1, 10), (2, 11), (1, 10)] := by
  decide +kernel
/-- The second call alone: in the new configuration only one pair meets. -/
example : (collideNode exNode' exWalk 20 exTree exTree' [] (some [])).map (·.1) = some [(1, 10)] := by decide +kernel

/-- A third configuration, in which the two trees are far apart, makes the front list the pair of roots. -/
def exFar : ColNode (List (ℕ × ℕ)) (BT Seg ℕ) (BT Seg ℕ) where
  disjoint _ _ := true
  leafTest s a b := s ++ primPair a b
  canStop _ := false
/-- **C36, the bound 2 is reached.** A pair of leaves can be tested twice in one call: when a pair of the front list
is no longer disjoint, the pairs found below it are put into the list that is being walked, and are tested again. -/
theorem C36_tested_twice :
    (history exWalk 20 exTree exTree' [exFar, exNode'] ([], some [])).map (·.1) = some [(1, 10), (1, 10)] := by
  decide +kernel

/-- Self collision of a tree in which the second leaf meets the first. -/
example : (selfCollisionRecurse (exNode 9) exWalk 5
    (.node (0, 9) (.node (0, 5) (.leaf (0, 4) 0) (.leaf (3, 5) 1)) (.leaf (5, 9) 2)) ([], none)).map (·.1) =
    some [(0, 1), (1, 2)] := by
  decide +kernel
example : (twoOf exTree.leaves).map (fun p => primPair p.1 p.2) = [[(0, 1)], [(0, 2)], [(1, 2)]] := by decide +kernel

end examples

end Fcl
