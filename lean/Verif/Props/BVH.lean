import Verif.BVH.MeshLemmas
import Mathlib.Data.List.Nodup

/-! # C31, C32: construction and refitting of hierarchies; C61: mesh collision -/

namespace Fcl
set_option linter.unusedSectionVars false
variable {V : Type*}

section C31
variable (B : Builder V)

/-- **C31.** For every number of primitives, every fitter, every splitter, and arrays with arbitrary contents of the
sizes allocated by `endModel` or larger: the construction ends and stays inside of the arrays. The result is one
binary tree rooted in slot 0 that uses each of the first `2 n - 1` slots for exactly one node; `num_bvs` is `2 n - 1`;
every primitive is in exactly one leaf; the range of `primitive_indices` of a node holds exactly the primitives below
it, the part of the left child first; the volume of every node was fitted to exactly these; and a node was split by
the answers of the splitter unless all primitives were on one side, in which case it was split in the middle. -/
theorem C31_build {n fuel : ℕ} (hn : 1 ≤ n) (hf : n ≤ fuel) {bvs : List (BVNode V)} (hb : 2 * n - 1 ≤ bvs.length)
    {prims : List ℕ} (hp : n ≤ prims.length) :
    ∃ bvs' prims' t ids, buildTree B fuel n bvs prims = some ⟨bvs', 2 * n - 1, prims'⟩ ∧ bvs'.length = bvs.length ∧
      prims'.length = prims.length ∧ IsTree bvs' prims' 0 0 n ids t ∧ ids.Perm (List.range (2 * n - 1)) ∧
      t.prims = prims'.take n ∧ t.prims.Perm (List.range n) ∧ t.depth < n ∧ Fitted B.fit t ∧ Sorted B t := by
  obtain ⟨bvs', seg, t, ids, e, hperm, hl, -, ht, hids, hpr, hfit, hso⟩ :=
    build_spec B fuel 0 [] (List.range n) (prims.drop n) bvs 1 (by simp only [List.length_range]; omega) (by simpa using hf) (by omega)
      (by simp only [List.length_range]; omega)
  simp only [List.length_range, List.length_nil, List.nil_append] at e ht hids
  have hnb : 1 + 2 * (n - 1) = 2 * n - 1 := by omega
  have hlen : seg.length = n := by rw [hperm.length_eq, List.length_range]
  refine ⟨bvs', seg ++ prims.drop n, t, ids, ?_, hl, ?_, ht, ?_, ?_, hpr ▸ hperm, ht.depth_lt, hfit, hso⟩
  · rw [buildTree, if_neg (by omega), e, hnb]
  · simp [hlen]; omega
  · refine hids.trans ?_
    have : List.range (2 * n - 1) = 0 :: List.range' 1 (2 * (n - 1)) := by
      rw [List.range_eq_range', show 2 * n - 1 = 2 * (n - 1) + 1 by omega]; rfl
    rw [this]
  · rw [hpr, ← hlen]; simp

/-- **C31.** Every volume encloses all the primitives below it, if the volumes made by the fitter enclose the
primitives they were made for. -/
theorem C31_enclosing {t : BT V ℕ} (h : Fitted B.fit t) {Encl : V → ℕ → Prop}
    (hE : ∀ l, ∀ p ∈ l, Encl (B.fit l) p) : Enclosing Encl t := by
  intro u hu p hp
  obtain ⟨l, hl, e⟩ := h u hu
  rw [e]
  exact hE l p (hl.mem_iff.2 hp)

/-- Without primitives the recursion would not end. `endModel` refuses a model without vertices and triangles. -/
theorem C31_none_diverges (fuel id first : ℕ) (s : Built V) : recursiveBuildTree B fuel id first 0 s = none := by
  induction fuel generalizing id first s with
  | zero => rfl
  | succ fuel ih =>
    simp only [recursiveBuildTree, List.take_zero, List.length_nil, ne_eq, not_true_eq_false, if_false, partLoop,
      zero_ne_one, true_or, if_true, Nat.zero_div, ih]
    split <;> rfl

end C31

section C32
variable {bvs : List (BVNode V)} {prims : List ℕ} {n : ℕ} {ids : List ℕ} {t : BT V ℕ}

/-- **C32.** Bottom-up refitting of a hierarchy ends, changes nothing but volumes, leaves the same tree over the same
primitives, and if the new volumes of the leaves enclose their primitives and a sum encloses what its parts enclose,
then every volume encloses all the primitives below it. -/
theorem C32_bottomup (h : IsTree bvs prims 0 0 n ids t) (hd : ids.Nodup) {fuel : ℕ} (hf : n ≤ fuel)
    (leafFit : ℕ → V) (merge : V → V → V) :
    ∃ bvs' t', refitBottomUp leafFit merge fuel 0 bvs = some bvs' ∧ SameTopology bvs bvs' ∧
      IsTree bvs' prims 0 0 n ids t' ∧ t'.shape = t.shape ∧
      ∀ Encl : V → ℕ → Prop, (∀ p ∈ t.prims, Encl (leafFit p) p) → (∀ a b p, Encl a p ∨ Encl b p → Encl (merge a b) p) →
        Enclosing Encl t' := by
  obtain ⟨bvs', e, hs, -, ht⟩ := refitBottomUp_spec leafFit merge fuel h hd hf
  refine ⟨bvs', _, e, hs, ht, refit_shape _ _ _, fun Encl h1 h2 u hu p hp => ?_⟩
  obtain ⟨u', hu', rfl⟩ := below_refit hu
  rw [refit_prims] at hp
  have hsub : ∀ p ∈ u'.prims, p ∈ t.prims := below_prims hu'
  exact refit_encl' (fun p hp => h1 p (hsub p hp)) h2 p hp

/-- **C32.** Top-down refitting does the same: every volume is fitted to the primitives below its node. -/
theorem C32_topdown (h : IsTree bvs prims 0 0 n ids t) (hids : ids.Perm (List.range (2 * n - 1)))
    (hl : bvs.length = 2 * n - 1) (fit : List ℕ → V) :
    ∃ bvs' t', refitTopDown fit prims (2 * n - 1) 0 bvs = some bvs' ∧ SameTopology bvs bvs' ∧
      IsTree bvs' prims 0 0 n ids t' ∧ t'.shape = t.shape ∧ Fitted fit t' := by
  have hall : ∀ j m, bvs[j]? = some m → j ∈ ids := by
    intro j m hm
    rw [hids.mem_iff, List.mem_range, ← hl]
    exact (List.getElem?_eq_some_iff.1 hm).1
  obtain ⟨bvs', e, hs, hb⟩ := refitTopDown_spec fit prims (2 * n - 1) 0 bvs (by omega) (by
    intro j m _ hm
    obtain ⟨u, i, f, k, is, hu, e⟩ := h.of_slot (hall j m hm) hm
    rw [e.1, e.2, hu.range, hu.length])
  refine ⟨bvs', t.fitAll fit, e, hs, refitTopDown_tree fit h ?_, fitAll_shape _ _, fun u hu =>
    ⟨u.prims, .refl _, below_fitAll hu⟩⟩
  intro j m hj hm
  rw [hb j m hm, if_pos]
  refine ⟨by omega, ?_⟩
  rw [Nat.zero_add]
  exact List.mem_range.1 (hids.mem_iff.1 hj)

end C32

/-! ### C61: collision of two meshes -/

section C61
variable {K : Type*} [Field K] [LinearOrder K] [IsStrictOrderedRing K]

theorem meshLeaf_contacts (M : MeshPair K) (ho : M.occupied = true) (q : MeshRequest) (r : CollResult (ℕ × ℕ) K)
    (i j : ℕ) :
    ∃ k, (meshLeaf M q r i j).contacts = r.contacts ++ List.replicate k (i, j) ∧ (0 < k → M.Reports q i j) ∧
      (M.Reports q i j → r.contacts.length < q.req.numMax → 0 < k) ∧
      (r.contacts.length ≤ q.req.numMax → r.contacts.length + k ≤ q.req.numMax) ∧ (q.enableContact = false → k ≤ 1) := by
  have hcost : ∀ (b : Bool) (x : CollResult (ℕ × ℕ) K) (c : CostSource K) (m : ℕ),
      (if b then x.addCostSource c m else x).contacts = x.contacts := by
    intro b x c m; cases b <;> rfl
  have hadd : ∀ (n : ℕ) (x : CollResult (ℕ × ℕ) K),
      ((List.range n).foldl (fun r _ => r.addContact (i, j)) x).contacts = x.contacts ++ List.replicate n (i, j) := by
    intro n x
    induction n with
    | zero => simp
    | succ n ih => rw [List.range_succ, List.foldl_append, List.foldl_cons, List.foldl_nil, CollResult.addContact, ih,
        List.append_assoc, List.replicate_succ']
  simp only [meshLeaf, ho, if_true, hcost]
  simp only [meshContacts, MeshPair.Reports, CollResult.numContacts]
  cases hq : q.enableContact with
  | false =>
    simp only [Bool.not_false, if_true, Bool.false_eq_true, if_false]
    cases hh : M.hit i j with
    | false => exact ⟨0, by simp⟩
    | true =>
      by_cases hlt : r.contacts.length < q.req.numMax
      · refine ⟨1, ?_⟩
        simp [hlt, CollResult.addContact]
      · refine ⟨0, ?_⟩
        simp [hlt]
  | true =>
    simp only [Bool.not_true, Bool.false_eq_true, if_false, if_true]
    cases hh : M.hitC i j with
    | none => exact ⟨0, by simp⟩
    | some n =>
      simp only [hadd]
      refine ⟨min n (q.req.numMax - r.contacts.length), ?_, ?_, ?_, ?_, by simp⟩
      · congr 2
        by_cases h1 : q.req.numMax < n + r.contacts.length
        · by_cases h2 : q.req.numMax ≥ r.contacts.length
          · simp only [h1, h2, if_true]; omega
          · simp only [h1, h2, if_true, if_false]; omega
        · simp only [h1, if_false]; omega
      · intro h
        cases n with
        | zero => omega
        | succ n => exact ⟨n, rfl⟩
      · rintro ⟨m, hm⟩ hlt
        cases hm
        omega
      · intro hle
        omega

/-- The contacts after a number of leaf tests. -/
theorem meshFold_contacts (M : MeshPair K) (ho : M.occupied = true) (q : MeshRequest) (l : List (ℕ × ℕ))
    (r : CollResult (ℕ × ℕ) K) (hr : r.contacts.length ≤ q.req.numMax) :
    ∃ new, (l.foldl (fun r p => meshLeaf M q r p.1 p.2) r).contacts = r.contacts ++ new ∧
      (∀ c ∈ new, c ∈ l ∧ M.Reports q c.1 c.2) ∧ (r.contacts ++ new).length ≤ q.req.numMax ∧
      ((r.contacts ++ new).length < q.req.numMax → ∀ c ∈ l, M.Reports q c.1 c.2 → c ∈ new) ∧
      (q.enableContact = false → new.Sublist l) := by
  induction l generalizing r with
  | nil => exact ⟨[], by simp [hr]⟩
  | cons c l ih =>
    obtain ⟨k, e, h1, h2, h3, h4⟩ := meshLeaf_contacts M ho q r c.1 c.2
    obtain ⟨new, e', g1, g2, g3, g4⟩ := ih (meshLeaf M q r c.1 c.2) (by rw [e]; simp; exact h3 hr)
    rw [e] at e' g2 g3
    refine ⟨List.replicate k c ++ new, by simpa using e', ?_, by simpa using g2, ?_, ?_⟩
    · intro d hd
      rcases List.mem_append.1 hd with hd | hd
      · obtain ⟨hk, rfl⟩ := List.mem_replicate.1 hd
        exact ⟨by simp, h1 (Nat.pos_of_ne_zero hk)⟩
      · exact ⟨List.mem_cons_of_mem _ (g1 d hd).1, (g1 d hd).2⟩
    · intro hlt d hd hrep
      rcases List.mem_cons.1 hd with rfl | hd
      · refine List.mem_append_left _ (List.mem_replicate.2 ⟨?_, rfl⟩)
        have := h2 hrep (by simp at hlt; omega)
        omega
      · exact List.mem_append_right _ (g3 (by simpa using hlt) d hd hrep)
    · intro hq
      have := h4 hq
      have g := g4 hq
      interval_cases k
      · simpa using g.cons c
      · simpa using g

theorem collisionRecurse_front_none {σ A B : Type*} (N : ColNode σ A B) (T : Trav A B) (fuel : ℕ) (a : A) (b : B) (s : σ)
    {s' : σ} {F' : Front A B} (h : collisionRecurse N T fuel a b (s, none) = some (s', F')) : F' = none := by
  induction fuel generalizing a b s s' F' with
  | zero => simp [collisionRecurse] at h
  | succ fuel ih =>
    have key : ∀ (x : Option (σ × Front A B)) (g : σ × Front A B → Option (σ × Front A B)),
        (∀ s1 F1, x = some (s1, F1) → F1 = none) → (∀ s1 s2 F2, g (s1, none) = some (s2, F2) → F2 = none) →
        (match x with
          | none => none
          | some (s, F) => if N.canStop s && F.isNone then some (s, F) else g (s, F)) = some (s', F') → F' = none := by
      intro x g hx hg h
      cases x with
      | none => cases h
      | some y =>
        obtain ⟨s1, F1⟩ := y
        have := hx s1 F1 rfl
        subst this
        simp only at h
        split at h
        · cases h; rfl
        · exact hg _ _ _ h
    rw [collisionRecurse] at h
    simp only [Front.push, Option.map_none] at h
    split at h
    · split at h <;> cases h <;> rfl
    · split at h
      · cases h; rfl
      · split at h
        · exact key _ _ (fun _ _ e => ih _ _ _ e) (fun _ _ _ e => ih _ _ _ e) h
        · exact key _ _ (fun _ _ e => ih _ _ _ e) (fun _ _ _ e => ih _ _ _ e) h

/-- The two primitives of a pair of leaves. -/
def leafIds (p : BT V ℕ × BT V ℕ) : Option (ℕ × ℕ) :=
  match p.1, p.2 with
  | .leaf _ i, .leaf _ j => some (i, j)
  | _, _ => none

theorem meshNode_fold (overlap : V → V → Bool) (M : MeshPair K) (q : MeshRequest) (l : List (BT V ℕ × BT V ℕ))
    (r : CollResult (ℕ × ℕ) K) :
    l.foldl (fun s p => (meshNode overlap M q).leafTest s p.1 p.2) r =
      (l.filterMap leafIds).foldl (fun r p => meshLeaf M q r p.1 p.2) r := by
  induction l generalizing r with
  | nil => rfl
  | cons p l ih =>
    obtain ⟨a, b⟩ := p
    cases a <;> cases b <;> simp only [List.foldl_cons, List.filterMap_cons, leafIds, meshNode] <;> exact ih _

theorem leaves_leaf {P : Type*} (t : BT V P) : ∀ u ∈ t.leaves, ∃ bv p, u = .leaf bv p ∧ p ∈ t.prims ∧ BT.Below u t := by
  induction t with
  | leaf bv p => intro u hu; rw [List.mem_singleton.1 hu]; exact ⟨bv, p, rfl, by simp [BT.prims], .refl _⟩
  | node bv l r ihl ihr =>
    intro u hu
    rcases List.mem_append.1 hu with hu | hu
    · obtain ⟨v, p, e, h, hb⟩ := ihl u hu; exact ⟨v, p, e, List.mem_append_left _ h, .left hb⟩
    · obtain ⟨v, p, e, h, hb⟩ := ihr u hu; exact ⟨v, p, e, List.mem_append_right _ h, .right hb⟩

theorem leaf_of_prim {P : Type*} {t : BT V P} {p : P} (h : p ∈ t.prims) : ∃ bv, .leaf bv p ∈ t.leaves := by
  induction t with
  | leaf bv q => simp only [BT.prims, List.mem_singleton] at h; subst h; exact ⟨bv, by simp [BT.leaves]⟩
  | node bv l r ihl ihr =>
    rcases List.mem_append.1 h with h | h
    · obtain ⟨v, h⟩ := ihl h; exact ⟨v, List.mem_append_left _ h⟩
    · obtain ⟨v, h⟩ := ihr h; exact ⟨v, List.mem_append_right _ h⟩

theorem leafIds_pairs (a b : BT V ℕ) : (leafPairs a b).filterMap leafIds = a.prims ×ˢ b.prims := by
  have h2 : ∀ (bv : V) (i : ℕ) (b : BT V ℕ), (b.leaves.map (Prod.mk (BT.leaf bv i))).filterMap leafIds =
      b.prims.map (Prod.mk i) := by
    intro bv i b
    induction b with
    | leaf w j => rfl
    | node w l r ihl ihr => simp only [BT.leaves, BT.prims, List.map_append, List.filterMap_append, ihl, ihr]
  have h1 : ∀ l : List (BT V ℕ), l ×ˢ b.leaves = l.flatMap fun x => b.leaves.map (Prod.mk x) := fun l => rfl
  have h3 : ∀ l : List ℕ, l ×ˢ b.prims = l.flatMap fun x => b.prims.map (Prod.mk x) := fun l => rfl
  rw [leafPairs, h1, h3]
  induction a with
  | leaf bv i => simp only [BT.leaves, BT.prims, List.flatMap_cons, List.flatMap_nil, List.append_nil]; exact h2 bv i b
  | node bv l r ihl ihr =>
    simp only [BT.leaves, BT.prims, List.flatMap_append, List.filterMap_append, ihl, ihr]

section
variable {o : BVOps V K} {pts : V → Set (V3 K)} {g1 g2 : Geom K} {t1 t2 : BT V ℕ}

/-- The traversal of two hierarchies in which volumes above touching primitives overlap. -/
theorem mesh_collide_touch {overlap : V → V → Bool} {m1 m2 : ℕ} {touch : ℕ → ℕ → Prop}
    (hov : ∀ u, BT.Below u t1 → ∀ v, BT.Below v t2 → ∀ i ∈ u.prims, ∀ j ∈ v.prims, touch i j → overlap u.bv v.bv = true)
    (p1 : t1.prims.Perm (List.range m1)) (p2 : t2.prims.Perm (List.range m2))
    (larger : V → V → Bool) {fuel : ℕ} (hf : t1.depth + t2.depth < fuel) (M : MeshPair K) (ho : M.occupied = true)
    (q : MeshRequest) :
    ∃ r : CollResult (ℕ × ℕ) K, collisionRecurse (meshNode overlap M q) (Trav.bvh larger) fuel t1 t2 (CollResult.empty, none) = some (r, none) ∧
      (∀ c ∈ r.contacts, c.1 < m1 ∧ c.2 < m2 ∧ M.Reports q c.1 c.2) ∧
      r.contacts.length ≤ q.req.numMax ∧
      (r.contacts.length < q.req.numMax → ∀ i < m1, ∀ j < m2, touch i j → M.Reports q i j → (i, j) ∈ r.contacts) ∧
      (q.enableContact = false → r.contacts.Nodup) := by
  obtain ⟨todo, pruned, hperm, -, hpr, hrun⟩ := C33_collisionRecurse (meshNode overlap M q) (follows_bvh larger)
    (a := t1) (b := t2) trivial hf
  obtain ⟨done, rest, r, F', e, hdr, hr, hrest, -⟩ := hrun CollResult.empty none
  have hFn := collisionRecurse_front_none (meshNode overlap M q) (Trav.bvh larger) fuel t1 t2 CollResult.empty e
  subst hFn
  rw [meshNode_fold] at hr
  obtain ⟨new, hc, g1', g2', g3', g4'⟩ := meshFold_contacts M ho q (done.filterMap leafIds) CollResult.empty (Nat.zero_le _)
  rw [← hr] at hc
  simp only [CollResult.empty, List.nil_append] at hc g2' g3'
  have hids : (todo.filterMap leafIds ++ pruned.filterMap leafIds).Perm
      (List.range m1 ×ˢ List.range m2) := by
    rw [← List.filterMap_append]
    refine (hperm.filterMap leafIds).trans ?_
    rw [leafIds_pairs]
    exact p1.product p2
  have hdone : ∀ c ∈ done.filterMap leafIds, c ∈ List.range m1 ×ˢ List.range m2 := by
    intro c hc
    refine hids.mem_iff.1 (List.mem_append_left _ ?_)
    rw [← hdr, List.filterMap_append]
    exact List.mem_append_left _ hc
  refine ⟨r, e, ?_, by rw [hc]; exact g2', ?_, ?_⟩
  · intro c hcm
    rw [hc] at hcm
    obtain ⟨hm, hrep⟩ := g1' c hcm
    obtain ⟨ha, hb⟩ := List.pair_mem_product.1 (hdone c hm)
    exact ⟨List.mem_range.1 ha, List.mem_range.1 hb, hrep⟩
  · intro hlt i hi j hj htouch hrep
    have hnil : rest = [] := by
      by_contra hne
      have := (hrest hne).2
      simp only [meshNode, CollRequest.isSatisfied, Bool.and_eq_true, CollResult.numContacts] at this
      have := of_decide_eq_true this.2
      omega
    rw [hnil, List.append_nil] at hdr
    rw [hc]
    refine g3' (by rw [← hc]; exact hlt) (i, j) ?_ hrep
    obtain ⟨bv1, hl1⟩ := leaf_of_prim (p1.mem_iff.2 (List.mem_range.2 hi))
    obtain ⟨bv2, hl2⟩ := leaf_of_prim (p2.mem_iff.2 (List.mem_range.2 hj))
    have hmem : ((BT.leaf bv1 i, BT.leaf bv2 j) : BT V ℕ × BT V ℕ) ∈ todo ++ pruned :=
      hperm.mem_iff.2 (List.pair_mem_product.2 ⟨hl1, hl2⟩)
    rcases List.mem_append.1 hmem with h | h
    · rw [hdr]
      exact List.mem_filterMap.2 ⟨_, h, rfl⟩
    · exfalso
      obtain ⟨u, v, hu, hv, hp, hd⟩ := hpr _ h
      obtain ⟨ha, hb⟩ := List.pair_mem_product.1 hp
      obtain ⟨_, i', ei, hi', -⟩ := leaves_leaf u _ ha
      obtain ⟨_, j', ej, hj', -⟩ := leaves_leaf v _ hb
      cases ei; cases ej
      simp [meshNode, hov u hu v hv i hi' j hj' htouch] at hd
  · intro hq
    rw [hc]
    refine (g4' hq).nodup ?_
    have hnd : (todo.filterMap leafIds ++ pruned.filterMap leafIds).Nodup :=
      hids.nodup_iff.2 (List.nodup_range.product List.nodup_range)
    rw [← hdr, List.filterMap_append, List.append_assoc] at hnd
    exact (List.nodup_append.1 hnd).1


/-- ... and with a triangle test that reports exactly the touching pairs. -/
theorem mesh_collide_iff {overlap : V → V → Bool} {m1 m2 : ℕ} {touch : ℕ → ℕ → Prop}
    (hov : ∀ u, BT.Below u t1 → ∀ v, BT.Below v t2 → ∀ i ∈ u.prims, ∀ j ∈ v.prims, touch i j → overlap u.bv v.bv = true)
    (p1 : t1.prims.Perm (List.range m1)) (p2 : t2.prims.Perm (List.range m2))
    (larger : V → V → Bool) {fuel : ℕ} (hf : t1.depth + t2.depth < fuel) (M : MeshPair K) (ho : M.occupied = true)
    (q : MeshRequest) (hq : 0 < q.req.numMax) (hM : ∀ i < m1, ∀ j < m2, M.Reports q i j ↔ touch i j) :
    ∃ r : CollResult (ℕ × ℕ) K, collisionRecurse (meshNode overlap M q) (Trav.bvh larger) fuel t1 t2 (CollResult.empty, none) = some (r, none) ∧
      (r.isCollision = true ↔ ∃ i < m1, ∃ j < m2, touch i j) := by
  obtain ⟨r, e, a1, -, a3, -⟩ := mesh_collide_touch hov p1 p2 larger hf M ho q
  refine ⟨r, e, ?_⟩
  simp only [CollResult.isCollision, decide_eq_true_eq]
  constructor
  · intro h
    obtain ⟨c, hc⟩ := List.exists_mem_of_length_pos h
    obtain ⟨hi, hj, hrep⟩ := a1 c hc
    exact ⟨c.1, hi, c.2, hj, (hM _ hi _ hj).1 hrep⟩
  · rintro ⟨i, hi, j, hj, hx⟩
    by_contra hn
    have hz : r.contacts.length = 0 := by omega
    have := a3 (by omega) i hi j hj hx ((hM i hi j hj).2 hx)
    rw [List.length_eq_zero_iff.1 hz] at this
    cases this

/-- **C61.** Collision of two meshes, from hierarchies that enclose their primitives: for every rule to choose which
tree to descend, every request and every triangle test, the query ends; it reports only pairs of triangles that the
triangle test reports; at most `num_max_contacts`; and if it reports fewer, it reports every pair of triangles
that have a point in common and that the test reports. Without contact information no pair is reported twice. -/
theorem C61_mesh_collide (hs : o.Sound pts) (w1 : g1.WF) (w2 : g2.WF)
    (h1 : Enclosing (Encloses pts g1) t1) (h2 : Enclosing (Encloses pts g2) t2)
    (p1 : t1.prims.Perm (List.range g1.numPrims)) (p2 : t2.prims.Perm (List.range g2.numPrims))
    (larger : V → V → Bool) {fuel : ℕ} (hf : t1.depth + t2.depth < fuel) (M : MeshPair K) (ho : M.occupied = true)
    (q : MeshRequest) :
    ∃ r : CollResult (ℕ × ℕ) K, collisionRecurse (meshNode o.overlap M q) (Trav.bvh larger) fuel t1 t2 (CollResult.empty, none) = some (r, none) ∧
      (∀ c ∈ r.contacts, c.1 < g1.numPrims ∧ c.2 < g2.numPrims ∧ M.Reports q c.1 c.2) ∧
      r.contacts.length ≤ q.req.numMax ∧
      (r.contacts.length < q.req.numMax → ∀ i < g1.numPrims, ∀ j < g2.numPrims,
        (∃ x, x ∈ g1.solid i ∧ x ∈ g2.solid j) → M.Reports q i j → (i, j) ∈ r.contacts) ∧
      (q.enableContact = false → r.contacts.Nodup) :=
  mesh_collide_touch (fun u hu v hv i hi j hj ⟨x, hx1, hx2⟩ =>
    hs.overlap u.bv v.bv x ((h1 u hu i hi).now w1 hx1) ((h2 v hv j hj).now w2 hx2)) p1 p2 larger hf M ho q

/-- **C61.** With a triangle test that is exact, `collide` on two meshes finds a collision if and only if the meshes
have a point in common. -/
theorem C61_iff (hs : o.Sound pts) (w1 : g1.WF) (w2 : g2.WF)
    (h1 : Enclosing (Encloses pts g1) t1) (h2 : Enclosing (Encloses pts g2) t2)
    (p1 : t1.prims.Perm (List.range g1.numPrims)) (p2 : t2.prims.Perm (List.range g2.numPrims))
    (larger : V → V → Bool) {fuel : ℕ} (hf : t1.depth + t2.depth < fuel) (M : MeshPair K) (ho : M.occupied = true)
    (q : MeshRequest) (hq : 0 < q.req.numMax)
    (hM : ∀ i < g1.numPrims, ∀ j < g2.numPrims, M.Reports q i j ↔ ∃ x, x ∈ g1.solid i ∧ x ∈ g2.solid j) :
    ∃ r : CollResult (ℕ × ℕ) K, collisionRecurse (meshNode o.overlap M q) (Trav.bvh larger) fuel t1 t2 (CollResult.empty, none) = some (r, none) ∧
      (r.isCollision = true ↔ ∃ i < g1.numPrims, ∃ j < g2.numPrims, ∃ x, x ∈ g1.solid i ∧ x ∈ g2.solid j) :=
  mesh_collide_iff (fun u hu v hv i hi j hj ⟨x, hx1, hx2⟩ =>
    hs.overlap u.bv v.bv x ((h1 u hu i hi).now w1 hx1) ((h2 v hv j hj).now w2 hx2)) p1 p2 larger hf M ho q hq hM

/-- **C61.** From the arrays of two meshes to the answer: whatever splitters are used and whatever is in the arrays
before, building both hierarchies and running the query with an exact triangle test finds a collision if and only if
the meshes have a point in common. -/
theorem C61_built (hs : o.Sound pts) (w1 : g1.WF) (w2 : g2.WF) (n1 : 1 ≤ g1.numPrims) (n2 : 1 ≤ g2.numPrims)
    (right1 right2 : V → List ℕ → ℕ → Bool) {bvs1 bvs2 : List (BVNode V)} {prims1 prims2 : List ℕ}
    (b1 : 2 * g1.numPrims - 1 ≤ bvs1.length) (b2 : 2 * g2.numPrims - 1 ≤ bvs2.length)
    (l1 : g1.numPrims ≤ prims1.length) (l2 : g2.numPrims ≤ prims2.length) :
    ∃ s1 s2 t1 t2 ids1 ids2,
      buildTree (o.builder g1 right1) g1.numPrims g1.numPrims bvs1 prims1 = some s1 ∧
      buildTree (o.builder g2 right2) g2.numPrims g2.numPrims bvs2 prims2 = some s2 ∧
      IsTree s1.bvs s1.prims 0 0 g1.numPrims ids1 t1 ∧ IsTree s2.bvs s2.prims 0 0 g2.numPrims ids2 t2 ∧
      ∀ (larger : V → V → Bool) (M : MeshPair K) (q : MeshRequest), M.occupied = true → 0 < q.req.numMax →
        (∀ i < g1.numPrims, ∀ j < g2.numPrims, M.Reports q i j ↔ ∃ x, x ∈ g1.solid i ∧ x ∈ g2.solid j) →
        ∃ r : CollResult (ℕ × ℕ) K, collisionRecurse (meshNode o.overlap M q) (Trav.bvh larger)
            (g1.numPrims + g2.numPrims) t1 t2 (CollResult.empty, none) = some (r, none) ∧
          (r.isCollision = true ↔ ∃ i < g1.numPrims, ∃ j < g2.numPrims, ∃ x, x ∈ g1.solid i ∧ x ∈ g2.solid j) := by
  obtain ⟨v1, q1, t1, ids1, e1, -, -, i1, -, -, p1, d1, f1, -⟩ := C31_build (o.builder g1 right1) n1 le_rfl b1 l1
  obtain ⟨v2, q2, t2, ids2, e2, -, -, i2, -, -, p2, d2, f2, -⟩ := C31_build (o.builder g2 right2) n2 le_rfl b2 l2
  refine ⟨_, _, t1, t2, ids1, ids2, e1, e2, i1, i2, fun larger M q ho hq hM => ?_⟩
  exact C61_iff hs w1 w2 (C31_enclosing _ f1 fun l p hp => fit_encloses hs hp)
    (C31_enclosing _ f2 fun l p hp => fit_encloses hs hp) p1 p2 larger (by omega) M ho q hq hM

end

/-- **C32, C61.** After the vertices of a mesh were replaced, or moved with the old ones kept, bottom-up refitting gives
a hierarchy that encloses every triangle, at every time of the straight motion of the vertices: the hypothesis of
`C61_mesh_collide` and of `C61_iff`. -/
theorem C32_bottomup_mesh {o : BVOps V K} {pts : V → Set (V3 K)} (hs : o.Sound pts) (g : Geom K)
    {bvs : List (BVNode V)} {prims ids : List ℕ} {t : BT V ℕ} {n : ℕ} (h : IsTree bvs prims 0 0 n ids t)
    (hd : ids.Nodup) {fuel : ℕ} (hf : n ≤ fuel) :
    ∃ bvs' t', refitBottomUp (o.leafFit g) o.merge fuel 0 bvs = some bvs' ∧ SameTopology bvs bvs' ∧
      IsTree bvs' prims 0 0 n ids t' ∧ t'.prims = t.prims ∧ Enclosing (Encloses pts g) t' := by
  obtain ⟨bvs', t', e, hst, ht, hsh, hE⟩ := C32_bottomup h hd hf (o.leafFit g) o.merge
  exact ⟨bvs', t', e, hst, ht, by rw [← shape_prims, hsh, shape_prims],
    hE _ (fun p _ => leafFit_encloses hs p) fun _ _ _ => merge_encloses hs⟩

/-- **C32, C61.** The same for top-down refitting. -/
theorem C32_topdown_mesh {o : BVOps V K} {pts : V → Set (V3 K)} (hs : o.Sound pts) (g : Geom K)
    {bvs : List (BVNode V)} {prims ids : List ℕ} {t : BT V ℕ} {n : ℕ} (h : IsTree bvs prims 0 0 n ids t)
    (hids : ids.Perm (List.range (2 * n - 1))) (hl : bvs.length = 2 * n - 1) :
    ∃ bvs' t', refitTopDown (o.fit g) prims (2 * n - 1) 0 bvs = some bvs' ∧ SameTopology bvs bvs' ∧
      IsTree bvs' prims 0 0 n ids t' ∧ t'.prims = t.prims ∧ Enclosing (Encloses pts g) t' := by
  obtain ⟨bvs', t', e, hst, ht, hsh, hF⟩ := C32_topdown h hids hl (o.fit g)
  exact ⟨bvs', t', e, hst, ht, by rw [← shape_prims, hsh, shape_prims],
    C31_enclosing (o.builder g fun _ _ _ => true) hF fun l p hp => fit_encloses hs hp⟩

/-- **C32.** What `endModel` builds meets the hypotheses of both refit theorems: building for the vertices of `g` and
refitting for those of `g'` in either way gives a hierarchy that encloses the primitives of `g'`. -/
theorem C32_after_build {o : BVOps V K} {pts : V → Set (V3 K)} (hs : o.Sound pts) (g g' : Geom K)
    (right : V → List ℕ → ℕ → Bool) (hn : 1 ≤ g.numPrims) {bvs : List (BVNode V)} {prims : List ℕ}
    (hb : bvs.length = 2 * g.numPrims - 1) (hp : prims.length = 2 * g.numPrims - 1) :
    ∃ s ids, buildTree (o.builder g right) g.numPrims g.numPrims bvs prims = some s ∧
      (∃ bvs' t, refitBottomUp (o.leafFit g') o.merge g.numPrims 0 s.bvs = some bvs' ∧ SameTopology s.bvs bvs' ∧
        IsTree bvs' s.prims 0 0 g.numPrims ids t ∧ t.prims.Perm (List.range g.numPrims) ∧ Enclosing (Encloses pts g') t) ∧
      ∃ bvs' t, refitTopDown (o.fit g') s.prims s.numBvs 0 s.bvs = some bvs' ∧ SameTopology s.bvs bvs' ∧
        IsTree bvs' s.prims 0 0 g.numPrims ids t ∧ t.prims.Perm (List.range g.numPrims) ∧
        Enclosing (Encloses pts g') t := by
  obtain ⟨v, q, t, ids, e, hl, -, ht, hids, -, hpr, -, -, -⟩ :=
    C31_build (o.builder g right) hn le_rfl hb.ge (by omega : g.numPrims ≤ prims.length)
  refine ⟨_, ids, e, ?_, ?_⟩
  · obtain ⟨bvs', t', e', h1, h2, h3, h4⟩ := C32_bottomup_mesh hs g' ht (hids.nodup_iff.2 List.nodup_range) le_rfl
    exact ⟨bvs', t', e', h1, h2, h3 ▸ hpr, h4⟩
  · obtain ⟨bvs', t', e', h1, h2, h3, h4⟩ := C32_topdown_mesh hs g' ht hids (hl.trans hb)
    exact ⟨bvs', t', e', h1, h2, h3 ▸ hpr, h4⟩

end C61

/-! ### Concrete cases -/

section examples

/-- Three triangles: one near the origin, one at x = 10, one at x = 5. -/
def exGeom : Geom ℚ where
  verts := [⟨0, 0, 0⟩, ⟨1, 0, 0⟩, ⟨0, 1, 0⟩, ⟨10, 0, 0⟩, ⟨11, 0, 0⟩, ⟨10, 1, 0⟩, ⟨5, 0, 0⟩, ⟨6, 0, 0⟩, ⟨5, 1, 0⟩]
  prev := none
  tris := [(0, 1, 2), (3, 4, 5), (6, 7, 8)]

/-- A triangle through the third of them. -/
def exGeom2 : Geom ℚ where
  verts := [⟨5, 0, -1⟩, ⟨5, 0, 1⟩, ⟨6, 1, 1⟩]
  prev := some [⟨5, 0, 4⟩, ⟨5, 0, 6⟩, ⟨6, 1, 6⟩]
  tris := [(0, 1, 2)]

example : exGeom.WF ∧ exGeom2.WF := by
  refine ⟨⟨by decide, by decide⟩, ⟨by decide, ?_⟩⟩
  intro old h
  cases h
  rfl

/-- Split by the centre of the box on the x axis, as `computeRule_bvcenter` does; a primitive is represented by the
x coordinate of its first vertex. -/
def exRight (v : AABB ℚ) (_ : List ℕ) (p : ℕ) : Bool :=
  match exGeom.primVerts p with
  | x :: _ => decide (x.x > (v.lo.x + v.hi.x) / 2)
  | [] => false

def exBuild : Option (Built (AABB ℚ)) :=
  buildTree ((aabbOps 1000 (-1000)).builder exGeom exRight) 3 3 (List.replicate 5 ⟨⟨⟨7, 7, 7⟩, ⟨7, 7, 7⟩⟩, 9, 9, 9⟩)
    [8, 8, 8, 8, 8]

/-- The splitter separates triangle 1 from 0 and 2, then 2 from 0. -/
example : exBuild = some ⟨[⟨⟨⟨0, 0, 0⟩, ⟨11, 1, 0⟩⟩, 0, 3, 1⟩, ⟨⟨⟨0, 0, 0⟩, ⟨6, 1, 0⟩⟩, 0, 2, 3⟩,
    ⟨⟨⟨10, 0, 0⟩, ⟨11, 1, 0⟩⟩, 2, 1, -2⟩, ⟨⟨⟨0, 0, 0⟩, ⟨1, 1, 0⟩⟩, 0, 1, -1⟩, ⟨⟨⟨5, 0, 0⟩, ⟨6, 1, 0⟩⟩, 1, 1, -3⟩], 5,
    [0, 2, 1, 8, 8]⟩ := by decide +kernel

/-- The hypotheses of `C61_built` are met by this mesh and the other one. -/
example := C61_built (aabb_sound (1000 : ℚ) (-1000)) (g1 := exGeom) (g2 := exGeom2)
  ⟨by decide, by decide⟩ ⟨by decide, fun _ h => by cases h; rfl⟩ (by decide) (by decide) exRight exRight
  (bvs1 := List.replicate 5 ⟨⟨⟨7, 7, 7⟩, ⟨7, 7, 7⟩⟩, 9, 9, 9⟩) (bvs2 := [⟨⟨⟨7, 7, 7⟩, ⟨7, 7, 7⟩⟩, 9, 9, 9⟩])
  (prims1 := [8, 8, 8, 8, 8]) (prims2 := [8]) (by decide) (by decide) (by decide) (by decide)

/-- The two meshes do have a common point: (5, 0, 0), in triangle 2 of the first and triangle 0 of the second. -/
example : (⟨5, 0, 0⟩ : V3 ℚ) ∈ exGeom.solid 2 ∧ (⟨5, 0, 0⟩ : V3 ℚ) ∈ exGeom2.solid 0 := by
  have e1 : (exGeom.primIdx 2).filterMap (exGeom.verts[·]?) = [⟨5, 0, 0⟩, ⟨6, 0, 0⟩, ⟨5, 1, 0⟩] := by decide +kernel
  have e2 : (exGeom2.primIdx 0).filterMap (exGeom2.verts[·]?) = [⟨5, 0, -1⟩, ⟨5, 0, 1⟩, ⟨6, 1, 1⟩] := by decide +kernel
  constructor
  · show HullOf _ _
    rw [e1]
    exact .pt (by simp)
  · show HullOf _ _
    rw [e2, hull_triangle]
    exact ⟨1 / 2, 1 / 2, 0, by norm_num, by norm_num, by norm_num, by norm_num, V3.ext' (by norm_num) (by norm_num) (by norm_num)⟩

end examples
end Fcl
