import Verif.BVH.Lemmas

/-! # Lemmas on refitting -/

namespace Fcl
set_option linter.unusedSectionVars false
variable {V : Type*}

/-- Bottom-up refitting, on the tree. -/
def BT.refit (leafFit : ℕ → V) (merge : V → V → V) : BT V ℕ → BT V ℕ
  | .leaf _ p => .leaf (leafFit p) p
  | .node _ l r => .node (merge (l.refit leafFit merge).bv (r.refit leafFit merge).bv) (l.refit leafFit merge)
      (r.refit leafFit merge)

theorem refit_shape (leafFit : ℕ → V) (merge : V → V → V) (t : BT V ℕ) :
    (t.refit leafFit merge).shape = t.shape := by
  induction t with
  | leaf => rfl
  | node bv l r ihl ihr => simp [BT.refit, BT.shape, ihl, ihr]

theorem shape_prims {P : Type*} (t : BT V P) : t.shape.prims = t.prims := by
  induction t with
  | leaf => rfl
  | node bv l r ihl ihr => simp [BT.shape, BT.prims, ihl, ihr]

theorem refit_prims (leafFit : ℕ → V) (merge : V → V → V) (t : BT V ℕ) : (t.refit leafFit merge).prims = t.prims := by
  rw [← shape_prims, refit_shape, shape_prims]

theorem below_refit {leafFit : ℕ → V} {merge : V → V → V} {t u : BT V ℕ} (h : BT.Below u (t.refit leafFit merge)) :
    ∃ u', BT.Below u' t ∧ u = u'.refit leafFit merge := by
  induction t with
  | leaf bv p =>
    cases h with
    | refl => exact ⟨_, .refl _, rfl⟩
  | node bv l r ihl ihr =>
    cases h with
    | refl => exact ⟨_, .refl _, rfl⟩
    | left h => obtain ⟨u', h1, h2⟩ := ihl h; exact ⟨u', .left h1, h2⟩
    | right h => obtain ⟨u', h1, h2⟩ := ihr h; exact ⟨u', .right h1, h2⟩

theorem refit_encl' {Encl : V → ℕ → Prop} {leafFit : ℕ → V} {merge : V → V → V} {t : BT V ℕ}
    (h1 : ∀ p ∈ t.prims, Encl (leafFit p) p) (h2 : ∀ a b p, Encl a p ∨ Encl b p → Encl (merge a b) p) :
    ∀ p ∈ t.prims, Encl (t.refit leafFit merge).bv p := by
  induction t with
  | leaf bv q => intro p hp; have := h1 p hp; simp [BT.prims] at hp; subst hp; exact this
  | node bv l r ihl ihr =>
    intro p hp
    rcases List.mem_append.1 hp with hp | hp
    · exact h2 _ _ p (Or.inl (ihl (fun p hp => h1 p (List.mem_append_left _ hp)) p hp))
    · exact h2 _ _ p (Or.inr (ihr (fun p hp => h1 p (List.mem_append_right _ hp)) p hp))

theorem below_prims {P : Type*} {t u : BT V P} (h : BT.Below u t) : ∀ p ∈ u.prims, p ∈ t.prims := by
  induction h with
  | refl => exact fun _ h => h
  | left _ ih => exact fun p hp => List.mem_append_left _ (ih p hp)
  | right _ ih => exact fun p hp => List.mem_append_right _ (ih p hp)

section
variable {bvs : List (BVNode V)} {prims : List ℕ} {id first num : ℕ} {ids : List ℕ} {t : BT V ℕ}

theorem IsTree.id_mem (h : IsTree bvs prims id first num ids t) : id ∈ ids := by cases h <;> simp

theorem IsTree.ids_lt (h : IsTree bvs prims id first num ids t) : ∀ i ∈ ids, i < bvs.length := by
  have key : ∀ {i : ℕ} {n : BVNode V}, bvs[i]? = some n → i < bvs.length := fun e => (List.getElem?_eq_some_iff.1 e).1
  induction h with
  | leaf hn => simpa using key hn
  | node hn _ _ _ ihl ihr =>
    intro i hi
    simp only [List.mem_cons, List.mem_append] at hi
    rcases hi with rfl | hi | hi
    · exact key hn
    · exact ihl i hi
    · exact ihr i hi

theorem IsTree.bv (h : IsTree bvs prims id first num ids t) : ∃ n, bvs[id]? = some n ∧ n.bv = t.bv := by
  cases h with
  | leaf hn => exact ⟨_, hn, rfl⟩
  | node hn => exact ⟨_, hn, rfl⟩

/-- The tree at a node has at most as many steps as primitives. -/
theorem IsTree.depth_lt (h : IsTree bvs prims id first num ids t) : t.depth < num := by
  induction h with
  | leaf => simp [BT.depth]
  | node _ hl hr _ ihl ihr =>
    have := hl.pos
    have := hr.pos
    simp only [BT.depth]
    omega

/-- The entries of `primitive_indices` of a node are the primitives below it. -/
theorem IsTree.range (h : IsTree bvs prims id first num ids t) : (prims.drop first).take num = t.prims := by
  induction h with
  | @leaf id first bv p hn hp =>
    obtain ⟨hlt, e⟩ := List.getElem?_eq_some_iff.1 hp
    rw [List.drop_eq_getElem_cons hlt, e]; rfl
  | @node id first num n1 n2 c ids1 ids2 bv l r hn hl hr hnum ihl ihr =>
    rw [hnum, List.take_add, ihl, List.drop_drop, ihr]; rfl

/-- A node of the tree is a slot with its range. -/
theorem IsTree.of_below (h : IsTree bvs prims id first num ids t) {u : BT V ℕ} (hu : BT.Below u t) :
    ∃ i f n is, IsTree bvs prims i f n is u ∧ i ∈ ids := by
  induction h with
  | @leaf id first bv p hn hp =>
    cases hu with
    | refl => exact ⟨_, _, _, _, .leaf hn hp, by simp⟩
  | @node id first num n1 n2 c ids1 ids2 bv l r hn hl hr hnum ihl ihr =>
    cases hu with
    | refl => exact ⟨_, _, _, _, .node hn hl hr hnum, by simp⟩
    | left hu => obtain ⟨i, f, n, is, h, hi⟩ := ihl hu; exact ⟨i, f, n, is, h, by simp [hi]⟩
    | right hu => obtain ⟨i, f, n, is, h, hi⟩ := ihr hu; exact ⟨i, f, n, is, h, by simp [hi]⟩

theorem IsTree.length (h : IsTree bvs prims id first num ids t) : t.prims.length = num := by
  induction h with
  | leaf => rfl
  | node _ _ _ hnum ihl ihr => rw [BT.prims, List.length_append, ihl, ihr, hnum]

/-- A slot used by the tree holds a node of it. -/
theorem IsTree.of_slot (h : IsTree bvs prims id first num ids t) {j : ℕ} (hj : j ∈ ids) {m : BVNode V}
    (hm : bvs[j]? = some m) :
    ∃ u i f k is, IsTree bvs prims i f k is u ∧ (m.firstPrimitive = f ∧ m.numPrimitives = k) := by
  induction h with
  | @leaf id first bv p hn hp =>
    rw [List.mem_singleton.1 hj, hn] at hm
    exact ⟨_, _, _, _, _, .leaf hn hp, by rw [← Option.some.inj hm]; exact ⟨rfl, rfl⟩⟩
  | @node id first num n1 n2 c ids1 ids2 bv l r hn hl hr hnum ihl ihr =>
    simp only [List.mem_cons, List.mem_append] at hj
    rcases hj with rfl | hj | hj
    · rw [hn] at hm
      exact ⟨_, _, _, _, _, .node hn hl hr hnum, by rw [← Option.some.inj hm]; exact ⟨rfl, rfl⟩⟩
    · exact ihl hj
    · exact ihr hj

end

theorem SameTopology.refl (bvs : List (BVNode V)) : SameTopology bvs bvs := ⟨rfl, fun _ n h => ⟨n, h, rfl, rfl, rfl⟩⟩

theorem SameTopology.trans {a b c : List (BVNode V)} (h : SameTopology a b) (g : SameTopology b c) :
    SameTopology a c := by
  refine ⟨g.1.trans h.1, fun i n' hn' => ?_⟩
  obtain ⟨n, hn, e1, e2, e3⟩ := g.2 i n' hn'
  obtain ⟨m, hm, e4, e5, e6⟩ := h.2 i n hn
  exact ⟨m, hm, e1.trans e4, e2.trans e5, e3.trans e6⟩

theorem SameTopology.set {bvs : List (BVNode V)} {i : ℕ} {n : BVNode V} (h : bvs[i]? = some n) (v : V) :
    SameTopology bvs (bvs.set i { n with bv := v }) := by
  refine ⟨by simp, fun j n' hn' => ?_⟩
  by_cases hij : i = j
  · subst hij
    rw [List.getElem?_set_self (List.getElem?_eq_some_iff.1 h).1] at hn'
    refine ⟨n, h, ?_⟩
    rw [← Option.some.inj hn']
    exact ⟨rfl, rfl, rfl⟩
  · rw [List.getElem?_set_ne hij] at hn'
    exact ⟨n', hn', rfl, rfl, rfl⟩

theorem refitBottomUp_spec (leafFit : ℕ → V) (merge : V → V → V) {prims : List ℕ} (fuel : ℕ) {bvs : List (BVNode V)}
    {id first num : ℕ} {ids : List ℕ} {t : BT V ℕ} (h : IsTree bvs prims id first num ids t) (hn : ids.Nodup)
    (hf : num ≤ fuel) :
    ∃ bvs', refitBottomUp leafFit merge fuel id bvs = some bvs' ∧ SameTopology bvs bvs' ∧
      (∀ j, j ∉ ids → bvs'[j]? = bvs[j]?) ∧ IsTree bvs' prims id first num ids (t.refit leafFit merge) := by
  induction fuel generalizing bvs id first num ids t with
  | zero => have := h.pos; omega
  | succ fuel ih =>
    cases h with
    | @leaf _ _ bv p hnode hp =>
      have hlt := (List.getElem?_eq_some_iff.1 hnode).1
      have hleaf : (BVNode.isLeaf ⟨bv, first, 1, -((p : ℤ) + 1)⟩ : Bool) = true := by
        simp only [BVNode.isLeaf, decide_eq_true_eq]; omega
      have hid : (BVNode.primitiveId (⟨bv, first, 1, -((p : ℤ) + 1)⟩ : BVNode V)).toNat = p := by
        simp only [BVNode.primitiveId]; omega
      refine ⟨bvs.set id ⟨leafFit p, first, 1, -((p : ℤ) + 1)⟩, ?_, .set hnode _, ?_, ?_⟩
      · simp only [refitBottomUp, hnode, hleaf, if_true, hid]
      · intro j hj
        rw [List.getElem?_set_ne (by rintro rfl; simp at hj)]
      · exact .leaf (by rw [List.getElem?_set_self hlt]) hp
    | @node _ _ _ n1 n2 c ids1 ids2 bv l r hnode hl hr hnum =>
      have hp1 := hl.pos
      have hp2 := hr.pos
      rw [List.nodup_cons, List.nodup_append] at hn
      obtain ⟨hid, hn1, hn2, hdisj⟩ := hn
      simp only [List.mem_append, not_or] at hid
      have hleaf : (BVNode.isLeaf ⟨bv, first, num, (c : ℤ)⟩ : Bool) = false := by
        simp only [BVNode.isLeaf, decide_eq_false_iff_not]; omega
      have hc1 : (BVNode.leftChild (⟨bv, first, num, (c : ℤ)⟩ : BVNode V)).toNat = c := by
        simp only [BVNode.leftChild]; omega
      have hc2 : (BVNode.rightChild (⟨bv, first, num, (c : ℤ)⟩ : BVNode V)).toNat = c + 1 := by
        simp only [BVNode.rightChild]; omega
      obtain ⟨b1, e1, s1, f1, t1⟩ := ih hl hn1 (by omega)
      have hr1 : IsTree b1 prims (c + 1) (first + n1) n2 ids2 r :=
        hr.congr (fun i hi => f1 i fun h => hdisj i h i hi rfl) fun _ _ _ => rfl
      obtain ⟨b2, e2, s2, f2, t2⟩ := ih hr1 hn2 (by omega)
      have t1' : IsTree b2 prims c first n1 ids1 (l.refit leafFit merge) :=
        t1.congr (fun i hi => f2 i fun h => hdisj i hi i h rfl) fun _ _ _ => rfl
      obtain ⟨nl, gl, bl⟩ := t1'.bv
      obtain ⟨nr, gr, br⟩ := t2.bv
      have hnode2 : b2[id]? = some ⟨bv, first, num, (c : ℤ)⟩ := by
        rw [f2 id hid.2, f1 id hid.1]; exact hnode
      have hlt := (List.getElem?_eq_some_iff.1 hnode2).1
      refine ⟨b2.set id ⟨merge (l.refit leafFit merge).bv (r.refit leafFit merge).bv, first, num, (c : ℤ)⟩, ?_,
        (s1.trans s2).trans (.set hnode2 _), ?_, ?_⟩
      · simp only [refitBottomUp, hnode, hleaf, Bool.false_eq_true, if_false, hc1, hc2, e1, e2, gl, gr, bl, br]
      · intro j hj
        simp only [List.mem_cons, List.mem_append, not_or] at hj
        rw [List.getElem?_set_ne (by intro h; exact hj.1 h.symm), f2 j hj.2.2, f1 j hj.2.1]
      · refine .node (by rw [List.getElem?_set_self hlt]) ?_ ?_ hnum
        · exact t1'.congr (fun i hi => by rw [List.getElem?_set_ne (by rintro rfl; exact hid.1 hi)]) fun _ _ _ => rfl
        · exact t2.congr (fun i hi => by rw [List.getElem?_set_ne (by rintro rfl; exact hid.2 hi)]) fun _ _ _ => rfl

/-- Top-down refitting, on the tree. -/
def BT.fitAll (fit : List ℕ → V) : BT V ℕ → BT V ℕ
  | .leaf _ p => .leaf (fit [p]) p
  | .node _ l r => .node (fit (l.prims ++ r.prims)) (l.fitAll fit) (r.fitAll fit)

theorem fitAll_shape (fit : List ℕ → V) (t : BT V ℕ) : (t.fitAll fit).shape = t.shape := by
  induction t with
  | leaf => rfl
  | node bv l r ihl ihr => simp [BT.fitAll, BT.shape, ihl, ihr]

theorem fitAll_prims (fit : List ℕ → V) (t : BT V ℕ) : (t.fitAll fit).prims = t.prims := by
  rw [← shape_prims, fitAll_shape, shape_prims]

theorem below_fitAll {fit : List ℕ → V} {t u : BT V ℕ} (h : BT.Below u (t.fitAll fit)) : u.bv = fit u.prims := by
  induction t with
  | leaf bv p =>
    cases h with
    | refl => rfl
  | node bv l r ihl ihr =>
    cases h with
    | refl => simp [BT.fitAll, BT.bv, BT.prims, fitAll_prims]
    | left h => exact ihl h
    | right h => exact ihr h

theorem refitTopDown_spec (fit : List ℕ → V) (prims : List ℕ) (k i : ℕ) (bvs : List (BVNode V))
    (hk : i + k ≤ bvs.length)
    (hok : ∀ j n, i ≤ j → bvs[j]? = some n → ((prims.drop n.firstPrimitive).take n.numPrimitives).length = n.numPrimitives) :
    ∃ bvs', refitTopDown fit prims k i bvs = some bvs' ∧ SameTopology bvs bvs' ∧
      ∀ j n, bvs[j]? = some n → bvs'[j]? = some (if i ≤ j ∧ j < i + k then
        { n with bv := fit ((prims.drop n.firstPrimitive).take n.numPrimitives) } else n) := by
  induction k generalizing i bvs with
  | zero =>
    refine ⟨bvs, rfl, .refl _, fun j n h => ?_⟩
    rw [if_neg (by omega), h]
  | succ k ih =>
    have hlt : i < bvs.length := by omega
    have hi : bvs[i]? = some bvs[i] := List.getElem?_eq_getElem hlt
    have hlen := hok i _ (le_refl i) hi
    obtain ⟨bvs', e, s, h⟩ := ih (i + 1) (bvs.set i { bvs[i] with
        bv := fit ((prims.drop bvs[i].firstPrimitive).take bvs[i].numPrimitives) }) (by simp; omega) (by
      intro j n hj hn
      rw [List.getElem?_set_ne (by omega)] at hn
      exact hok j n (by omega) hn)
    refine ⟨bvs', ?_, (SameTopology.set hi _).trans s, ?_⟩
    · simp only [refitTopDown, hi, hlen, ne_eq, not_true_eq_false, if_false]
      exact e
    · intro j n hn
      by_cases hij : j = i
      · subst hij
        have := h j _ (List.getElem?_set_self hlt)
        rw [this, if_neg (by omega), if_pos (by omega)]
        rw [hi] at hn
        rw [← Option.some.inj hn]
      · rw [h j n (by rw [List.getElem?_set_ne (by omega)]; exact hn)]
        congr 1
        by_cases hc : i + 1 ≤ j ∧ j < i + 1 + k
        · rw [if_pos hc, if_pos (by omega)]
        · rw [if_neg hc, if_neg (by omega)]

theorem refitTopDown_tree (fit : List ℕ → V) {prims : List ℕ} {bvs bvs' : List (BVNode V)} {id first num : ℕ}
    {ids : List ℕ} {t : BT V ℕ} (h : IsTree bvs prims id first num ids t)
    (hb : ∀ j n, j ∈ ids → bvs[j]? = some n →
      bvs'[j]? = some { n with bv := fit ((prims.drop n.firstPrimitive).take n.numPrimitives) }) :
    IsTree bvs' prims id first num ids (t.fitAll fit) := by
  induction h with
  | @leaf id first bv p hn hp =>
    have hr := (IsTree.leaf hn hp).range
    have := hb id _ (by simp) hn
    simp only at this
    rw [hr] at this
    exact .leaf this hp
  | @node id first num n1 n2 c ids1 ids2 bv l r hn hl hr hnum ihl ihr =>
    have hr' := (IsTree.node hn hl hr hnum).range
    have := hb id _ (by simp) hn
    simp only at this
    rw [hr'] at this
    exact .node this (ihl fun j n hj => hb j n (by simp [hj])) (ihr fun j n hj => hb j n (by simp [hj])) hnum

end Fcl
