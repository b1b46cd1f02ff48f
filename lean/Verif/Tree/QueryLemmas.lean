import Verif.Tree.Refine
import Verif.Base.DistCallback
import Mathlib.Tactic.Common

/-! The recursive queries in terms of the leaves. -/

namespace Fcl
set_option linter.unusedSimpArgs false

theorem product_cons' {α β : Type*} (a : α) (l : List α) (m : List β) :
    (a :: l).product m = m.map (fun b => (a, b)) ++ l.product m := rfl

theorem product_nil_right {α β : Type*} (l : List α) : l.product ([] : List β) = [] := by
  induction l with
  | nil => rfl
  | cons a l ih => exact ih

theorem product_nil_left {α β : Type*} (l : List β) : ([] : List α).product l = [] := rfl

theorem pairsUp_append {α : Type*} (l m : List α) :
    (pairsUp (l ++ m)).Perm (pairsUp l ++ (pairsUp m ++ l.product m)) := by
  induction l with
  | nil => simp [pairsUp, List.product]
  | cons a l ih =>
    simp only [List.cons_append, pairsUp, List.map_append, product_cons']
    simp only [List.append_assoc]
    apply List.Perm.append_left
    refine (List.Perm.append_left _ ih).trans ?_
    refine List.perm_append_comm_assoc _ _ _ |>.trans ?_
    apply List.Perm.append_left
    exact List.perm_append_comm_assoc _ _ _

theorem product_append_left {α β : Type*} (l l' : List α) (m : List β) :
    (l ++ l').product m = l.product m ++ l'.product m := by
  simp [List.product, List.flatMap_append]

theorem product_append_right {α β : Type*} (l : List α) (m m' : List β) :
    (l.product (m ++ m')).Perm (l.product m ++ l.product m') := by
  induction l with
  | nil => simp [List.product]
  | cons a l ih =>
    simp only [product_cons', List.map_append, List.append_assoc]
    apply List.Perm.append_left
    exact (List.Perm.append_left _ ih).trans (List.perm_append_comm_assoc _ _ _)

/-- Mapping over permuted base lists. -/
theorem pairsUp_map {α β : Type*} (f : α → β) (l : List α) :
    pairsUp (l.map f) = (pairsUp l).map (fun p => (f p.1, f p.2)) := by
  induction l with
  | nil => rfl
  | cons a l ih => simp [pairsUp, ih, List.map_append, List.map_map, Function.comp_def]

theorem product_map {α β γ δ : Type*} (f : α → γ) (g : β → δ) (l : List α) (m : List β) :
    (l.map f).product (m.map g) = (l.product m).map (fun p => (f p.1, g p.2)) := by
  simp [List.product, List.flatMap_map, List.map_flatMap, List.map_map, Function.comp_def]

theorem product_perm {α β : Type*} {l l' : List α} {m m' : List β} (h : l.Perm l') (h' : m.Perm m') :
    (l.product m).Perm (l'.product m') := by
  unfold List.product
  refine (h.flatMap_right _).trans ?_
  apply List.Perm.flatMap_left
  intro a _
  exact h'.map _

namespace HTree
variable {K O : Type*} [LinearOrder K]

/-- Boxes disjoint at a node: nothing below overlaps the query. -/
theorem Enc.filter_nil {t : HTree K O} (h : t.Enc) {qb : AABB K} (hn : t.bv.overlap qb = false) :
    t.leaves.filter (fun x => x.2.1.overlap qb) = [] := by
  rw [List.filter_eq_nil_iff]
  intro x hx ho
  have h1 := AABB.overlap_mono (h.contain_leaf x hx) (AABB.contain_refl qb) ho
  rw [hn] at h1; exact absurd h1 (by simp)

theorem Enc.product_nil {t u : HTree K O} (h : t.Enc) (h' : u.Enc) (hn : t.bv.overlap u.bv = false) :
    (t.leaves.product u.leaves).filter (fun p => p.1.2.1.overlap p.2.2.1) = [] := by
  rw [List.filter_eq_nil_iff]
  intro p hp ho
  obtain ⟨h1, h2⟩ := List.mem_product.1 hp
  have h1 := AABB.overlap_mono (h.contain_leaf p.1 h1) (h'.contain_leaf p.2 h2) ho
  rw [hn] at h1; exact absurd h1 (by simp)

theorem collideQ_spec.{v} (cfg : Cfg K O) (q : O) (qb : AABB K) (t : HTree K O) (h : t.Enc) :
    ∃ ps : List (O × O),
      ps.Perm ((t.leaves.filter (fun x => x.2.1.overlap qb)).map (fun x => (x.2.2, q))) ∧
      ∀ (σ : Type v) (cb : CB σ O) (s : σ), collideQ cfg cb q qb t s = runUntil cb s ps := by
  induction t with
  | leaf i b o =>
    cases hb : b.overlap qb with
    | false => exact ⟨[], by simp [leaves, hb], by simp [collideQ, hb]⟩
    | true => exact ⟨[(o, q)], by simp [leaves, hb], by simp [collideQ, hb, runUntil_singleton]⟩
  | node b l r ihl ihr =>
    cases hb : b.overlap qb with
    | false =>
      refine ⟨[], ?_, by simp [collideQ, hb]⟩
      rw [h.filter_nil hb]; simp
    | true =>
      obtain ⟨pl, hl1, hl2⟩ := ihl h.2.2.1
      obtain ⟨pr, hr1, hr2⟩ := ihr h.2.2.2
      by_cases hs : cfg.select qb l.bv r.bv
      · refine ⟨pr ++ pl, ?_, ?_⟩
        · simp only [leaves, List.filter_append, List.map_append]
          exact List.perm_append_comm.trans (hl1.append hr1)
        · intro σ cb s
          simp only [collideQ, hb, hs, Bool.not_true, Bool.false_eq_true, if_false, if_true, hl2, hr2,
            runUntil_append]
          congr 1
          funext s; rw [hl2]
      · refine ⟨pl ++ pr, ?_, ?_⟩
        · simp only [leaves, List.filter_append, List.map_append]
          exact hl1.append hr1
        · intro σ cb s
          simp only [collideQ, hb, hs, Bool.not_true, Bool.false_eq_true, if_false, hl2, hr2,
            runUntil_append]
          congr 1
          funext s; rw [hr2]

/-- Overlapping pairs of leaves of two trees. -/
def cross (t u : HTree K O) : List (O × O) :=
  ((t.leaves.product u.leaves).filter (fun p => p.1.2.1.overlap p.2.2.1)).map (fun p => (p.1.2.2, p.2.2.2))

theorem cross_node_left (b : AABB K) (l r u : HTree K O) :
    (cross (node b l r) u) = cross l u ++ cross r u := by
  simp [cross, leaves, product_append_left, List.filter_append]

theorem cross_node_right (t : HTree K O) (b : AABB K) (l r : HTree K O) :
    (cross t (node b l r)).Perm (cross t l ++ cross t r) := by
  unfold cross
  rw [← List.map_append, ← List.filter_append]
  exact ((product_append_right _ _ _).filter _).map _

theorem collideT_spec.{v} (cfg : Cfg K O) (t u : HTree K O) (h : t.Enc) (h' : u.Enc) :
    ∃ ps : List (O × O), ps.Perm (cross t u) ∧
      ∀ (σ : Type v) (cb : CB σ O) (s : σ), collideT cfg cb t u s = runUntil cb s ps := by
  have empty : t.bv.overlap u.bv = false → cross t u = [] := by
    intro hb; unfold cross; rw [h.product_nil h' hb]; rfl
  match t, u with
  | leaf i b o, leaf i' b' o' =>
    cases hb : b.overlap b' with
    | false =>
      refine ⟨[], ?_, ?_⟩
      · rw [empty hb]
      · intro σ cb s; unfold collideT; simp [hb]
    | true =>
      refine ⟨[(o, o')], ?_, ?_⟩
      · simp [cross, leaves, List.product, hb]
      · intro σ cb s; unfold collideT; simp [hb, runUntil_singleton]
  | node b l r, leaf i' b' o' =>
    cases hb : b.overlap b' with
    | false =>
      refine ⟨[], ?_, ?_⟩
      · rw [empty hb]
      · intro σ cb s; unfold collideT; simp [hb]
    | true =>
      obtain ⟨pl, hl1, hl2⟩ := collideT_spec cfg l (leaf i' b' o') h.2.2.1 h'
      obtain ⟨pr, hr1, hr2⟩ := collideT_spec cfg r (leaf i' b' o') h.2.2.2 h'
      refine ⟨pl ++ pr, ?_, ?_⟩
      · rw [cross_node_left]; exact hl1.append hr1
      · intro σ cb s
        unfold collideT
        simp only [hb, Bool.not_true, Bool.false_eq_true, if_false, hl2, hr2, runUntil_append]
        congr 1
        funext s; rw [hr2]
  | leaf i b o, node b' l r =>
    cases hb : b.overlap b' with
    | false =>
      refine ⟨[], ?_, ?_⟩
      · rw [empty hb]
      · intro σ cb s; unfold collideT; simp [hb]
    | true =>
      obtain ⟨pl, hl1, hl2⟩ := collideT_spec cfg (leaf i b o) l h h'.2.2.1
      obtain ⟨pr, hr1, hr2⟩ := collideT_spec cfg (leaf i b o) r h h'.2.2.2
      refine ⟨pl ++ pr, (hl1.append hr1).trans (cross_node_right _ _ _ _).symm, ?_⟩
      intro σ cb s
      unfold collideT
      simp only [hb, Bool.not_true, Bool.false_eq_true, if_false, hl2, hr2, runUntil_append]
      congr 1
      funext s; rw [hr2]
  | node b l r, node b' l' r' =>
    cases hb : b.overlap b' with
    | false =>
      refine ⟨[], ?_, ?_⟩
      · rw [empty hb]
      · intro σ cb s; unfold collideT; simp [hb]
    | true =>
      by_cases hg : cfg.bigger b b'
      · obtain ⟨pl, hl1, hl2⟩ := collideT_spec cfg l (node b' l' r') h.2.2.1 h'
        obtain ⟨pr, hr1, hr2⟩ := collideT_spec cfg r (node b' l' r') h.2.2.2 h'
        refine ⟨pl ++ pr, ?_, ?_⟩
        · rw [cross_node_left]; exact hl1.append hr1
        · intro σ cb s
          unfold collideT
          simp only [hb, hg, Bool.not_true, Bool.false_eq_true, if_false, if_true, hl2, hr2,
            runUntil_append]
          congr 1
          funext s; rw [hr2]
      · obtain ⟨pl, hl1, hl2⟩ := collideT_spec cfg (node b l r) l' h h'.2.2.1
        obtain ⟨pr, hr1, hr2⟩ := collideT_spec cfg (node b l r) r' h h'.2.2.2
        refine ⟨pl ++ pr, (hl1.append hr1).trans (cross_node_right _ _ _ _).symm, ?_⟩
        intro σ cb s
        unfold collideT
        simp only [hb, hg, Bool.not_true, Bool.false_eq_true, if_false, hl2, hr2, runUntil_append]
        congr 1
        funext s; rw [hr2]
termination_by t.nodes + u.nodes
decreasing_by all_goals (simp [nodes]; try omega)

theorem collideSelf_spec.{v} (cfg : Cfg K O) (t : HTree K O) (h : t.Enc) :
    ∃ ps : List (O × O),
      ps.Perm (((pairsUp t.leaves).filter (fun p => p.1.2.1.overlap p.2.2.1)).map
        (fun p => (p.1.2.2, p.2.2.2))) ∧
      ∀ (σ : Type v) (cb : CB σ O) (s : σ), collideSelf cfg cb t s = runUntil cb s ps := by
  induction t with
  | leaf i b o => exact ⟨[], by simp [leaves, pairsUp], by simp [collideSelf]⟩
  | node b l r ihl ihr =>
    obtain ⟨pl, hl1, hl2⟩ := ihl h.2.2.1
    obtain ⟨pr, hr1, hr2⟩ := ihr h.2.2.2
    obtain ⟨pc, hc1, hc2⟩ := collideT_spec cfg l r h.2.2.1 h.2.2.2
    refine ⟨pl ++ (pr ++ pc), ?_, ?_⟩
    · refine (hl1.append (hr1.append hc1)).trans ?_
      simp only [leaves]
      refine List.Perm.trans ?_ (((pairsUp_append l.leaves r.leaves).filter _).map _).symm
      simp only [List.filter_append, List.map_append]
      exact List.Perm.refl _
    · intro σ cb s
      simp only [collideSelf, hl2, runUntil_append]
      congr 1
      funext s
      simp only [hr2]
      congr 1
      funext s; rw [hc2]

/-! ### distance -/

/-- What the traversal needs of the box distance: it does not grow when boxes grow, and does not
depend on the order of its arguments. -/
structure BoxDist {D : Type*} [LE D] (dist : AABB K → AABB K → D) : Prop where
  anti : ∀ {a a' b b' : AABB K}, a.Valid → b.Valid → a'.contain a = true → b'.contain b = true →
    dist a' b' ≤ dist a b
  comm : ∀ {a b : AABB K}, a.Valid → b.Valid → dist a b = dist b a

variable {D : Type*} [LinearOrder D] {σ : Type*} {P : σ → D → Prop}

theorem covers_nearFirst {α : Type*} {cb : DCB σ D O} (hc : cb.NonInc P) {lb : α → D} {obj : α → O × O}
    {A B : List α} {f g : σ → D → σ × D × Bool} {d1 d2 : D}
    (hf : Covers P cb lb obj A f) (hg : Covers P cb lb obj B g)
    (h1 : ∀ x ∈ A, d1 ≤ lb x) (h2 : ∀ x ∈ B, d2 ≤ lb x) :
    Covers P cb lb obj (A ++ B) (nearFirst d1 d2 f g) := by
  by_cases h : d2 < d1
  · have := Covers.seq hc (hg.skip d2 h2) (hf.skip d1 h1)
    refine Covers.perm ?_ List.perm_append_comm (A := B ++ A)
    have e : nearFirst d1 d2 f g = fun s md => andThenD (guardD d2 g s md) (guardD d1 f) := by
      funext s md; simp [nearFirst, h]
    rw [e]; exact this
  · have := Covers.seq hc (hf.skip d1 h1) (hg.skip d2 h2)
    have e : nearFirst d1 d2 f g = fun s md => andThenD (guardD d1 f s md) (guardD d2 g) := by
      funext s md; simp [nearFirst, h]
    rw [e]; exact this

theorem distQ_covers {dist : AABB K → AABB K → D} (hd : BoxDist dist) {cb : DCB σ D O} (hc : cb.NonInc P)
    (q : O) (qb : AABB K) (hq : qb.Valid) (t : HTree K O) (h : t.Enc) (hv : ∀ x ∈ t.leaves, x.2.1.Valid) :
    Covers P cb (fun x : Nat × AABB K × O => dist qb x.2.1) (fun x => (x.2.2, q)) t.leaves
      (distQ dist cb q qb t) := by
  induction t with
  | leaf i b o => exact Covers.one (i, b, o)
  | node b l r ihl ihr =>
    have hvl : ∀ x ∈ l.leaves, x.2.1.Valid := fun x hx => hv x (by simp [leaves, hx])
    have hvr : ∀ x ∈ r.leaves, x.2.1.Valid := fun x hx => hv x (by simp [leaves, hx])
    exact covers_nearFirst hc (ihl h.2.2.1 hvl) (ihr h.2.2.2 hvr)
      (fun x hx => hd.anti hq (hvl x hx) (AABB.contain_refl _) (h.2.2.1.contain_leaf x hx))
      (fun x hx => hd.anti hq (hvr x hx) (AABB.contain_refl _) (h.2.2.2.contain_leaf x hx))

theorem distT_covers (cfg : Cfg K O) {dist : AABB K → AABB K → D} (hd : BoxDist dist) {cb : DCB σ D O}
    (hc : cb.NonInc P) (t u : HTree K O) (h : t.Enc) (h' : u.Enc) (hv : ∀ x ∈ t.leaves, x.2.1.Valid)
    (hv' : ∀ x ∈ u.leaves, x.2.1.Valid) :
    Covers P cb (fun p : (Nat × AABB K × O) × (Nat × AABB K × O) => dist p.1.2.1 p.2.2.1)
      (fun p => (p.1.2.2, p.2.2.2)) (t.leaves.product u.leaves) (distT cfg dist cb t u) := by
  -- bound for a pair of subtrees, box of the second first
  have bd1 : ∀ (t u : HTree K O), t.Enc → u.Enc → (∀ x ∈ t.leaves, x.2.1.Valid) →
      (∀ x ∈ u.leaves, x.2.1.Valid) → ∀ p ∈ t.leaves.product u.leaves, dist u.bv t.bv ≤ dist p.1.2.1 p.2.2.1 := by
    intro t u h h' hv hv' p hp
    obtain ⟨h1, h2⟩ := List.mem_product.1 hp
    rw [hd.comm (hv _ h1) (hv' _ h2)]
    exact hd.anti (hv' _ h2) (hv _ h1) (h'.contain_leaf _ h2) (h.contain_leaf _ h1)
  have bd2 : ∀ (t u : HTree K O), t.Enc → u.Enc → (∀ x ∈ t.leaves, x.2.1.Valid) →
      (∀ x ∈ u.leaves, x.2.1.Valid) → ∀ p ∈ t.leaves.product u.leaves, dist t.bv u.bv ≤ dist p.1.2.1 p.2.2.1 := by
    intro t u h h' hv hv' p hp
    obtain ⟨h1, h2⟩ := List.mem_product.1 hp
    exact hd.anti (hv _ h1) (hv' _ h2) (h.contain_leaf _ h1) (h'.contain_leaf _ h2)
  match t, u with
  | leaf i b o, leaf i' b' o' =>
    intro s md hP
    rw [distT]
    exact Covers.one (obj := fun p : (Nat × AABB K × O) × (Nat × AABB K × O) => (p.1.2.2, p.2.2.2))
      ((i, b, o), (i', b', o')) s md hP
  | node b l r, leaf i' b' o' =>
    have hvl : ∀ x ∈ l.leaves, x.2.1.Valid := fun x hx => hv x (by simp [leaves, hx])
    have hvr : ∀ x ∈ r.leaves, x.2.1.Valid := fun x hx => hv x (by simp [leaves, hx])
    have e1 := distT_covers cfg hd hc l (leaf i' b' o') h.2.2.1 h' hvl hv'
    have e2 := distT_covers cfg hd hc r (leaf i' b' o') h.2.2.2 h' hvr hv'
    refine Covers.perm ?_ (List.Perm.of_eq (product_append_left l.leaves r.leaves _).symm)
    intro s md hP
    rw [distT]
    exact covers_nearFirst hc e1 e2 (bd1 l _ h.2.2.1 h' hvl hv') (bd1 r _ h.2.2.2 h' hvr hv') s md hP
  | leaf i b o, node b' l r =>
    have hvl : ∀ x ∈ l.leaves, x.2.1.Valid := fun x hx => hv' x (by simp [leaves, hx])
    have hvr : ∀ x ∈ r.leaves, x.2.1.Valid := fun x hx => hv' x (by simp [leaves, hx])
    have e1 := distT_covers cfg hd hc (leaf i b o) l h h'.2.2.1 hv hvl
    have e2 := distT_covers cfg hd hc (leaf i b o) r h h'.2.2.2 hv hvr
    refine Covers.perm ?_ (product_append_right _ l.leaves r.leaves).symm
    intro s md hP
    rw [distT]
    exact covers_nearFirst hc e1 e2 (bd2 _ l h h'.2.2.1 hv hvl) (bd2 _ r h h'.2.2.2 hv hvr) s md hP
  | node b l r, node b' l' r' =>
    by_cases hg : cfg.bigger b b'
    · have hvl : ∀ x ∈ l.leaves, x.2.1.Valid := fun x hx => hv x (by simp [leaves, hx])
      have hvr : ∀ x ∈ r.leaves, x.2.1.Valid := fun x hx => hv x (by simp [leaves, hx])
      have e1 := distT_covers cfg hd hc l (node b' l' r') h.2.2.1 h' hvl hv'
      have e2 := distT_covers cfg hd hc r (node b' l' r') h.2.2.2 h' hvr hv'
      refine Covers.perm ?_ (List.Perm.of_eq (product_append_left l.leaves r.leaves _).symm)
      intro s md hP
      rw [distT]
      simp only [hg, if_true]
      exact covers_nearFirst hc e1 e2 (bd1 l _ h.2.2.1 h' hvl hv') (bd1 r _ h.2.2.2 h' hvr hv') s md hP
    · have hvl : ∀ x ∈ l'.leaves, x.2.1.Valid := fun x hx => hv' x (by simp [leaves, hx])
      have hvr : ∀ x ∈ r'.leaves, x.2.1.Valid := fun x hx => hv' x (by simp [leaves, hx])
      have e1 := distT_covers cfg hd hc (node b l r) l' h h'.2.2.1 hv hvl
      have e2 := distT_covers cfg hd hc (node b l r) r' h h'.2.2.2 hv hvr
      refine Covers.perm ?_ (product_append_right _ l'.leaves r'.leaves).symm
      intro s md hP
      rw [distT]
      simp only [hg, Bool.false_eq_true, if_false]
      exact covers_nearFirst hc e1 e2 (bd2 _ l' h h'.2.2.1 hv hvl) (bd2 _ r' h h'.2.2.2 hv hvr) s md hP
termination_by t.nodes + u.nodes
decreasing_by all_goals (simp [nodes]; try omega)

theorem distSelf_covers (cfg : Cfg K O) {dist : AABB K → AABB K → D} (hd : BoxDist dist) {cb : DCB σ D O}
    (hc : cb.NonInc P) (t : HTree K O) (h : t.Enc) (hv : ∀ x ∈ t.leaves, x.2.1.Valid) :
    Covers P cb (fun p : (Nat × AABB K × O) × (Nat × AABB K × O) => dist p.1.2.1 p.2.2.1)
      (fun p => (p.1.2.2, p.2.2.2)) (pairsUp t.leaves) (distSelf cfg dist cb t) := by
  induction t with
  | leaf i b o => exact Covers.nil
  | node b l r ihl ihr =>
    have hvl : ∀ x ∈ l.leaves, x.2.1.Valid := fun x hx => hv x (by simp [leaves, hx])
    have hvr : ∀ x ∈ r.leaves, x.2.1.Valid := fun x hx => hv x (by simp [leaves, hx])
    refine Covers.perm ?_ (pairsUp_append l.leaves r.leaves).symm
    exact Covers.seq hc (ihl h.2.2.1 hvl) (Covers.seq hc (ihr h.2.2.2 hvr)
      (distT_covers cfg hd hc l r h.2.2.1 h.2.2.2 hvl hvr))

end HTree
end Fcl
