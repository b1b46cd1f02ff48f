import Verif.Traversal.Spec
import Mathlib.Tactic.Ring
import Mathlib.Tactic.Linarith

/-! # Lemmas on trees and on `collisionRecurse` -/

namespace Fcl
set_option linter.unusedSectionVars false
variable {σ V P W Q : Type*}

theorem BT.Below.trans {u v t : BT V P} (h : BT.Below u v) (g : BT.Below v t) : BT.Below u t := by
  induction g with
  | refl => exact h
  | left _ ih => exact .left ih
  | right _ ih => exact .right ih

/-- All the nodes of a tree. -/
def BT.subtrees : BT V P → List (BT V P)
  | .leaf bv p => [.leaf bv p]
  | .node bv l r => .node bv l r :: (l.subtrees ++ r.subtrees)

theorem mem_subtrees {u t : BT V P} (h : BT.Below u t) : u ∈ t.subtrees := by
  induction h with
  | refl => cases u <;> simp [BT.subtrees]
  | left _ ih => simp [BT.subtrees, ih]
  | right _ ih => simp [BT.subtrees, ih]

theorem leafPairs_leaf {a : BT V P} {b : BT W Q} (ha : a.isLeaf = true) (hb : b.isLeaf = true) :
    leafPairs a b = [(a, b)] := by
  cases a <;> simp [BT.isLeaf] at ha
  cases b <;> simp [BT.isLeaf] at hb
  rfl

theorem leafPairs_first (bv : V) (l r : BT V P) (b : BT W Q) :
    leafPairs (.node bv l r) b = leafPairs l b ++ leafPairs r b := by
  simp [leafPairs, BT.leaves, List.product, SProd.sprod]

theorem leafPairs_second (a : BT V P) (bv : W) (l r : BT W Q) :
    (leafPairs a (.node bv l r)).Perm (leafPairs a l ++ leafPairs a r) := by
  simp only [leafPairs, BT.leaves, SProd.sprod, List.product]
  induction a.leaves with
  | nil => simp
  | cons x xs ih =>
    simp only [List.map_append] at ih
    simp only [List.flatMap_cons, List.map_append]
    refine (List.Perm.append_left _ ih).trans ?_
    simp only [List.append_assoc]
    refine List.Perm.append_left _ ?_
    rw [← List.append_assoc, ← List.append_assoc]
    exact List.Perm.append_right _ List.perm_append_comm

theorem leaves_isLeaf {t x : BT V P} (h : x ∈ t.leaves) : x.isLeaf = true := by
  induction t with
  | leaf bv p => simp [BT.leaves] at h; subst h; rfl
  | node bv l r ihl ihr =>
    simp only [BT.leaves, List.mem_append] at h
    exact h.elim ihl ihr

theorem leaves_below {t x : BT V P} (h : x ∈ t.leaves) : BT.Below x t := by
  induction t with
  | leaf bv p => simp [BT.leaves] at h; subst h; exact .refl _
  | node bv l r ihl ihr =>
    simp only [BT.leaves, List.mem_append] at h
    exact h.elim (fun h => .left (ihl h)) (fun h => .right (ihr h))

theorem mem_leafPairs {a : BT V P} {b : BT W Q} {p : BT V P × BT W Q} :
    p ∈ leafPairs a b ↔ p.1 ∈ a.leaves ∧ p.2 ∈ b.leaves := by
  obtain ⟨x, y⟩ := p
  exact List.mem_product

section
variable (N : ColNode σ (BT V P) (BT W Q))

/-- What happens at a pair of nodes where the walk ends. -/
def atEnd (s : σ) (p : BT V P × BT W Q) : σ := if N.disjoint p.1 p.2 then s else N.leafTest s p.1 p.2

/-- Without a front list: the ends are visited in order, and the stopping rule is asked between them. -/
def runEnds (s : σ) : List (BT V P × BT W Q) → σ
  | [] => s
  | p :: ps => if N.canStop (atEnd N s p) then atEnd N s p else runEnds (atEnd N s p) ps

/-- The two cases: with and without a front list. -/
def runFrom (L : List (BT V P × BT W Q)) : σ × Front (BT V P) (BT W Q) → σ × Front (BT V P) (BT W Q)
  | (s, none) => (runEnds N s L, none)
  | (s, some f) => (L.foldl (atEnd N) s, some (f ++ L))

theorem runEnds_append {s : σ} {L M : List (BT V P × BT W Q)} (hL : L ≠ []) :
    runEnds N s (L ++ M) = if N.canStop (runEnds N s L) then runEnds N s L else runEnds N (runEnds N s L) M := by
  induction L generalizing s with
  | nil => exact absurd rfl hL
  | cons p L ih =>
    simp only [List.cons_append, runEnds]
    by_cases h : N.canStop (atEnd N s p) = true
    · simp [h]
    · simp only [h, Bool.false_eq_true, if_false]
      cases L with
      | nil => simp [runEnds, h]
      | cons q L => rw [ih (by simp)]

/-- The list of ends of a walk, and what it has to do with the trees. -/
structure Ends (a : BT V P) (b : BT W Q) (L : List (BT V P × BT W Q)) : Prop where
  ne : L ≠ []
  below : ∀ p ∈ L, BT.Below p.1 a ∧ BT.Below p.2 b
  cover : (L.flatMap fun p => leafPairs p.1 p.2).Perm (leafPairs a b)
  last : ∀ p ∈ L, (p.1.isLeaf = true ∧ p.2.isLeaf = true) ∨ N.disjoint p.1 p.2 = true

theorem Ends.single {a : BT V P} {b : BT W Q}
    (h : (a.isLeaf = true ∧ b.isLeaf = true) ∨ N.disjoint a b = true) : Ends N a b [(a, b)] where
  ne := by simp
  below := by simp [BT.Below.refl]
  cover := by simp
  last := by simpa using h

theorem Ends.first {bv : V} {l r : BT V P} {b : BT W Q} {L M : List (BT V P × BT W Q)} (h : Ends N l b L)
    (g : Ends N r b M) : Ends N (.node bv l r) b (L ++ M) where
  ne := by simp [h.ne]
  below p hp := by
    rcases List.mem_append.1 hp with hp | hp
    · exact ⟨.left (h.below p hp).1, (h.below p hp).2⟩
    · exact ⟨.right (g.below p hp).1, (g.below p hp).2⟩
  cover := by
    rw [List.flatMap_append, leafPairs_first]
    exact h.cover.append g.cover
  last p hp := (List.mem_append.1 hp).elim (h.last p) (g.last p)

theorem Ends.second {bv : W} {l r : BT W Q} {a : BT V P} {L M : List (BT V P × BT W Q)} (h : Ends N a l L)
    (g : Ends N a r M) : Ends N a (.node bv l r) (L ++ M) where
  ne := by simp [h.ne]
  below p hp := by
    rcases List.mem_append.1 hp with hp | hp
    · exact ⟨(h.below p hp).1, .left (h.below p hp).2⟩
    · exact ⟨(g.below p hp).1, .right (g.below p hp).2⟩
  cover := by
    rw [List.flatMap_append]
    exact (h.cover.append g.cover).trans (leafPairs_second ..).symm
  last p hp := (List.mem_append.1 hp).elim (h.last p) (g.last p)

theorem runFrom_append {L M : List (BT V P × BT W Q)} (hL : L ≠ []) (x : σ × Front (BT V P) (BT W Q)) :
    runFrom N (L ++ M) x =
      if N.canStop (runFrom N L x).1 && (runFrom N L x).2.isNone then runFrom N L x
      else runFrom N M (runFrom N L x) := by
  obtain ⟨s, F⟩ := x
  cases F with
  | none =>
    simp only [runFrom, Option.isNone_none, Bool.and_true, runEnds_append N hL]
    split <;> rfl
  | some f => simp [runFrom]

variable {T : Trav (BT V P) (BT W Q)} {C : BT V P → BT W Q → Prop}

theorem collisionRecurse_runFrom (hT : T.Follows C) (fuel : ℕ) {a : BT V P} {b : BT W Q} (hC : C a b)
    (hf : a.depth + b.depth < fuel) :
    ∃ L, Ends N a b L ∧ ∀ x, collisionRecurse N T fuel a b x = some (runFrom N L x) := by
  induction fuel generalizing a b with
  | zero => omega
  | succ fuel ih =>
    have e1 := hT.leaf1 hC
    have e2 := hT.leaf2 hC
    by_cases hl : (a.isLeaf && b.isLeaf) = true
    · have hl' := hl
      rw [Bool.and_eq_true] at hl'
      refine ⟨[(a, b)], .single N (Or.inl hl'), fun ⟨s, F⟩ => ?_⟩
      simp only [collisionRecurse, e1, e2, hl, if_true]
      by_cases hd : N.disjoint a b = true <;>
        cases F <;> simp [hd, runFrom, runEnds, atEnd, Front.push]
    · rw [Bool.not_eq_true] at hl
      by_cases hd : N.disjoint a b = true
      · refine ⟨[(a, b)], .single N (Or.inr hd), fun ⟨s, F⟩ => ?_⟩
        simp only [collisionRecurse, e1, e2, hl, hd]
        cases F <;> simp [hd, runFrom, runEnds, atEnd, Front.push]
      · by_cases hfos : T.fos a b = true
        · obtain ⟨bv, l, r, rfl, hleft, hright, hcl, hcr⟩ := hT.first hC hl hfos
          simp only [BT.depth] at hf
          obtain ⟨L, hL, eL⟩ := ih hcl (by omega)
          obtain ⟨M, hM, eM⟩ := ih hcr (by omega)
          refine ⟨L ++ M, .first N hL hM, fun ⟨s, F⟩ => ?_⟩
          simp only [collisionRecurse, e1, e2, hl, hd, hfos, hleft, hright, eL, eM, Bool.false_eq_true, if_false,
            if_true, runFrom_append N hL.ne]
          split <;> rfl
        · rw [Bool.not_eq_true] at hfos
          obtain ⟨bv, l, r, rfl, hleft, hright, hcl, hcr⟩ := hT.second hC hl hfos
          simp only [BT.depth] at hf
          obtain ⟨L, hL, eL⟩ := ih hcl (by omega)
          obtain ⟨M, hM, eM⟩ := ih hcr (by omega)
          refine ⟨L ++ M, .second N hL hM, fun ⟨s, F⟩ => ?_⟩
          simp only [collisionRecurse, e1, e2, hl, hd, hfos, hleft, hright, eL, eM, Bool.false_eq_true, if_false,
            runFrom_append N hL.ne]
          split <;> rfl

/-- The pairs of a list of ends on which the leaf test is called. -/
def tested (L : List (BT V P × BT W Q)) : List (BT V P × BT W Q) := L.filter fun p => !N.disjoint p.1 p.2
/-- The pairs of leaves below the ends that were pruned. -/
def skipped (L : List (BT V P × BT W Q)) : List (BT V P × BT W Q) :=
  (L.filter fun p => N.disjoint p.1 p.2).flatMap fun p => leafPairs p.1 p.2

theorem Ends.split {a : BT V P} {b : BT W Q} {L : List (BT V P × BT W Q)} (h : Ends N a b L) :
    (tested N L ++ skipped N L).Perm (leafPairs a b) := by
  refine List.Perm.trans ?_ h.cover
  have h := h.last
  clear * - h
  induction L with
  | nil => simp [tested, skipped]
  | cons p L ih =>
    have ih := ih fun q hq => h q (by simp [hq])
    by_cases hd : N.disjoint p.1 p.2 = true
    · have e1 : tested N (p :: L) = tested N L := by simp [tested, hd]
      have e2 : skipped N (p :: L) = leafPairs p.1 p.2 ++ skipped N L := by simp [skipped, hd]
      rw [e1, e2, List.flatMap_cons]
      refine List.Perm.trans ?_ (List.Perm.append_left _ ih)
      rw [← List.append_assoc, ← List.append_assoc]
      exact List.Perm.append_right _ List.perm_append_comm
    · have hl := (h p (by simp)).resolve_right hd
      have e1 : tested N (p :: L) = p :: tested N L := by simp [tested, hd]
      have e2 : skipped N (p :: L) = skipped N L := by simp [skipped, hd]
      rw [e1, e2, List.flatMap_cons, leafPairs_leaf hl.1 hl.2]
      exact List.Perm.cons _ ih

theorem foldl_atEnd (s : σ) (L : List (BT V P × BT W Q)) :
    L.foldl (atEnd N) s = (tested N L).foldl (fun s p => N.leafTest s p.1 p.2) s := by
  induction L generalizing s with
  | nil => rfl
  | cons p L ih =>
    rw [List.foldl_cons, ih]
    by_cases hd : N.disjoint p.1 p.2 = true <;> simp [tested, atEnd, hd]

theorem runEnds_spec (s : σ) (L : List (BT V P × BT W Q)) :
    ∃ done rest, done ++ rest = tested N L ∧
      runEnds N s L = done.foldl (fun s p => N.leafTest s p.1 p.2) s ∧
      (rest ≠ [] → N.canStop (runEnds N s L) = true) ∧
      ∀ pre q post, done = pre ++ q :: post → pre ≠ [] →
        N.canStop (pre.foldl (fun s p => N.leafTest s p.1 p.2) s) = false := by
  induction L generalizing s with
  | nil => exact ⟨[], [], rfl, rfl, by simp, by simp⟩
  | cons p L ih =>
    by_cases hd : N.disjoint p.1 p.2 = true
    · have e : atEnd N s p = s := by simp [atEnd, hd]
      have et : tested N (p :: L) = tested N L := by simp [tested, hd]
      by_cases hs : N.canStop s = true
      · refine ⟨[], tested N L, by simp [et], by simp [runEnds, e, hs], fun _ => by simp [runEnds, e, hs], by simp⟩
      · obtain ⟨done, rest, h1, h2, h3, h4⟩ := ih s
        have er : runEnds N s (p :: L) = runEnds N s L := by simp [runEnds, e, hs]
        exact ⟨done, rest, by rw [et, h1], by rw [er, h2], fun h => by rw [er]; exact h3 h, h4⟩
    · have e : atEnd N s p = N.leafTest s p.1 p.2 := by simp [atEnd, hd]
      have et : tested N (p :: L) = p :: tested N L := by simp [tested, hd]
      by_cases hs : N.canStop (N.leafTest s p.1 p.2) = true
      · refine ⟨[p], tested N L, by simp [et], by simp [runEnds, e, hs], fun _ => by simp [runEnds, e, hs], ?_⟩
        rintro pre q post hpre hne
        cases pre with
        | nil => exact absurd rfl hne
        | cons x xs =>
          have := congrArg List.length hpre
          simp at this
      · rw [Bool.not_eq_true] at hs
        obtain ⟨done, rest, h1, h2, h3, h4⟩ := ih (N.leafTest s p.1 p.2)
        have er : runEnds N s (p :: L) = runEnds N (N.leafTest s p.1 p.2) L := by simp [runEnds, e, hs]
        refine ⟨p :: done, rest, by rw [et, ← h1]; rfl, by rw [er, h2]; rfl, fun h => by rw [er]; exact h3 h, ?_⟩
        rintro pre q post hpre hne
        cases pre with
        | nil => exact absurd rfl hne
        | cons x xs =>
          simp only [List.cons_append, List.cons.injEq] at hpre
          obtain ⟨rfl, hpre⟩ := hpre
          rw [List.foldl_cons]
          by_cases hx : xs = []
          · subst hx; exact hs
          · exact h4 xs q post hpre hx

end
end Fcl
