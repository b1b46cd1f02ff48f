import Verif.BVH.Spec
import Mathlib.Data.List.Perm.Subperm
import Mathlib.Data.List.Range
import Mathlib.Tactic.Ring

/-! # Lemmas on the construction of hierarchies -/

namespace Fcl
set_option linter.unusedSectionVars false
variable {V : Type*}

/-- The loop on the part of the array that belongs to the node: first the left ones, then the right ones, then those
not yet looked at. -/
def partL (right : ℕ → Bool) : List ℕ → List ℕ → List ℕ → List ℕ × List ℕ
  | A, B, [] => (A, B)
  | A, B, x :: X =>
    if right x then partL right A (B ++ [x]) X
    else match B with
      | [] => partL right (A ++ [x]) [] X
      | b :: B => partL right (A ++ [x]) (B ++ [b]) X

theorem partL_perm (right : ℕ → Bool) (A B X : List ℕ) :
    ((partL right A B X).1 ++ (partL right A B X).2).Perm (A ++ B ++ X) := by
  induction X generalizing A B with
  | nil => simp [partL]
  | cons x X ih =>
    simp only [partL]
    split
    · simpa using ih A (B ++ [x])
    · cases B with
      | nil => simpa using ih (A ++ [x]) []
      | cons b B =>
        refine (ih (A ++ [x]) (B ++ [b])).trans ?_
        rw [List.perm_iff_count]
        intro y
        simp only [List.count_append, List.count_cons, List.count_nil]
        omega

theorem partL_sides (right : ℕ → Bool) (A B X : List ℕ) (hA : ∀ x ∈ A, right x = false)
    (hB : ∀ x ∈ B, right x = true) : (∀ x ∈ (partL right A B X).1, right x = false) ∧
      ∀ x ∈ (partL right A B X).2, right x = true := by
  induction X generalizing A B with
  | nil => exact ⟨hA, hB⟩
  | cons x X ih =>
    simp only [partL]
    split
    · rename_i h
      refine ih A (B ++ [x]) hA ?_
      intro y hy
      rcases List.mem_append.1 hy with hy | hy
      · exact hB y hy
      · rw [List.mem_singleton.1 hy]; exact h
    · rename_i h
      rw [Bool.not_eq_true] at h
      have hA' : ∀ y ∈ A ++ [x], right y = false := by
        intro y hy
        rcases List.mem_append.1 hy with hy | hy
        · exact hA y hy
        · rw [List.mem_singleton.1 hy]; exact h
      cases B with
      | nil => exact ih (A ++ [x]) [] hA' (by simp)
      | cons b B =>
        refine ih (A ++ [x]) (B ++ [b]) hA' ?_
        intro y hy
        rcases List.mem_append.1 hy with hy | hy
        · exact hB y (by simp [hy])
        · rw [List.mem_singleton.1 hy]; exact hB b (by simp)

theorem partLoop_partL (right : ℕ → Bool) (pre A B X post : List ℕ) :
    partLoop right pre.length X.length (A.length + B.length) A.length (pre ++ (A ++ (B ++ (X ++ post)))) =
      some (pre ++ ((partL right A B X).1 ++ ((partL right A B X).2 ++ post)), (partL right A B X).1.length) := by
  induction X generalizing A B with
  | nil => simp [partLoop, partL]
  | cons x X ih =>
    have e1 : (pre ++ (A ++ (B ++ (x :: X ++ post))))[pre.length + (A.length + B.length)]? = some x := by
      rw [List.getElem?_append_right (by omega), List.getElem?_append_right (by omega),
        List.getElem?_append_right (by omega)]
      have : pre.length + (A.length + B.length) - pre.length - A.length - B.length = 0 := by omega
      rw [this]; rfl
    simp only [List.length_cons, partLoop, e1, partL]
    by_cases h : right x = true
    · simp only [h, if_true]
      have := ih A (B ++ [x])
      simp only [List.length_append, List.length_cons, List.length_nil, List.append_assoc, List.singleton_append] at this
      rw [← this]
      simp [Nat.add_assoc]
    · simp only [h, Bool.false_eq_true, if_false]
      cases B with
      | nil =>
        have e2 : (pre ++ (A ++ ([] ++ (x :: X ++ post))))[pre.length + A.length]? = some x := by simpa using e1
        simp only [e2]
        have := ih (A ++ [x]) []
        simp only [List.length_append, List.length_cons, List.length_nil, List.append_assoc, List.singleton_append,
          List.nil_append, Nat.add_zero] at this ⊢
        rw [← this]
        congr 1
        simp
      | cons b B =>
        have e2 : (pre ++ (A ++ (b :: B ++ (x :: X ++ post))))[pre.length + A.length]? = some b := by
          rw [List.getElem?_append_right (by omega), List.getElem?_append_right (by omega)]
          have : pre.length + A.length - pre.length - A.length = 0 := by omega
          rw [this]; rfl
        simp only [e2]
        have := ih (A ++ [x]) (B ++ [b])
        simp only [List.length_append, List.length_cons, List.length_nil, List.append_assoc, List.singleton_append,
          List.cons_append, List.nil_append] at this ⊢
        rw [← this]
        congr 1
        · omega
        · rw [List.set_append_right _ _ (by omega), List.set_append_right _ _ (by omega),
            List.set_append_right _ _ (by omega), List.set_append_right _ _ (by omega)]
          have e3 : pre.length + (A.length + (B.length + 1)) - pre.length - A.length = B.length + 1 := by omega
          have e4 : pre.length + A.length - pre.length - A.length = 0 := by omega
          rw [e3, e4, List.set_cons_succ, List.set_cons_zero, List.set_append_right _ _ (by omega)]
          simp

section
variable {bvs bvs' : List (BVNode V)} {prims prims' : List ℕ} {id first num : ℕ} {ids : List ℕ} {t : BT V ℕ}

theorem IsTree.pos (h : IsTree bvs prims id first num ids t) : 0 < num := by
  induction h with
  | leaf => omega
  | node => omega

theorem IsTree.congr (h : IsTree bvs prims id first num ids t) (hb : ∀ i ∈ ids, bvs'[i]? = bvs[i]?)
    (hp : ∀ j, first ≤ j → j < first + num → prims'[j]? = prims[j]?) : IsTree bvs' prims' id first num ids t := by
  induction h with
  | leaf hn hp' => exact .leaf (by rw [hb _ (by simp)]; exact hn) (by rw [hp _ (by omega) (by omega)]; exact hp')
  | node hn hl hr hnum ihl ihr =>
    have := hl.pos
    have := hr.pos
    refine .node (by rw [hb _ (by simp)]; exact hn) (ihl (fun i hi => hb i (by simp [hi])) fun j h1 h2 => ?_)
      (ihr (fun i hi => hb i (by simp [hi])) fun j h1 h2 => ?_) hnum
    · exact hp j h1 (by omega)
    · exact hp j (by omega) (by omega)

end

theorem Fitted.node {fit : List ℕ → V} {l r : BT V ℕ} (hl : Fitted fit l) (hr : Fitted fit r) {m : List ℕ}
    (hm : m.Perm (l.prims ++ r.prims)) : Fitted fit (.node (fit m) l r) := by
  intro u hu
  cases hu with
  | refl => exact ⟨m, hm, rfl⟩
  | left h => exact hl u h
  | right h => exact hr u h

theorem prims_length_pos (t : BT V ℕ) : 0 < t.prims.length := by
  induction t with
  | leaf => simp [BT.prims]
  | node bv l r ihl ihr => simp only [BT.prims, List.length_append]; omega

theorem build_spec (B : Builder V) (fuel : ℕ) (id : ℕ) (pre seg post : List ℕ) (bvs : List (BVNode V)) (nb : ℕ)
    (hne : 0 < seg.length) (hf : seg.length ≤ fuel) (hid : id < nb) (hcap : nb + 2 * (seg.length - 1) ≤ bvs.length) :
    ∃ bvs' seg' t ids, recursiveBuildTree B fuel id pre.length seg.length ⟨bvs, nb, pre ++ (seg ++ post)⟩ =
        some ⟨bvs', nb + 2 * (seg.length - 1), pre ++ (seg' ++ post)⟩ ∧
      seg'.Perm seg ∧ bvs'.length = bvs.length ∧
      (∀ j, j ≠ id → (j < nb ∨ nb + 2 * (seg.length - 1) ≤ j) → bvs'[j]? = bvs[j]?) ∧
      IsTree bvs' (pre ++ (seg' ++ post)) id pre.length seg.length ids t ∧
      ids.Perm (id :: List.range' nb (2 * (seg.length - 1))) ∧ t.prims = seg' ∧ Fitted B.fit t ∧ Sorted B t := by
  induction fuel generalizing id pre seg post bvs nb with
  | zero => omega
  | succ fuel ih =>
    have hcur : ((pre ++ (seg ++ post)).drop pre.length).take seg.length = seg := by simp
    by_cases h1 : seg.length = 1
    · -- a leaf
      obtain ⟨p, rfl⟩ := List.length_eq_one_iff.1 h1
      simp only [List.length_cons, List.length_nil] at hcap
      have hp : (pre ++ ([p] ++ post))[pre.length]? = some p := by simp
      have hidl : id < bvs.length := by omega
      refine ⟨bvs.set id ⟨B.fit [p], pre.length, 1, -((p : ℤ) + 1)⟩, [p], .leaf (B.fit [p]) p, [id], ?_, List.Perm.refl _,
        by simp, ?_, ?_, by simp, rfl, ?_, ?_⟩
      · simp only [recursiveBuildTree, hcur, ne_eq, not_true_eq_false, if_false, hp]
        simp [hidl]
      · intro j hj _
        rw [List.getElem?_set_ne (by omega)]
      · exact .leaf (by rw [List.getElem?_set_self (by omega)]) hp
      · intro u hu
        cases hu with
        | refl => exact ⟨[p], List.Perm.refl _, rfl⟩
      · intro bv l r hu
        cases hu
    · -- an inner node
      have hpart := partLoop_partL (B.right (B.fit seg) seg) pre [] [] seg post
      simp only [List.length_nil, Nat.add_zero, List.nil_append] at hpart
      have hperm := partL_perm (B.right (B.fit seg) seg) [] [] seg
      have hsides := partL_sides (B.right (B.fit seg) seg) [] [] seg (by simp) (by simp)
      generalize hAB : partL (B.right (B.fit seg) seg) [] [] seg = AB at hpart hperm hsides
      obtain ⟨A, C⟩ := AB
      simp only [List.nil_append] at hperm hpart hsides
      have hlen := hperm.length_eq
      rw [List.length_append] at hlen
      -- the split into two nonempty parts
      obtain ⟨L, R, hLR, hL, hR, hc1, hsort⟩ : ∃ L R, L ++ R = A ++ C ∧ 0 < L.length ∧ 0 < R.length ∧
          (if A.length = 0 ∨ A.length = seg.length then seg.length / 2 else A.length) = L.length ∧
          (((∀ x ∈ L, B.right (B.fit seg) seg x = false) ∧ ∀ x ∈ R, B.right (B.fit seg) seg x = true) ∨
            ((∀ x ∈ seg, B.right (B.fit seg) seg x = false) ∨ ∀ x ∈ seg, B.right (B.fit seg) seg x = true) ∧
              L.length = seg.length / 2) := by
        by_cases h : A.length = 0 ∨ A.length = seg.length
        · refine ⟨(A ++ C).take (seg.length / 2), (A ++ C).drop (seg.length / 2), List.take_append_drop _ _, ?_, ?_, ?_,
            Or.inr ⟨?_, ?_⟩⟩
          · simp only [List.length_take, List.length_append]; omega
          · simp only [List.length_drop, List.length_append]; omega
          · rw [if_pos h]; simp only [List.length_take, List.length_append]; omega
          · rcases h with h | h
            · right
              have : A = [] := List.length_eq_zero_iff.1 h
              subst this
              intro x hx
              exact hsides.2 x (by simpa using (hperm.mem_iff).2 hx)
            · left
              have : C = [] := List.length_eq_zero_iff.1 (by omega)
              subst this
              intro x hx
              exact hsides.1 x (by simpa using (hperm.mem_iff).2 hx)
          · simp only [List.length_take, List.length_append]; omega
        · exact ⟨A, C, rfl, by omega, by omega, by rw [if_neg h], Or.inl hsides⟩
      have hLRlen : L.length + R.length = seg.length := by
        have := congrArg List.length hLR
        simp only [List.length_append] at this
        omega
      have hLRseg : (L ++ R).Perm seg := by rw [hLR]; exact hperm
      have hidl : id < bvs.length := by omega
      let bvs1 := bvs.set id ⟨B.fit seg, pre.length, seg.length, (nb : ℤ)⟩
      have hlen1 : bvs1.length = bvs.length := by simp [bvs1]
      obtain ⟨bvs2, L', tl, ids1, e1, p1, l1, f1, t1, i1, pr1, fit1, so1⟩ :=
        ih nb pre L (R ++ post) bvs1 (nb + 2) hL (by omega) (by omega) (by omega)
      have hL' : L'.length = L.length := p1.length_eq
      obtain ⟨bvs3, R', tr, ids2, e2, p2, l2, f2, t2, i2, pr2, fit2, so2⟩ :=
        ih (nb + 1) (pre ++ L') R post bvs2 (nb + 2 + 2 * (L.length - 1)) hR (by omega) (by omega) (by omega)
      have hnb : nb + 2 + 2 * (L.length - 1) + 2 * (R.length - 1) = nb + 2 * (seg.length - 1) := by omega
      have hids1 : ∀ i ∈ ids1, i = nb ∨ (nb + 2 ≤ i ∧ i < nb + 2 + 2 * (L.length - 1)) := by
        intro i hi
        have := (i1.mem_iff).1 hi
        simpa [List.mem_range'_1] using this
      have hids2 : ∀ i ∈ ids2, i = nb + 1 ∨ (nb + 2 + 2 * (L.length - 1) ≤ i ∧
          i < nb + 2 + 2 * (L.length - 1) + 2 * (R.length - 1)) := by
        intro i hi
        have := (i2.mem_iff).1 hi
        simpa [List.mem_range'_1] using this
      have hfinal : pre ++ L' ++ (R' ++ post) = pre ++ (L' ++ R' ++ post) := by simp
      refine ⟨bvs3, L' ++ R', .node (B.fit seg) tl tr, id :: (ids1 ++ ids2), ?_, ?_, ?_, ?_, ?_, ?_, ?_, ?_, ?_⟩
      · simp only [recursiveBuildTree, hcur, ne_eq, not_true_eq_false, if_false, h1, hpart, hc1]
        rw [if_neg (by omega)]
        have hp1 : pre ++ (A ++ (C ++ post)) = pre ++ (L ++ (R ++ post)) := by
          rw [← List.append_assoc A, ← hLR, List.append_assoc L]
        rw [hp1]
        have e1' := e1
        simp only [bvs1] at e1'
        rw [e1']
        simp only
        have e3 : pre.length + L.length = (pre ++ L').length := by rw [List.length_append, hL']
        have e4 : seg.length - L.length = R.length := by omega
        have e5 : pre ++ (L' ++ (R ++ post)) = pre ++ L' ++ (R ++ post) := by simp
        rw [e3, e4, e5, e2, hnb, hfinal]
      · exact (p1.append p2).trans hLRseg
      · omega
      · intro j hj hj'
        rw [f2 j (by omega) (by omega), f1 j (by omega) (by omega)]
        simp only [bvs1]
        rw [List.getElem?_set_ne (by omega)]
      · refine .node (c := nb) (n1 := L.length) (n2 := R.length) ?_ ?_ ?_ hLRlen.symm
        · rw [f2 id (by omega) (by omega), f1 id (by omega) (by omega)]
          simp only [bvs1]
          rw [List.getElem?_set_self hidl]
        · refine t1.congr (fun i hi => ?_) (fun j hj1 hj2 => ?_)
          · have := hids1 i hi
            exact f2 i (by omega) (by omega)
          · rw [List.getElem?_append_right hj1, List.getElem?_append_right hj1,
              List.append_assoc, List.getElem?_append_left (by omega), List.getElem?_append_left (by omega)]
        · rw [← hfinal]
          have := t2
          rw [List.length_append, hL'] at this
          exact this
      · refine List.Perm.cons _ ?_
        have : List.range' nb (2 * (seg.length - 1)) =
            [nb, nb + 1] ++ List.range' (nb + 2) (2 * (L.length - 1)) ++
              List.range' (nb + 2 + 2 * (L.length - 1)) (2 * (R.length - 1)) := by
          have e : 2 * (seg.length - 1) = 2 + 2 * (L.length - 1) + 2 * (R.length - 1) := by omega
          rw [e, ← List.range'_append_1, ← List.range'_append_1, ← Nat.add_assoc nb]
          rfl
        rw [this]
        refine (i1.append i2).trans ?_
        rw [List.perm_iff_count]
        intro y
        simp only [List.count_append, List.count_cons, List.count_nil]
        omega
      · simp [BT.prims, pr1, pr2]
      · refine fit1.node fit2 ?_
        rw [pr1, pr2]
        exact ((p1.append p2).trans hLRseg).symm
      · intro bv l r hu
        cases hu with
        | refl =>
          refine ⟨seg, by rw [pr1, pr2]; exact ((p1.append p2).trans hLRseg).symm, rfl, ?_⟩
          rw [pr1, pr2, hL']
          refine hsort.imp (fun h => ⟨fun x hx => h.1 x ((p1.mem_iff).1 hx), fun x hx => h.2 x ((p2.mem_iff).1 hx)⟩) (fun h => h)
        | left h => exact so1 bv l r h
        | right h => exact so2 bv l r h

end Fcl
