import Verif.Tree.Spec
import Verif.AABB.Lemmas
import Mathlib.Data.List.Perm.Lattice

/-! Helper lemmas about the hierarchy tree operations. -/

namespace Fcl
namespace HTree
variable {K O : Type*} [LinearOrder K]
set_option linter.unusedSectionVars false

/-- Child-wise enclosure: the invariant the operations maintain. -/
def Enc : HTree K O → Prop
  | leaf _ _ _ => True
  | node b l r => b.contain l.bv = true ∧ b.contain r.bv = true ∧ l.Enc ∧ r.Enc

theorem Enc.contain_leaf {t : HTree K O} (h : t.Enc) : ∀ x ∈ t.leaves, t.bv.contain x.2.1 = true := by
  induction t with
  | leaf i b o => simp [leaves, bv, AABB.contain_refl]
  | node b l r ihl ihr =>
    obtain ⟨h1, h2, h3, h4⟩ := h
    intro x hx
    simp only [leaves, List.mem_append] at hx
    rcases hx with hx | hx
    · exact AABB.contain_trans h1 (ihl h3 x hx)
    · exact AABB.contain_trans h2 (ihr h4 x hx)

theorem Enc.encloses {t : HTree K O} (h : t.Enc) : t.Encloses := by
  induction t with
  | leaf i b o => trivial
  | node b l r ihl ihr =>
    have h' := h
    obtain ⟨h1, h2, h3, h4⟩ := h
    exact ⟨fun x hx => h'.contain_leaf x hx, ihl h3, ihr h4⟩

theorem leaves_ne_nil (t : HTree K O) : t.leaves ≠ [] := by
  induction t with
  | leaf => simp [leaves]
  | node b l r ihl ihr => simp [leaves, ihl]

@[simp] theorem ofLeaf_leaves (x : Nat × AABB K × O) : (ofLeaf x).leaves = [x] := rfl
@[simp] theorem ofLeaf_enc (x : Nat × AABB K × O) : (ofLeaf x).Enc := trivial
@[simp] theorem ofLeaf_bv (x : Nat × AABB K × O) : (ofLeaf x).bv = x.2.1 := rfl

/-! ### insertion -/

theorem insertGo_leaves (cfg : Cfg K O) (x) (t : HTree K O) :
    (insertGo cfg x t).1.leaves.Perm (x :: t.leaves) := by
  induction t with
  | leaf j b o => exact List.Perm.swap _ _ _
  | node b l r ihl ihr =>
    unfold insertGo
    split
    · have : (l.leaves ++ (insertGo cfg x r).1.leaves).Perm (x :: (l.leaves ++ r.leaves)) :=
        (List.Perm.append_left _ ihr).trans List.perm_middle
      dsimp only
      split
      · split <;> exact this
      · exact this
    · have : ((insertGo cfg x l).1.leaves ++ r.leaves).Perm (x :: (l.leaves ++ r.leaves)) :=
        List.Perm.append_right _ ihl
      dsimp only
      split
      · split <;> exact this
      · exact this

theorem insertGo_bv (cfg : Cfg K O) (x) (t : HTree K O) (h : (insertGo cfg x t).2 = false) :
    (insertGo cfg x t).1.bv = t.bv := by
  cases t with
  | leaf => simp [insertGo] at h
  | node b l r =>
    unfold insertGo at h ⊢
    split <;> rename_i hs <;> simp only [hs, if_true, Bool.false_eq_true, if_false] at h ⊢
    · split
      · rename_i hf
        simp only [hf, if_true] at h
        split
        · rfl
        · rename_i hc; simp [hc] at h
      · rfl
    · split
      · rename_i hf
        simp only [hf, if_true] at h
        split
        · rfl
        · rename_i hc; simp [hc] at h
      · rfl

theorem insertGo_enc (cfg : Cfg K O) (x) (t : HTree K O) (ht : t.Enc) :
    (insertGo cfg x t).1.Enc := by
  induction t with
  | leaf j b o =>
    exact ⟨AABB.merge_contain_right _ _, AABB.merge_contain_left _ _, trivial, trivial⟩
  | node b l r ihl ihr =>
    obtain ⟨h1, h2, h3, h4⟩ := ht
    unfold insertGo
    split
    · dsimp only
      split
      · split
        · rename_i hc; exact ⟨h1, hc, h3, ihr h4⟩
        · exact ⟨AABB.merge_contain_left _ _, AABB.merge_contain_right _ _, h3, ihr h4⟩
      · rename_i hf
        refine ⟨h1, ?_, h3, ihr h4⟩
        rw [insertGo_bv cfg x r (by simpa using hf)]; exact h2
    · dsimp only
      split
      · split
        · rename_i hc; exact ⟨hc, h2, ihl h3, h4⟩
        · exact ⟨AABB.merge_contain_left _ _, AABB.merge_contain_right _ _, ihl h3, h4⟩
      · rename_i hf
        refine ⟨?_, h2, ihl h3, h4⟩
        rw [insertGo_bv cfg x l (by simpa using hf)]; exact h1

/-- Leaves of an optional tree. -/
def oleaves : Option (HTree K O) → List (Nat × AABB K × O)
  | none => []
  | some t => t.leaves

/-- Enclosure of an optional tree. -/
def OEnc : Option (HTree K O) → Prop
  | none => True
  | some t => t.Enc

theorem insertLeaf_leaves (cfg : Cfg K O) (t : Option (HTree K O)) (x) :
    (insertLeaf cfg t x).leaves.Perm (x :: oleaves t) := by
  cases t with
  | none => exact List.Perm.refl _
  | some t => exact insertGo_leaves cfg x t

theorem insertLeaf_enc (cfg : Cfg K O) (t : Option (HTree K O)) (x) (h : OEnc t) :
    (insertLeaf cfg t x).Enc := by
  cases t with
  | none => exact trivial
  | some t => exact insertGo_enc cfg x t h

/-! ### removal -/

theorem tightenNode_leaves (cfg : Cfg K O) (b) (l r : HTree K O) (go) :
    (tightenNode cfg b l r go).1.leaves = l.leaves ++ r.leaves := by
  unfold tightenNode
  split
  · dsimp only; split <;> rfl
  · rfl

theorem tightenNode_enc (cfg : Cfg K O) (b) (l r : HTree K O) (go)
    (hl : l.Enc) (hr : r.Enc) (h1 : b.contain l.bv = true) (h2 : b.contain r.bv = true) :
    (tightenNode cfg b l r go).1.Enc ∧ b.contain (tightenNode cfg b l r go).1.bv = true := by
  unfold tightenNode
  split
  · dsimp only
    split
    · exact ⟨⟨AABB.merge_contain_left _ _, AABB.merge_contain_right _ _, hl, hr⟩,
        AABB.merge_least h1 h2⟩
    · exact ⟨⟨h1, h2, hl, hr⟩, AABB.contain_refl _⟩
  · exact ⟨⟨h1, h2, hl, hr⟩, AABB.contain_refl _⟩

theorem removeGo_spec (cfg : Cfg K O) (i : Nat) (t : HTree K O) :
    match removeGo cfg i t with
    | .absent => ∀ x ∈ t.leaves, x.1 ≠ i
    | .here x => t.leaves = [x] ∧ x.1 = i
    | .done t' x _ => t.leaves.Perm (x :: t'.leaves) ∧ x.1 = i := by
  induction t with
  | leaf j b o =>
    unfold removeGo
    by_cases h : j = i <;> simp [h, leaves]
  | node b l r ihl ihr =>
    unfold removeGo
    cases hx : removeGo cfg i l with
    | here x =>
      rw [hx] at ihl
      simp only [leaves, ihl.1, List.singleton_append]
      exact ⟨List.Perm.refl _, ihl.2⟩
    | done l' x go =>
      rw [hx] at ihl
      simp only [tightenNode_leaves, leaves]
      exact ⟨List.Perm.append_right _ ihl.1, ihl.2⟩
    | absent =>
      rw [hx] at ihl
      simp only at ihl
      cases hx' : removeGo cfg i r with
      | here x =>
        rw [hx'] at ihr
        simp only [leaves, ihr.1]
        exact ⟨List.perm_append_singleton _ _, ihr.2⟩
      | done r' x go =>
        rw [hx'] at ihr
        simp only [tightenNode_leaves, leaves]
        exact ⟨(List.Perm.append_left _ ihr.1).trans List.perm_middle, ihr.2⟩
      | absent =>
        rw [hx'] at ihr
        intro x hmem
        simp only [leaves, List.mem_append] at hmem
        exact hmem.elim (ihl x) (ihr x)

theorem removeGo_enc (cfg : Cfg K O) (i : Nat) (t : HTree K O) (ht : t.Enc) :
    match removeGo cfg i t with
    | .done t' _ _ => t'.Enc ∧ t.bv.contain t'.bv = true
    | _ => True := by
  induction t with
  | leaf j b o =>
    unfold removeGo
    by_cases h : j = i <;> simp [h]
  | node b l r ihl ihr =>
    obtain ⟨h1, h2, h3, h4⟩ := ht
    unfold removeGo
    cases hx : removeGo cfg i l with
    | here x => exact ⟨h4, h2⟩
    | done l' x go =>
      have := ihl h3
      rw [hx] at this
      exact tightenNode_enc cfg b l' r go this.1 h4 (AABB.contain_trans h1 this.2) h2
    | absent =>
      cases hx' : removeGo cfg i r with
      | here x => exact ⟨h3, h1⟩
      | done r' x go =>
        have := ihr h4
        rw [hx'] at this
        exact tightenNode_enc cfg b l r' go h3 this.1 h1 (AABB.contain_trans h2 this.2)
      | absent => trivial

/-- If the leaf is there, `removeLeaf` succeeds and returns it. -/
theorem removeLeaf_spec (cfg : Cfg K O) (i : Nat) (t : HTree K O) (ht : t.Enc)
    (hi : ∃ x ∈ t.leaves, x.1 = i) :
    ∃ t' x, removeLeaf cfg i t = some (t', x) ∧ t.leaves.Perm (x :: oleaves t') ∧ x.1 = i ∧
      OEnc t' := by
  have h := removeGo_spec cfg i t
  have he := removeGo_enc cfg i t ht
  unfold removeLeaf
  cases hr : removeGo cfg i t with
  | absent =>
    rw [hr] at h
    obtain ⟨x, hx, hxi⟩ := hi
    exact absurd hxi (h x hx)
  | here x =>
    rw [hr] at h
    exact ⟨none, x, rfl, by rw [h.1]; exact List.Perm.refl _, h.2, trivial⟩
  | done t' x go =>
    rw [hr] at h he
    exact ⟨some t', x, rfl, h.1, h.2, he.1⟩

theorem reinsertWith_spec (cfg : Cfg K O) (i : Nat) (b : AABB K) (t : HTree K O) (ht : t.Enc)
    (hi : ∃ x ∈ t.leaves, x.1 = i) :
    ∃ t' x ls, reinsertWith cfg i b t = some t' ∧ t.leaves.Perm (x :: ls) ∧ x.1 = i ∧
      t'.leaves.Perm ((x.1, b, x.2.2) :: ls) ∧ t'.Enc := by
  obtain ⟨t', x, h1, h2, h3, h4⟩ := removeLeaf_spec cfg i t ht hi
  refine ⟨insertLeaf cfg t' (x.1, b, x.2.2), x, oleaves t', ?_, h2, h3, insertLeaf_leaves _ _ _,
    insertLeaf_enc _ _ _ h4⟩
  unfold reinsertWith
  rw [h1]

theorem reinsert_spec (cfg : Cfg K O) (i : Nat) (t : HTree K O) (ht : t.Enc)
    (hi : ∃ x ∈ t.leaves, x.1 = i) :
    ∃ t', reinsert cfg i t = some t' ∧ t'.leaves.Perm t.leaves ∧ t'.Enc := by
  obtain ⟨t', x, h1, h2, h3, h4⟩ := removeLeaf_spec cfg i t ht hi
  refine ⟨insertLeaf cfg t' x, ?_, (insertLeaf_leaves _ _ _).trans h2.symm,
    insertLeaf_enc _ _ _ h4⟩
  unfold reinsert
  rw [h1]

/-! ### incremental balancing -/

theorem walk_mem (opath bit : Nat) (t : HTree K O) : ∃ x ∈ t.leaves, x.1 = walk opath bit t := by
  induction t generalizing bit with
  | leaf i b o => exact ⟨(i, b, o), by simp [leaves], rfl⟩
  | node b l r ihl ihr =>
    unfold walk
    split
    · obtain ⟨x, hx, e⟩ := ihr ((bit + 1) % 32)
      exact ⟨x, by simp [leaves, hx], e⟩
    · obtain ⟨x, hx, e⟩ := ihl ((bit + 1) % 32)
      exact ⟨x, by simp [leaves, hx], e⟩

theorem balanceLoop_spec (cfg : Cfg K O) (n opath : Nat) (t : HTree K O) (ht : t.Enc) :
    ∃ t' op, balanceLoop cfg n opath t = some (t', op) ∧ t'.leaves.Perm t.leaves ∧ t'.Enc := by
  induction n generalizing opath t with
  | zero => exact ⟨t, opath, rfl, List.Perm.refl _, ht⟩
  | succ n ih =>
    obtain ⟨t1, h1, h2, h3⟩ := reinsert_spec cfg _ t ht (walk_mem opath 0 t)
    obtain ⟨t2, op, k1, k2, k3⟩ := ih ((opath + 1) % 2 ^ 32) t1 h3
    refine ⟨t2, op, ?_, k2.trans h2, k3⟩
    unfold balanceLoop
    rw [h1]; exact k1

/-! ### refit and setting leaves -/

theorem refit_leaves (t : HTree K O) : t.refit.leaves = t.leaves := by
  induction t with
  | leaf => rfl
  | node b l r ihl ihr => simp [refit, leaves, ihl, ihr]

theorem refit_enc (t : HTree K O) : t.refit.Enc := by
  induction t with
  | leaf => trivial
  | node b l r ihl ihr => exact ⟨AABB.merge_contain_left _ _, AABB.merge_contain_right _ _, ihl, ihr⟩

theorem setLeaf_leaves (i : Nat) (b : AABB K) (t : HTree K O) :
    (t.setLeaf i b).leaves = t.leaves.map (fun x => if x.1 = i then (x.1, b, x.2.2) else x) := by
  induction t with
  | leaf j c o => by_cases h : j = i <;> simp [setLeaf, leaves, h]
  | node c l r ihl ihr => simp [setLeaf, leaves, ihl, ihr]

/-! ### building -/

/-- All leaves of a list of trees. -/
def allLeaves (ts : List (HTree K O)) : List (Nat × AABB K × O) := ts.flatMap leaves

theorem allLeaves_perm {ts us : List (HTree K O)} (h : ts.Perm us) :
    (allLeaves ts).Perm (allLeaves us) := h.flatMap_right _

@[simp] theorem allLeaves_ofLeaf (xs : List (Nat × AABB K × O)) : allLeaves (xs.map ofLeaf) = xs := by
  induction xs with
  | nil => rfl
  | cons x xs ih => simp [allLeaves] at ih ⊢; exact ih

theorem scanRow_bound (cfg : Cfg K O) (i : Nat) (bi : AABB K) (n : Nat) (ts : List (HTree K O)) (j : Nat)
    (best) (hi : i < j) (hn : n = j + ts.length)
    (hb : ∀ p q m, best = some (p, q, m) → p < q ∧ q < n) :
    ∀ p q m, scanRow cfg i bi j ts best = some (p, q, m) → p < q ∧ q < n := by
  induction ts generalizing j best with
  | nil => exact hb
  | cons t ts ih =>
    unfold scanRow
    refine ih (j + 1) _ (by omega) (by simp at hn; omega) ?_
    intro p q m
    split
    · split
      · rintro ⟨⟩; simp at hn; omega
      · simp
    · split
      · rintro ⟨⟩; simp at hn; omega
      · rename_i p' q' m' _; rintro ⟨⟩; exact hb _ _ _ rfl

theorem scanPairs_bound (cfg : Cfg K O) (n : Nat) (ts : List (HTree K O)) (i : Nat) (best)
    (hn : n = i + ts.length) (hb : ∀ p q m, best = some (p, q, m) → p < q ∧ q < n) :
    ∀ p q m, scanPairs cfg i ts best = some (p, q, m) → p < q ∧ q < n := by
  induction ts generalizing i best with
  | nil => exact hb
  | cons t ts ih =>
    unfold scanPairs
    exact ih (i + 1) _ (by simp at hn; omega)
      (scanRow_bound cfg i t.bv n ts (i + 1) best (by omega) (by simp at hn; omega) hb)

theorem scanRow_some (cfg : Cfg K O) (i : Nat) (bi : AABB K) (ts : List (HTree K O)) (j : Nat) (best)
    (hb : best ≠ none) : scanRow cfg i bi j ts best ≠ none := by
  induction ts generalizing j best with
  | nil => exact hb
  | cons t ts ih =>
    unfold scanRow
    refine ih _ _ ?_
    split
    · exact absurd rfl hb
    · split <;> simp

theorem scanPairs_some (cfg : Cfg K O) (ts : List (HTree K O)) (i : Nat) (best)
    (hb : best ≠ none) : scanPairs cfg i ts best ≠ none := by
  induction ts generalizing i best with
  | nil => exact hb
  | cons t ts ih => exact ih _ _ (scanRow_some cfg i _ ts _ best hb)

theorem scanPairs_two (cfg : Cfg K O) (hs : ∀ b, cfg.sizeOk b = true) (t u : HTree K O) (ts) :
    scanPairs cfg 0 (t :: u :: ts) none ≠ none := by
  unfold scanPairs
  apply scanPairs_some
  unfold scanRow
  apply scanRow_some
  simp [hs]

/-- Removing position `i < j`, joining: the list is a permutation of `a, b, rest`. -/
theorem perm_two {α : Type*} (ts : List α) (i j : Nat) (hij : i < j) (hj : j < ts.length) (p : α) (z : α)
    (hz : ts.getLast? = some z) :
    ∃ rest, ts.Perm (ts[i] :: ts[j] :: rest) ∧ (((ts.set i p).set j z).dropLast).Perm (p :: rest) := by
  obtain ⟨init, rfl⟩ : ∃ init, ts = init ++ [z] := by
    rw [List.getLast?_eq_some_iff] at hz; exact hz
  have hi : i < init.length := by simp at hj; omega
  have hset : ((init ++ [z]).set i p) = init.set i p ++ [z] := by
    rw [List.set_append_left _ _ hi]
  have split_i : ∀ q : α, ∃ a b, init = a ++ init[i] :: b ∧ init.set i q = a ++ q :: b ∧ a.length = i := by
    intro q
    refine ⟨init.take i, init.drop (i + 1), ?_, ?_, by simp; omega⟩
    · rw [List.getElem_cons_drop, List.take_append_drop]
    · exact List.set_eq_take_append_cons_drop .. |>.trans (by simp [hi])
  by_cases hjl : j = init.length
  · subst hjl
    obtain ⟨a, b, h1, h2, h3⟩ := split_i p
    refine ⟨a ++ b, ?_, ?_⟩
    · have e1 : (init ++ [z])[i]'(by simp; omega) = init[i] := List.getElem_append_left hi
      have e2 : (init ++ [z])[init.length]'(by simp) = z := by simp
      rw [e1, e2]
      refine (List.perm_append_singleton z init).trans ?_
      refine List.Perm.trans ?_ (List.Perm.swap _ _ _)
      refine List.Perm.cons _ ?_
      conv_lhs => rw [h1]
      exact List.perm_middle
    · rw [hset, List.set_append_right _ _ (by simp)]
      simp only [List.length_set, Nat.sub_self, List.set_cons_zero, List.dropLast_concat]
      rw [h2]
      exact List.perm_middle
  · have hj' : j < init.length := by simp at hj; omega
    obtain ⟨a, b, h1, h2, h3⟩ := split_i p
    -- split b at j
    have hjb : j - i - 1 < b.length := by
      have : init.length = a.length + b.length + 1 := by
        conv_lhs => rw [h1]
        simp; omega
      omega
    have hbs : b = b.take (j - i - 1) ++ b[j - i - 1] :: b.drop (j - i - 1 + 1) := by
      rw [List.getElem_cons_drop, List.take_append_drop]
    have hbset : b.set (j - i - 1) z = b.take (j - i - 1) ++ z :: b.drop (j - i - 1 + 1) :=
      List.set_eq_take_append_cons_drop .. |>.trans (by simp [hjb])
    have ej : init[j] = b[j - i - 1] := by
      have h0 : init[j]? = (a ++ init[i] :: b)[j]? := by rw [← h1]
      rw [List.getElem?_append_right (by omega)] at h0
      obtain ⟨k, hk⟩ : ∃ k, j - a.length = k + 1 := ⟨j - i - 1, by omega⟩
      rw [hk, List.getElem?_cons_succ] at h0
      have hk' : k = j - i - 1 := by omega
      subst hk'
      rw [List.getElem?_eq_getElem hj', List.getElem?_eq_getElem hjb] at h0
      exact Option.some.inj h0
    refine ⟨a ++ (b.take (j - i - 1) ++ z :: b.drop (j - i - 1 + 1)), ?_, ?_⟩
    · have e1 : (init ++ [z])[i]'(by simp; omega) = init[i] := List.getElem_append_left hi
      have e2 : (init ++ [z])[j] = init[j] := List.getElem_append_left hj'
      rw [e1, e2, ej]
      refine (List.perm_append_singleton z init).trans ?_
      conv_lhs => rw [h1]
      refine (List.Perm.cons z List.perm_middle).trans ((List.Perm.swap _ _ _).trans ?_)
      refine List.Perm.cons _ ?_
      conv_lhs => rw [hbs]
      -- z :: (a ++ (p ++ bj :: q)) ~ bj :: (a ++ (p ++ z :: q))
      have s1 : ∀ (c : α) (P Q : List α), (a ++ (P ++ c :: Q)).Perm (c :: (a ++ (P ++ Q))) := by
        intro c P Q
        rw [← List.append_assoc, ← List.append_assoc]
        exact List.perm_middle
      exact ((s1 _ _ _).cons z).trans ((List.Perm.swap _ _ _).trans ((s1 z _ _).symm.cons _))
    · rw [hset, List.set_append_left _ _ (by simpa using hj'), List.dropLast_concat, h2,
        List.set_append_right _ _ (by omega)]
      obtain ⟨k, hk⟩ : ∃ k, j - a.length = k + 1 := ⟨j - i - 1, by omega⟩
      have hk' : k = j - i - 1 := by omega
      rw [hk, List.set_cons_succ, hk', hbset]
      exact List.perm_middle

/-- Root box is the least box around the leaves, at every node. -/
def Tight : HTree K O → Prop
  | leaf _ _ _ => True
  | node b l r => (∀ c : AABB K, (∀ x ∈ l.leaves ++ r.leaves, c.contain x.2.1 = true) → c.contain b = true)
      ∧ l.Tight ∧ r.Tight

theorem Tight.least {t : HTree K O} (h : t.Tight) (c : AABB K)
    (hc : ∀ x ∈ t.leaves, c.contain x.2.1 = true) : c.contain t.bv = true := by
  cases t with
  | leaf i b o => exact hc (i, b, o) (by simp [leaves])
  | node b l r => exact h.1 c hc

theorem merge_tight {l r : HTree K O} (hl : l.Tight) (hr : r.Tight) :
    (node (l.bv.merge r.bv) l r).Tight := by
  refine ⟨fun c hc => AABB.merge_least (hl.least c fun x hx => hc x (by simp [hx]))
    (hr.least c fun x hx => hc x (by simp [hx])), hl, hr⟩

theorem refit_tight (t : HTree K O) : t.refit.Tight := by
  induction t with
  | leaf => trivial
  | node b l r ihl ihr => exact merge_tight ihl ihr

end HTree
end Fcl
