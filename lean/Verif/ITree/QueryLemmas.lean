import Verif.ITree.Lemmas

set_option linter.unusedSectionVars false
set_option linter.unusedSimpArgs false

namespace Fcl.ITree

variable {K I : Type*} [LinearOrder K]

/-- Does the query range hit the interval? -/
def hit (lo hi : K) (a : Ivl K I) : Bool := overlap lo hi a.low a.high

/-- What the loop of `query` collects in a subtree. -/
def visit (bot lo hi : K) : T K I → List (Ivl K I)
  | .nil => []
  | .node l d r =>
    (if hit lo hi d.ivl then [d.ivl] else []) ++
      if lo ≤ mh bot l then
        visit bot lo hi l ++ if visit bot lo hi l = [] then [] else visit bot lo hi r
      else visit bot lo hi r

/-- The state after the subtree at hand is exhausted. -/
def resume (S : List (SFrame K I)) (cur : ℕ) (res : List (Ivl K I)) : QSt K I :=
  let (x, s, c) := popLoop (S.length - 1) S cur
  ⟨x, s, c, res⟩

/-- The state when the loop turns to the subtree `x`. -/
def enter (x : T K I) (S : List (SFrame K I)) (cur : ℕ) (res : List (Ivl K I)) : QSt K I :=
  match x with
  | .nil => resume S cur res
  | .node l d r => ⟨.node l d r, S, cur, res⟩

/-- Mark the last entry, if anything was found. -/
def bump (S : List (SFrame K I)) (b : Bool) : List (SFrame K I) :=
  if b then mark (S.length - 1) S else S

theorem bump_length (S : List (SFrame K I)) (b : Bool) : (bump S b).length = S.length := by
  cases b <;> simp [bump, mark]

theorem bump_bump (S : List (SFrame K I)) (b c : Bool) : bump (bump S b) c = bump S (b || c) := by
  cases b <;> cases c <;> simp [bump, mark]
  apply List.ext_getElem?
  intro i
  simp only [List.getElem?_modify]
  split <;> cases S[i]? <;> rfl

theorem bump_append (S : List (SFrame K I)) (F : SFrame K I) (b : Bool) :
    bump (S ++ [F]) b = S ++ [{ F with tryRight := b || F.tryRight }] := by
  cases b
  · simp [bump]
  · simp only [bump, if_true, mark, List.length_append, List.length_singleton, Nat.add_sub_cancel]
    apply List.ext_getElem?
    intro i
    simp only [List.getElem?_modify]
    rcases Nat.lt_trichotomy i S.length with h | h | h
    · simp [List.getElem?_append_left h, h.ne']
    · subst h; simp
    · have : i - S.length ≠ 0 := by omega
      obtain ⟨j, hj⟩ := Nat.exists_eq_succ_of_ne_zero this
      simp [List.getElem?_append_right h.le, h.ne, hj]

theorem resume_pop (S : List (SFrame K I)) (hS : S ≠ []) (F : SFrame K I) (cur : ℕ)
    (res : List (Ivl K I)) :
    resume (S ++ [F]) cur res =
      if F.tryRight then enter F.right (mark F.parent S) F.parent res else resume S cur res := by
  obtain ⟨n, hn⟩ : ∃ n, S.length = n + 1 := by
    cases S with
    | nil => exact absurd rfl hS
    | cons a S => exact ⟨S.length, by simp⟩
  have h1 : (S ++ [F])[n + 1]? = some F := by rw [← hn]; simp
  have h2 : (S ++ [F]).take (n + 1) = S := by rw [← hn]; simp
  simp only [resume, List.length_append, List.length_singleton, Nat.add_sub_cancel, hn]
  rw [popLoop]
  simp only [h1, h2]
  cases hF : F.tryRight
  · simp [resume, hn]
  · simp only [if_true]
    cases hr : F.right with
    | nil => simp [enter, resume, mark, hn]
    | node l d r => simp [enter]

theorem qStep_eq (bot lo hi : K) (l : T K I) (d : Nd K I) (r : T K I) (S : List (SFrame K I))
    (res : List (Ivl K I)) :
    qStep bot lo hi l d r S (S.length - 1) res =
      if lo ≤ mh bot l then
        enter l (bump S (hit lo hi d.ivl) ++ [⟨r, S.length - 1, false⟩]) S.length
          (res ++ if hit lo hi d.ivl then [d.ivl] else [])
      else enter r (bump S (hit lo hi d.ivl)) (S.length - 1)
          (res ++ if hit lo hi d.ivl then [d.ivl] else []) := by
  have e : overlap lo hi d.ivl.low d.ivl.high = hit lo hi d.ivl := rfl
  simp only [qStep, e]
  have hb : (if hit lo hi d.ivl then mark (S.length - 1) S else S) = bump S (hit lo hi d.ivl) := rfl
  rw [hb]
  have hr : (if hit lo hi d.ivl then res ++ [d.ivl] else res) =
      res ++ if hit lo hi d.ivl then [d.ivl] else [] := by split <;> simp
  rw [hr]
  by_cases hl : lo ≤ mh bot l
  · simp only [hl, if_true, bump_length]
    cases l <;> rfl
  · simp only [hl, if_false]
    cases r <;> rfl

theorem qLoop_subtree (bot lo hi : K) (t : T K I) : ∀ (S : List (SFrame K I)) (res : List (Ivl K I)),
    S ≠ [] → ∃ k cur', k ≤ t.size ∧ ∀ n,
      qLoop bot lo hi (n + k) (enter t S (S.length - 1) res) =
        qLoop bot lo hi n (resume (bump S (decide (visit bot lo hi t ≠ []))) cur'
          (res ++ visit bot lo hi t)) := by
  induction t with
  | nil =>
    intro S res _
    exact ⟨0, S.length - 1, Nat.zero_le _, fun n => by simp [visit, bump, enter]⟩
  | node l d r ihl ihr =>
    intro S res hS
    have hb : bump S (hit lo hi d.ivl) ≠ [] := by
      rw [← List.length_pos_iff, bump_length]; exact List.length_pos_iff.2 hS
    have hlen := bump_length S (hit lo hi d.ivl)
    have hstep : ∀ m, qLoop bot lo hi (m + 1) (enter (.node l d r) S (S.length - 1) res) =
        qLoop bot lo hi m (qStep bot lo hi l d r S (S.length - 1) res) := fun m => rfl
    by_cases hl : lo ≤ mh bot l
    · obtain ⟨k, c, hk, h⟩ := ihl (bump S (hit lo hi d.ivl) ++ [⟨r, S.length - 1, false⟩])
        (res ++ if hit lo hi d.ivl then [d.ivl] else []) (by simp)
      have hSl : (bump S (hit lo hi d.ivl) ++ [(⟨r, S.length - 1, false⟩ : SFrame K I)]).length - 1 =
          S.length := by simp [hlen]
      rw [hSl] at h
      by_cases hv : visit bot lo hi l = []
      · refine ⟨k + 1, c, by simp only [T.size]; omega, fun n => ?_⟩
        rw [← Nat.add_assoc, hstep, qStep_eq, if_pos hl, h, bump_append, resume_pop _ hb]
        simp only [hv, visit, if_pos hl, List.append_nil, ne_eq, not_true_eq_false, decide_false,
          Bool.or_self, Bool.false_eq_true, if_false, if_true]
        by_cases hh : hit lo hi d.ivl
        · simp [hh]
        · simp [hh]
      · obtain ⟨k', c', hk', h'⟩ := ihr (bump (bump S (hit lo hi d.ivl)) true)
          ((res ++ if hit lo hi d.ivl then [d.ivl] else []) ++ visit bot lo hi l)
          (by rw [← List.length_pos_iff, bump_length, bump_length]; exact List.length_pos_iff.2 hS)
        refine ⟨k' + k + 1, c', by simp only [T.size]; omega, fun n => ?_⟩
        rw [show n + (k' + k + 1) = (n + k') + k + 1 by omega, hstep, qStep_eq, if_pos hl, h,
          bump_append, resume_pop _ hb]
        simp only [ne_eq, hv, not_false_eq_true, decide_true, Bool.true_or, if_true]
        have e1 : mark (S.length - 1) (bump S (hit lo hi d.ivl)) =
            bump (bump S (hit lo hi d.ivl)) true := by
          rw [← hlen]; generalize bump S (hit lo hi d.ivl) = S0; simp [bump]
        rw [bump_length, bump_length] at h'
        rw [e1, h', bump_bump, bump_bump]
        simp [visit, hl, hv]
    · obtain ⟨k, c, hk, h⟩ := ihr (bump S (hit lo hi d.ivl))
        (res ++ if hit lo hi d.ivl then [d.ivl] else []) hb
      refine ⟨k + 1, c, by simp only [T.size]; omega, fun n => ?_⟩
      rw [bump_length] at h
      rw [← Nat.add_assoc, hstep, qStep_eq, if_neg hl, h, bump_bump]
      simp only [visit, if_neg hl]
      have e2 : (hit lo hi d.ivl || decide (visit bot lo hi r ≠ [])) =
          decide ((if hit lo hi d.ivl then [d.ivl] else []) ++ visit bot lo hi r ≠ []) := by
        by_cases hh : hit lo hi d.ivl <;> simp [hh]
      rw [e2]
      simp

theorem query_eq_visit (bot lo hi : K) (st : St K I) :
    query bot st lo hi = some (visit bot lo hi st.t) := by
  have hq : query bot st lo hi =
      qLoop bot lo hi st.t.size (enter st.t [⟨.nil, 0, false⟩] 0 []) := by
    rw [query]
    cases st.t <;> rfl
  obtain ⟨k, c, hk, h⟩ := qLoop_subtree bot lo hi st.t [⟨.nil, 0, false⟩] [] (by simp)
  have := h (st.t.size - k)
  rw [Nat.sub_add_cancel hk] at this
  rw [hq]
  simp only [List.length_singleton, Nat.sub_self, List.nil_append] at this
  rw [this]
  have e : ∀ b, (bump ([⟨.nil, 0, false⟩] : List (SFrame K I)) b).length - 1 = 0 := by
    intro b; rw [bump_length]; rfl
  simp only [resume, e, popLoop]
  cases st.t.size - k <;> rfl

theorem mh_lt {bot lo : K} {t : T K I} (hm : MHok bot t) (h : mh bot t < lo) :
    ∀ a ∈ toList t, a.high < lo := by
  induction t with
  | nil => simp [toList]
  | node l d r ihl ihr =>
    obtain ⟨e, hl, hr⟩ := hm
    simp only [mh, e, max_lt_iff] at h
    intro a ha
    simp only [toList, List.mem_append, List.mem_cons] at ha
    rcases ha with ha | rfl | ha
    · exact ihl hl h.1 a ha
    · exact h.2.2
    · exact ihr hr h.2.1 a ha

theorem le_mh {bot lo : K} {t : T K I} (hb : bot < lo) (hm : MHok bot t) (h : lo ≤ mh bot t) :
    ∃ a ∈ toList t, lo ≤ a.high := by
  by_contra hc
  push Not at hc
  refine absurd h (not_le.2 ?_)
  induction t with
  | nil => exact hb
  | node l d r ihl ihr =>
    obtain ⟨e, hl, hr⟩ := hm
    simp only [mh, e, max_lt_iff]
    simp only [toList, List.mem_append, List.mem_cons] at hc
    refine ⟨?_, ?_, hc _ (Or.inr (Or.inl rfl))⟩
    · by_contra hh
      exact hh (ihl hl (not_lt.1 hh) fun a ha => hc a (Or.inl ha))
    · by_contra hh
      exact hh (ihr hr (not_lt.1 hh) fun a ha => hc a (Or.inr (Or.inr ha)))

theorem visit_perm {bot lo hi : K} (hb : bot < lo) {t : T K I} (hm : MHok bot t)
    (hs : Sorted (toList t)) (hv : ∀ a ∈ toList t, a.low ≤ a.high) :
    (visit bot lo hi t).Perm ((toList t).filter (hit lo hi)) := by
  induction t with
  | nil => exact List.Perm.nil
  | node l d r ihl ihr =>
    have hm0 := hm
    obtain ⟨e, hml, hmr⟩ := hm
    simp only [toList, Sorted, List.pairwise_append, List.pairwise_cons, List.mem_cons] at hs
    obtain ⟨hsl, ⟨hsd, hsr⟩, hslr⟩ := hs
    simp only [toList, List.mem_append, List.mem_cons] at hv
    have il := ihl hml hsl fun a ha => hv a (Or.inl ha)
    have ir := ihr hmr hsr fun a ha => hv a (Or.inr (Or.inr ha))
    have key : (if lo ≤ mh bot l then
        visit bot lo hi l ++ if visit bot lo hi l = [] then [] else visit bot lo hi r
        else visit bot lo hi r).Perm
          ((toList l).filter (hit lo hi) ++ (toList r).filter (hit lo hi)) := by
      split
      · rename_i hl
        by_cases hvl : visit bot lo hi l = []
        · simp only [hvl, if_true, List.append_nil]
          rw [hvl] at il
          have il' := il.symm.eq_nil
          rw [il', List.nil_append]
          obtain ⟨a, ha, hah⟩ := le_mh hb hml hl
          have hna : hit lo hi a = false := by
            have := List.filter_eq_nil_iff.1 il' a ha
            simpa using this
          have hak : lo ≤ a.low ∧ hi < a.low := by
            simp only [hit, overlap] at hna
            split at hna
            · rename_i h1
              exact ⟨h1, by simpa using hna⟩
            · simp [hah] at hna
          have : (toList r).filter (hit lo hi) = [] := by
            refine List.filter_eq_nil_iff.2 fun b hbm => ?_
            have hab : a.low ≤ b.low := hslr a ha b (Or.inr hbm)
            simp [hit, overlap, hak.1.trans hab, hak.2.trans_le hab]
          rw [this]
        · simp only [hvl, if_false]
          exact il.append ir
      · rename_i hl
        have : (toList l).filter (hit lo hi) = [] := by
          refine List.filter_eq_nil_iff.2 fun a ha => ?_
          have h1 := mh_lt hml (not_le.1 hl) a ha
          have h2 := hv a (Or.inl ha)
          have h3 : ¬ lo ≤ a.low := not_le.2 (h2.trans_lt h1)
          simp [hit, overlap, h3, h1]
        rw [this, List.nil_append]
        exact ir
    rw [visit, toList, List.filter_append, List.filter_cons]
    by_cases hh : hit lo hi d.ivl
    · simp only [hh, if_true, List.singleton_append]
      exact (key.cons _).trans List.perm_middle.symm
    · simp only [hh, Bool.false_eq_true, if_false, List.nil_append]
      exact key

end Fcl.ITree
