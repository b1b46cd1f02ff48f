import Verif.IMgr.Spec
import Verif.ITree.Lemmas
import Verif.ITree.QueryLemmas
import Mathlib.Data.List.Nodup
import Mathlib.Tactic.FinCases

/-! The state of the interval tree manager after a history. -/

set_option linter.unusedSectionVars false

namespace Fcl
namespace IMgr
open ITree (Ivl St toList)

variable {K O : Type*} [LinearOrder K] [LinearOrder O] {bot : K}

/-- Object and side of an end point. -/
def key (e : IEnd K O) : O × Bool := (e.obj, e.hi)

theorem onAxes_some {α : Type*} {f : Fin 3 → Option α} {g : Fin 3 → α} :
    onAxes f = some g ↔ ∀ i, f i = some (g i) := by
  unfold onAxes
  constructor
  · intro h
    split at h
    · rename_i a b c ha hb hc
      cases h
      intro i
      fin_cases i
      · exact ha
      · exact hb
      · exact hc
    · cases h
  · intro h
    rw [h 0, h 1, h 2]
    simp only [Option.some.injEq]
    funext i
    fin_cases i <;> rfl

/-! ## The trees -/

/-- The tree on an axis holds exactly the intervals of `f` of the objects in `R`. -/
structure Holds (bot : K) (R : O → Prop) (f : O → AABB K) (i : Fin 3) (t : St K O) : Prop where
  inv : ITree.Inv bot t
  nodup : ((toList t.t).map (·.id)).Nodup
  mem : ∀ a, a ∈ toList t.t ↔ R a.id ∧ a.low = (f a.id).lo.get i ∧ a.high = (f a.id).hi.get i

theorem insertAll_spec (w : O → AABB K) (i : Fin 3) (os : List O) (hn : os.Nodup)
    (hf : ∀ o ∈ os, bot ≤ (w o).hi.get i) (t : St K O) {R : O → Prop} (ht : Holds bot R w i t) (hd : ∀ o ∈ os, ¬ R o) :
    ∃ t', insertAll bot w i os t = some t' ∧ Holds bot (fun o => R o ∨ o ∈ os) w i t' := by
  induction os generalizing t R with
  | nil => exact ⟨t, rfl, ht.inv, ht.nodup, fun a => by rw [ht.mem]; simp⟩
  | cons o os ih =>
    obtain ⟨h1, h2⟩ := List.nodup_cons.1 hn
    obtain ⟨t1, e1, i1, p1⟩ := ITree.insert_spec bot t ⟨o, (w o).lo.get i, (w o).hi.get i⟩ ht.inv (hf o (List.mem_cons_self ..))
    have ht1 : Holds bot (fun p => R p ∨ p = o) w i t1 := by
      refine ⟨i1, ?_, fun a => ?_⟩
      · refine ((p1.map _).nodup_iff).2 ?_
        rw [List.map_cons, List.nodup_cons]
        refine ⟨?_, ht.nodup⟩
        rintro hm
        obtain ⟨a, ha, e⟩ := List.mem_map.1 hm
        simp only at e
        exact hd o (List.mem_cons_self ..) (e ▸ ((ht.mem a).1 ha).1)
      · rw [p1.mem_iff, List.mem_cons, ht.mem]
        constructor
        · rintro (rfl | ⟨h, h'⟩)
          · exact ⟨Or.inr rfl, rfl, rfl⟩
          · exact ⟨Or.inl h, h'⟩
        · rintro ⟨h | h, h'⟩
          · exact Or.inr ⟨h, h'⟩
          · left
            obtain ⟨id, lo, hi⟩ := a
            simp only at h h'
            subst h
            rw [h'.1, h'.2]
    obtain ⟨t', e', ht'⟩ := ih h2 (fun p hp => hf p (List.mem_cons_of_mem _ hp)) t1 ht1 (fun p hp => by
      rintro (h | h)
      · exact hd p (List.mem_cons_of_mem _ hp) h
      · exact h1 (h ▸ hp))
    refine ⟨t', by rw [insertAll, e1]; exact e', ht'.inv, ht'.nodup, fun a => ?_⟩
    rw [ht'.mem]
    simp only [List.mem_cons, or_assoc]

theorem holds_empty (w : O → AABB K) (i : Fin 3) : Holds bot (fun _ => False) w i (St.empty : St K O) :=
  ⟨ITree.Inv.empty bot, by simp [St.empty, toList], by simp [St.empty, toList]⟩

theorem Holds.congr {R R' : O → Prop} {f f' : O → AABB K} {i : Fin 3} {t : St K O} (h : Holds bot R f i t)
    (hR : ∀ o, R o ↔ R' o) (hf : ∀ o, R o → f o = f' o) : Holds bot R' f' i t := by
  refine ⟨h.inv, h.nodup, fun a => ?_⟩
  rw [h.mem, ← hR]
  constructor
  · rintro ⟨h1, h2⟩; rw [← hf _ h1]; exact ⟨h1, h2⟩
  · rintro ⟨h1, h2⟩; rw [← hf _ h1] at h2; exact ⟨h1, h2⟩

theorem Holds.delete {R : O → Prop} {f : O → AABB K} {i : Fin 3} {t t' : St K O} (h : Holds bot R f i t) {o : O}
    (hd : ITree.delete bot t o = some t') : Holds bot (fun p => R p ∧ p ≠ o) f i t' ∧ R o := by
  obtain ⟨h1, a, ha, hp⟩ := ITree.delete_spec h.inv hd
  have hn : ((a :: toList t'.t).map (·.id)).Nodup := ((hp.map _).nodup_iff).2 h.nodup
  rw [List.map_cons, List.nodup_cons] at hn
  refine ⟨⟨h1, hn.2, fun b => ?_⟩, ha ▸ ((h.mem a).1 (hp.mem_iff.1 (List.mem_cons_self ..))).1⟩
  have hm := h.mem b
  rw [← hp.mem_iff, List.mem_cons] at hm
  constructor
  · intro hb
    obtain ⟨g1, g2⟩ := hm.1 (Or.inr hb)
    refine ⟨⟨g1, fun e => hn.1 ?_⟩, g2⟩
    rw [ha, ← e]
    exact List.mem_map.2 ⟨b, hb, rfl⟩
  · rintro ⟨⟨g1, g2⟩, g3⟩
    rcases hm.2 ⟨g1, g3⟩ with rfl | hb
    · exact absurd ha g2
    · exact hb

theorem Holds.insert {R : O → Prop} {f : O → AABB K} {i : Fin 3} {t : St K O} (h : Holds bot R f i t) {o : O}
    (ho : ¬ R o) (b : AABB K) (hb : bot ≤ b.hi.get i) :
    ∃ t', ITree.insert bot t ⟨o, b.lo.get i, b.hi.get i⟩ = some t' ∧
      Holds bot (fun p => R p ∨ p = o) (fun p => if p = o then b else f p) i t' := by
  obtain ⟨t1, e1, i1, p1⟩ := ITree.insert_spec bot t ⟨o, b.lo.get i, b.hi.get i⟩ h.inv hb
  refine ⟨t1, e1, i1, ?_, fun a => ?_⟩
  · refine ((p1.map _).nodup_iff).2 ?_
    rw [List.map_cons, List.nodup_cons]
    refine ⟨?_, h.nodup⟩
    rintro hm
    obtain ⟨a, ha, e⟩ := List.mem_map.1 hm
    simp only at e
    exact ho (e ▸ ((h.mem a).1 ha).1)
  · rw [p1.mem_iff, List.mem_cons, h.mem]
    obtain ⟨id, lo, hi⟩ := a
    simp only
    by_cases e : id = o
    · subst e
      simp only [ho, false_and, or_false, or_true, true_and, if_pos, Ivl.mk.injEq]
    · simp only [e, or_false, if_false, Ivl.mk.injEq, false_and, false_or]

/-! ## The end points -/

theorem mem_takeWhile {α : Type*} {p : α → Bool} {l : List α} {e : α} (h : e ∈ l.takeWhile p) : p e = true := by
  induction l with
  | nil => simp at h
  | cons x l ih =>
    rw [List.takeWhile_cons] at h
    split at h
    · rcases List.mem_cons.1 h with rfl | h
      · assumption
      · exact ih h
    · simp at h

/-- In a list sorted by value, what fails a downward closed test at some point fails it from there on. -/
theorem mem_dropWhile {p : K → Bool} (hp : ∀ x y, x ≤ y → p y = true → p x = true) {l : List (IEnd K O)}
    (hs : l.Pairwise (fun a b => a.val ≤ b.val)) {e : IEnd K O} (h : e ∈ l.dropWhile (fun e => p e.val)) :
    p e.val = false := by
  induction l with
  | nil => simp at h
  | cons x l ih =>
    obtain ⟨h1, h2⟩ := List.pairwise_cons.1 hs
    rw [List.dropWhile_cons] at h
    split at h
    · exact ih h2 h
    · rename_i hx
      rw [Bool.not_eq_true] at hx
      rcases List.mem_cons.1 h with rfl | h
      · exact hx
      · by_contra hc
        rw [Bool.not_eq_false] at hc
        rw [hp _ _ (h1 e h) hc] at hx
        cases hx

theorem drop_takeWhile {α : Type*} (p : α → Bool) (l : List α) : l.drop (l.takeWhile p).length = l.dropWhile p := by
  induction l with
  | nil => rfl
  | cons x l ih =>
    rw [List.takeWhile_cons, List.dropWhile_cons]
    split
    · rw [List.length_cons, List.drop_succ_cons, ih]
    · rfl

theorem lowerBound_sorted {l : List (IEnd K O)} (hs : l.Pairwise (fun a b => a.val ≤ b.val)) (v : K) :
    lowerBound v l = some (l.takeWhile (fun e => decide (e.val < v))).length := by
  unfold lowerBound
  simp only
  rw [if_pos]
  rw [drop_takeWhile, List.all_eq_true]
  intro e he
  have := mem_dropWhile (p := fun x => decide (x < v)) (fun x y hxy h => by simp at h ⊢; exact lt_of_le_of_lt hxy h) hs he
  simpa using this

theorem upperBound_sorted {l : List (IEnd K O)} (hs : l.Pairwise (fun a b => a.val ≤ b.val)) (v : K) :
    upperBound v l = some (l.takeWhile (fun e => decide (e.val ≤ v))).length := by
  unfold upperBound
  simp only
  rw [if_pos]
  rw [drop_takeWhile, List.all_eq_true]
  intro e he
  have := mem_dropWhile (p := fun x => decide (x ≤ v)) (fun x y hxy h => by simp at h ⊢; exact le_trans hxy h) hs he
  simpa using this

/-- The loop: what it keeps is moved down, the rest of the array stays. -/
theorem compact_spec (o : O) (n i cur : ℕ) (a : List (IEnd K O)) (h1 : cur ≤ i) (h2 : i + n ≤ a.length) :
    compact o n i cur a =
      (cur + (((a.drop i).take n).filter (fun e => decide (e.obj ≠ o))).length,
        a.take cur ++ ((a.drop i).take n).filter (fun e => decide (e.obj ≠ o)) ++
          a.drop (cur + (((a.drop i).take n).filter (fun e => decide (e.obj ≠ o))).length)) := by
  induction n generalizing i cur a with
  | zero => simp [compact]
  | succ n ih =>
    have hi : i < a.length := by omega
    rw [compact, List.getElem?_eq_getElem hi]
    simp only
    have hd : (a.drop i).take (n + 1) = a[i] :: (a.drop (i + 1)).take n := by
      rw [List.drop_eq_getElem_cons hi, List.take_succ_cons]
    rw [hd]
    split
    · rename_i ho
      rw [List.filter_cons_of_pos (by simpa using ho)]
      have hset : ∀ a' : List (IEnd K O), a' = (if i = cur then a else a.set cur a[i]) →
          a'.length = a.length ∧ a'.drop (i + 1) = a.drop (i + 1) ∧ a'.take (cur + 1) = a.take cur ++ [a[i]] ∧
          ∀ k, a'.drop (cur + 1 + k) = a.drop (cur + 1 + k) := by
        intro a' e
        split at e
        · rename_i hic
          subst hic e
          exact ⟨rfl, rfl, by rw [List.take_succ_eq_append_getElem hi], fun _ => rfl⟩
        · subst e
          refine ⟨List.length_set .., List.drop_set_of_lt (by omega), ?_, fun k => List.drop_set_of_lt (by omega)⟩
          rw [List.take_succ_eq_append_getElem (by rw [List.length_set]; omega), List.getElem_set_self,
            List.take_set_of_le (by omega)]
      obtain ⟨g1, g2, g3, g4⟩ := hset _ rfl
      rw [ih (i + 1) (cur + 1) _ (by omega) (by rw [g1]; omega), g2, g3, g4]
      simp only [List.length_cons, List.append_assoc, List.cons_append, List.nil_append, Prod.mk.injEq]
      constructor
      · omega
      · rw [show cur + 1 + (((a.drop (i + 1)).take n).filter (fun e => decide (e.obj ≠ o))).length =
          cur + ((((a.drop (i + 1)).take n).filter (fun e => decide (e.obj ≠ o))).length + 1) by omega]
    · rename_i ho
      rw [List.filter_cons_of_neg (by simpa using ho)]
      exact ih (i + 1) cur a (by omega) (by omega)

/-- What `unregisterObject` does to a sorted array of end points. -/
theorem dropAxis_eq {l : List (IEnd K O)} (hs : l.Pairwise (fun a b => a.val ≤ b.val)) (b : AABB K) (o : O) (i : Fin 3) :
    ∃ pre mid post : List (IEnd K O), l = pre ++ mid ++ post ∧ (∀ e ∈ pre, e.val < b.lo.get i) ∧
      (∀ e ∈ mid, b.lo.get i ≤ e.val ∧ e.val ≤ b.hi.get i) ∧ (∀ e ∈ post, b.lo.get i ≤ e.val ∧ b.hi.get i < e.val) ∧
      dropAxis b o i l =
        if (mid.filter (fun e => decide (e.obj ≠ o))).length < mid.length then
          if l.length < 2 then none
          else some ((pre ++ mid.filter (fun e => decide (e.obj ≠ o)) ++
            l.drop (pre.length + (mid.filter (fun e => decide (e.obj ≠ o))).length)).take (l.length - 2))
        else some l := by
  set pre := l.takeWhile (fun e => decide (e.val < b.lo.get i)) with hpre
  set rest := l.dropWhile (fun e => decide (e.val < b.lo.get i)) with hrest
  set mid := rest.takeWhile (fun e => decide (e.val ≤ b.hi.get i)) with hmid
  set post := rest.dropWhile (fun e => decide (e.val ≤ b.hi.get i)) with hpost
  have e1 : pre ++ rest = l := List.takeWhile_append_dropWhile
  have e2 : mid ++ post = rest := List.takeWhile_append_dropWhile
  have hsr : rest.Pairwise (fun a b => a.val ≤ b.val) := by
    rw [← e1] at hs; exact (List.pairwise_append.1 hs).2.1
  have hr : ∀ e ∈ rest, b.lo.get i ≤ e.val := fun e he => by
    have := mem_dropWhile (p := fun x => decide (x < b.lo.get i))
      (fun x y hxy h => by simp at h ⊢; exact lt_of_le_of_lt hxy h) hs he
    simpa using this
  refine ⟨pre, mid, post, by rw [List.append_assoc, e2, e1], fun e he => ?_, fun e he => ⟨?_, ?_⟩, fun e he => ⟨?_, ?_⟩, ?_⟩
  · simpa using mem_takeWhile he
  · exact hr e (by rw [← e2]; exact List.mem_append_left _ he)
  · simpa using mem_takeWhile he
  · exact hr e (by rw [← e2]; exact List.mem_append_right _ he)
  · have := mem_dropWhile (p := fun x => decide (x ≤ b.hi.get i))
      (fun x y hxy h => by simp at h ⊢; exact le_trans hxy h) hsr he
    simpa using this
  · unfold dropAxis
    rw [lowerBound_sorted hs]
    simp only
    have hdrop : l.drop pre.length = rest := drop_takeWhile _ _
    rw [← hpre, hdrop, upperBound_sorted hsr]
    simp only
    rw [← hmid]
    have hlen : pre.length + mid.length ≤ l.length := by
      rw [← e1, ← e2, List.length_append, List.length_append]; omega
    have htake : (l.drop pre.length).take mid.length = mid := by
      rw [hdrop, ← e2, List.take_left]
    have htp : l.take pre.length = pre := by rw [← e1, List.take_left]
    rw [compact_spec o mid.length pre.length pre.length l (le_refl _) hlen, htake, htp]
    simp only
    split
    · have : (pre.length + (mid.filter (fun e => decide (e.obj ≠ o))).length < pre.length + mid.length) ↔
          (mid.filter (fun e => decide (e.obj ≠ o))).length < mid.length := by omega
      simp only [this]
      by_cases h : (mid.filter (fun e => decide (e.obj ≠ o))).length < mid.length
      · rw [if_pos h, if_pos h]
      · rw [if_neg h, if_neg h]
        have hk : mid.filter (fun e => decide (e.obj ≠ o)) = mid :=
          List.filter_sublist.eq_of_length_le (not_lt.1 h)
        rw [hk]
        congr 1
        conv_rhs => rw [← e1, ← e2]
        rw [← e1, ← e2, ← List.append_assoc, ← List.length_append, List.drop_left]
    · rename_i h
      have : mid = [] := List.length_eq_zero_iff.1 (by omega)
      simp [this]

/-- Both end points of `o` are in the list, once, with the values of the box `b`, when `o` occurs. -/
structure Ends (i : Fin 3) (o : O) (b : AABB K) (l : List (IEnd K O)) : Prop where
  nodup : (l.map key).Nodup
  lo : (⟨o, false, b.lo.get i⟩ : IEnd K O) ∈ l
  hi : (⟨o, true, b.hi.get i⟩ : IEnd K O) ∈ l
  le : b.lo.get i ≤ b.hi.get i

theorem key_inj {l : List (IEnd K O)} (hn : (l.map key).Nodup) {e e' : IEnd K O} (he : e ∈ l) (he' : e' ∈ l)
    (h : key e = key e') : e = e' := List.inj_on_of_nodup_map hn he he' h

theorem Ends.eq {i : Fin 3} {o : O} {b : AABB K} {l : List (IEnd K O)} (h : Ends i o b l) {e : IEnd K O} (he : e ∈ l)
    (ho : e.obj = o) : e = ⟨o, false, b.lo.get i⟩ ∨ e = ⟨o, true, b.hi.get i⟩ := by
  rcases hb : e.hi with _ | _
  · left; exact key_inj h.nodup he h.lo (by simp [key, ho, hb])
  · right; exact key_inj h.nodup he h.hi (by simp [key, ho, hb])

theorem length_filter_two {i : Fin 3} {o : O} {b : AABB K} {l mid : List (IEnd K O)} (h : Ends i o b l)
    (hsub : mid.Sublist l) (h1 : (⟨o, false, b.lo.get i⟩ : IEnd K O) ∈ mid) (h2 : (⟨o, true, b.hi.get i⟩ : IEnd K O) ∈ mid) :
    (mid.filter (fun e => decide (e.obj ≠ o))).length + 2 = mid.length := by
  have hlen : (mid.filter (fun e => decide (e.obj = o))).length = 2 := by
    have hp : (mid.filter (fun e => decide (e.obj = o))).Perm [⟨o, false, b.lo.get i⟩, ⟨o, true, b.hi.get i⟩] := by
      refine (List.perm_ext_iff_of_nodup ?_ ?_).2 fun e => ?_
      · exact List.Nodup.filter _ ((List.Nodup.of_map _ h.nodup).sublist hsub)
      · simp
      · rw [List.mem_filter, decide_eq_true_eq]
        simp only [List.mem_cons, List.not_mem_nil, or_false]
        constructor
        · rintro ⟨he, ho⟩; exact h.eq (hsub.subset he) ho
        · rintro (rfl | rfl)
          · exact ⟨h1, rfl⟩
          · exact ⟨h2, rfl⟩
    rw [hp.length_eq]; rfl
  have := List.length_eq_length_filter_add (l := mid) (fun e => decide (e.obj = o))
  have e : (mid.filter (fun e => !decide (e.obj = o))) = mid.filter (fun e => decide (e.obj ≠ o)) :=
    List.filter_congr (fun e _ => by simp)
  rw [e] at this
  omega

/-- No box reaches further: exactly the end points of `o` go. -/
theorem dropAxis_top {l : List (IEnd K O)} (hs : l.Pairwise (fun a b => a.val ≤ b.val)) {b : AABB K} {o : O} {i : Fin 3}
    (h : Ends i o b l) (ht : ∀ e ∈ l, e.val ≤ b.hi.get i) :
    dropAxis b o i l = some (l.filter (fun e => decide (e.obj ≠ o))) := by
  obtain ⟨pre, mid, post, e, h1, h2, h3, hd⟩ := dropAxis_eq hs b o i
  have hpost : post = [] := by
    rw [List.eq_nil_iff_forall_not_mem]
    intro x hx
    exact absurd (ht x (by rw [e]; exact List.mem_append_right _ hx)) (not_le.2 (h3 x hx).2)
  subst hpost
  rw [List.append_nil] at e
  have hin : ∀ x ∈ l, x.obj = o → x ∈ mid := by
    intro x hx ho
    rw [e, List.mem_append] at hx
    refine hx.resolve_left fun hp => ?_
    have hlt := h1 x hp
    rcases h.eq (by rw [e]; exact List.mem_append_left _ hp) ho with rfl | rfl
    · exact absurd hlt (lt_irrefl _)
    · exact absurd hlt (not_lt.2 h.le)
  have hlen := length_filter_two h (by rw [e]; exact List.sublist_append_right _ _) (hin _ h.lo rfl) (hin _ h.hi rfl)
  have hl : l.length = pre.length + mid.length := by rw [e, List.length_append]
  rw [hd, if_pos (by omega), if_neg (by omega)]
  congr 1
  have hpre : pre.filter (fun e => decide (e.obj ≠ o)) = pre := by
    refine List.filter_eq_self.2 fun x hx => ?_
    simp only [decide_eq_true_eq]
    intro ho
    have hm := hin x (by rw [e]; exact List.mem_append_left _ hx) ho
    exact absurd (h1 x hx) (not_lt.2 (h2 x hm).1)
  conv_rhs => rw [e, List.filter_append, hpre]
  rw [show l.length - 2 = (pre ++ mid.filter (fun e => decide (e.obj ≠ o))).length by
    rw [List.length_append]; omega]
  rw [List.take_left]

/-- Some box reaches further: the last end point of all, which belongs to another object, is lost. -/
theorem dropAxis_lost {l : List (IEnd K O)} (hs : l.Pairwise (fun a b => a.val ≤ b.val)) {b : AABB K} {o : O} {i : Fin 3}
    (h : Ends i o b l) {x : IEnd K O} (hx : x ∈ l) (hlt : b.hi.get i < x.val) :
    ∃ l', dropAxis b o i l = some l' ∧ ∃ e ∈ l, e.obj ≠ o ∧ key e ∉ l'.map key := by
  obtain ⟨pre, mid, post, e, h1, h2, h3, hd⟩ := dropAxis_eq hs b o i
  have hin : ∀ x ∈ l, x.obj = o → x ∈ mid := by
    intro x hx ho
    have hx' := hx
    rw [e, List.mem_append, List.mem_append] at hx
    rcases hx with (hp | hp) | hp
    · have hlt := h1 x hp
      rcases h.eq hx' ho with rfl | rfl
      · exact absurd hlt (lt_irrefl _)
      · exact absurd hlt (not_lt.2 h.le)
    · exact hp
    · have hlt := (h3 x hp).2
      rcases h.eq hx' ho with rfl | rfl
      · exact absurd hlt (not_lt.2 h.le)
      · exact absurd hlt (lt_irrefl _)
  have hlen := length_filter_two h (by rw [e]; exact (List.sublist_append_right _ _).trans (List.sublist_append_left _ _))
    (hin _ h.lo rfl) (hin _ h.hi rfl)
  have hl : l.length = pre.length + mid.length + post.length := by rw [e, List.length_append, List.length_append]
  have hpost : post ≠ [] := by
    rintro rfl
    rw [e, List.append_nil, List.mem_append] at hx
    rcases hx with hx | hx
    · exact absurd ((h1 x hx).trans_le h.le) (not_lt.2 hlt.le)
    · exact absurd hlt (not_lt.2 (h2 x hx).2)
  refine ⟨_, by rw [hd, if_pos (by omega), if_neg (by omega)], post.getLast hpost, ?_, ?_, ?_⟩
  · rw [e]; exact List.mem_append_right _ (List.getLast_mem _)
  · intro ho
    have hm : post.getLast hpost ∈ mid := hin _ (by rw [e]; exact List.mem_append_right _ (List.getLast_mem _)) ho
    exact absurd (h3 _ (List.getLast_mem hpost)).2 (not_lt.2 (h2 _ hm).2)
  · set z := post.getLast hpost with hz
    set kept := mid.filter (fun e => decide (e.obj ≠ o)) with hkept
    -- the array before the last entry
    have hpl : l = l.dropLast ++ [z] := by
      have hne : l ≠ [] := by rw [e]; simp [hpost]
      have : l.getLast hne = z := by
        rw [hz]
        simp only [e]
        rw [List.getLast_append_of_ne_nil _ hpost]
      rw [← this, List.dropLast_append_getLast]
    have hnz : key z ∉ l.dropLast.map key := by
      have := h.nodup
      rw [hpl, List.map_append, List.nodup_append] at this
      intro hm
      exact this.2.2 _ hm _ (by simp) rfl
    have hsub : ∀ y ∈ (pre ++ kept ++ l.drop (pre.length + kept.length)).take (l.length - 2), y ∈ l.dropLast := by
      intro y hy
      have hdl : l.dropLast = pre ++ mid ++ post.dropLast := by
        rw [e, List.dropLast_append_of_ne_nil hpost]
      rw [List.take_append] at hy
      rcases List.mem_append.1 hy with hy | hy
      · have hy := List.mem_of_mem_take hy
        rw [hdl]
        refine List.mem_append_left _ ?_
        rcases List.mem_append.1 hy with hy | hy
        · exact List.mem_append_left _ hy
        · exact List.mem_append_right _ (List.mem_filter.1 hy).1
      · have : y ∈ l.dropLast.drop (pre.length + kept.length) := by
          rw [List.dropLast_eq_take, List.drop_take]
          refine (List.take_subset_take_left _ ?_) hy
          rw [List.length_append]
          omega
        exact List.mem_of_mem_drop this
    intro hm
    obtain ⟨y, hy, he⟩ := List.mem_map.1 hm
    exact hnz (List.mem_map.2 ⟨y, hsub y hy, he⟩)

/-- An object without end points: nothing changes. -/
theorem dropAxis_absent {l : List (IEnd K O)} (hs : l.Pairwise (fun a b => a.val ≤ b.val)) (b : AABB K) {o : O}
    (i : Fin 3) (h : ∀ e ∈ l, e.obj ≠ o) : dropAxis b o i l = some l := by
  obtain ⟨pre, mid, post, e, h1, h2, h3, hd⟩ := dropAxis_eq hs b o i
  have : mid.filter (fun e => decide (e.obj ≠ o)) = mid :=
    List.filter_eq_self.2 fun x hx => by
      simp only [decide_eq_true_eq]
      exact h x (by rw [e]; exact List.mem_append_left _ (List.mem_append_right _ hx))
  rw [hd, this, if_neg (lt_irrefl _)]

theorem setFrom_key (o : O) (k : ℕ) (v : K) (l : List (IEnd K O)) : (setFrom o k v l).map key = l.map key := by
  have hgo : ∀ l : List (IEnd K O), (setFrom.go o v l).map key = l.map key := by
    intro l
    induction l with
    | nil => rfl
    | cons e es ih =>
      rw [setFrom.go]
      split
      · rfl
      · rw [List.map_cons, List.map_cons, ih]
  unfold setFrom
  rw [List.map_append, hgo, ← List.map_append, List.take_append_drop]

theorem moveEnds_key {srt : List (IEnd K O) → List (IEnd K O)} (hsrt : LawfulSortI srt) {old new : AABB K} {o : O}
    {i : Fin 3} {l l' : List (IEnd K O)} (h : moveEnds srt old new o i l = some l') :
    (l'.map key).Perm (l.map key) ∧ l'.Pairwise (fun a b => a.val ≤ b.val) := by
  unfold moveEnds at h
  rcases h1 : lowerBound (old.lo.get i) l with _ | k
  · rw [h1] at h; cases h
  · rw [h1] at h
    simp only [Option.bind_some] at h
    rcases h2 : lowerBound (old.hi.get i) (setFrom o k (new.lo.get i) l) with _ | k'
    · rw [h2] at h; cases h
    · rw [h2] at h
      cases h
      refine ⟨?_, (hsrt _).2⟩
      refine ((hsrt _).1.map key).trans ?_
      rw [setFrom_key, setFrom_key]

end IMgr
end Fcl
