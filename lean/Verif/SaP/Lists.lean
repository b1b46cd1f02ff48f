import Verif.SaP.Spec
import Mathlib.Data.List.Perm.Basic

/-! Sorted end point lists: inserting an end point and moving one towards the front or the back. -/

set_option linter.unusedSectionVars false

namespace Fcl
namespace SaP
variable {K O : Type*} [LinearOrder K] [LinearOrder O]

/-- Sorted by `f`. -/
abbrev Srt (f : EP O → K) (l : List (EP O)) : Prop := l.Pairwise (fun a b => f a ≤ f b)

theorem srt_congr {f g : EP O → K} {l : List (EP O)} (h : ∀ x ∈ l, g x = f x) (hs : Srt f l) : Srt g l := by
  refine hs.imp_of_mem ?_
  intro a b ha hb hab
  rw [h a ha, h b hb]; exact hab

theorem split_at {e : EP O} {l : List (EP O)} (h : e ∈ l) : l = before e l ++ e :: after e l := by
  induction l with
  | nil => cases h
  | cons x l ih =>
    unfold before after at *
    by_cases hx : x = e
    · subst hx; simp
    · have h' : e ∈ l := by
        rcases List.mem_cons.1 h with h | h
        · exact absurd h.symm hx
        · exact h
      have := ih h'
      simp only [List.takeWhile_cons, List.dropWhile_cons, decide_eq_true (show x ≠ e from hx), if_true,
        List.cons_append, List.cons.injEq, true_and]
      exact this

theorem mem_takeWhile_lt {f : EP O → K} {v : K} {l : List (EP O)} (hs : Srt f l) (x : EP O) :
    x ∈ l.takeWhile (fun x => decide (f x < v)) ↔ x ∈ l ∧ f x < v := by
  induction l with
  | nil => simp
  | cons a l ih =>
    obtain ⟨h1, h2⟩ := List.pairwise_cons.1 hs
    rw [List.takeWhile_cons]
    by_cases ha : f a < v
    · rw [if_pos (decide_eq_true ha), List.mem_cons, List.mem_cons, ih h2]
      constructor
      · rintro (rfl | h)
        · exact ⟨Or.inl rfl, ha⟩
        · exact ⟨Or.inr h.1, h.2⟩
      · rintro ⟨rfl | h, hv⟩
        · exact Or.inl rfl
        · exact Or.inr ⟨h, hv⟩
    · rw [if_neg (by simpa using ha)]
      simp only [List.not_mem_nil, List.mem_cons, false_iff, not_and]
      rintro (rfl | ho) hv
      · exact ha hv
      · exact ha (lt_of_le_of_lt (h1 x ho) hv)

theorem mem_dropWhile_lt {f : EP O → K} {v : K} {l : List (EP O)} (hs : Srt f l) (x : EP O)
    (hx : x ∈ l.dropWhile (fun x => decide (f x < v))) : x ∈ l ∧ v ≤ f x := by
  induction l with
  | nil => simp at hx
  | cons a l ih =>
    obtain ⟨h1, h2⟩ := List.pairwise_cons.1 hs
    rw [List.dropWhile_cons] at hx
    by_cases ha : f a < v
    · rw [if_pos (decide_eq_true ha)] at hx
      exact ⟨List.mem_cons_of_mem _ (ih h2 hx).1, (ih h2 hx).2⟩
    · rw [if_neg (by simpa using ha)] at hx
      refine ⟨hx, ?_⟩
      rcases List.mem_cons.1 hx with rfl | h
      · exact not_lt.1 ha
      · exact (not_lt.1 ha).trans (h1 x h)

theorem insertAt_perm (f : EP O → K) (v : K) (e : EP O) (l : List (EP O)) : (insertAt f v e l).Perm (e :: l) := by
  unfold insertAt
  refine List.perm_middle.trans ?_
  rw [List.takeWhile_append_dropWhile]

theorem insertAt_sorted {f : EP O → K} {e : EP O} {l : List (EP O)} (hs : Srt f l) : Srt f (insertAt f (f e) e l) := by
  unfold insertAt
  have ht := mem_takeWhile_lt (v := f e) hs
  have hd := mem_dropWhile_lt (v := f e) hs
  rw [Srt, List.pairwise_append, List.pairwise_cons]
  refine ⟨hs.sublist (List.takeWhile_sublist _), ⟨fun x hx => (hd x hx).2,
    hs.sublist (List.dropWhile_sublist _)⟩, ?_⟩
  intro a ha b hb
  rcases List.mem_cons.1 hb with rfl | hb
  · exact ((ht a).1 ha).2.le
  · exact ((ht a).1 ha).2.le.trans (hd b hb).2

theorem takeWhile_lt_append {f : EP O → K} {v : K} {a b : List (EP O)} (ha : ∀ x ∈ a, f x < v) :
    (a ++ b).takeWhile (fun x => decide (f x < v)) = a ++ b.takeWhile (fun x => decide (f x < v)) ∧
    (a ++ b).dropWhile (fun x => decide (f x < v)) = b.dropWhile (fun x => decide (f x < v)) := by
  induction a with
  | nil => simp
  | cons x a ih =>
    have hx := ha x (List.mem_cons_self)
    obtain ⟨h1, h2⟩ := ih (fun y hy => ha y (List.mem_cons_of_mem _ hy))
    simp only [List.cons_append, List.takeWhile_cons, List.dropWhile_cons, decide_eq_true hx, if_true, h1, h2,
      and_self]

theorem insertBoth_eq {f : EP O → K} {o : O} {l : List (EP O)} (hs : Srt f l) (hv : f ⟨o, false⟩ ≤ f ⟨o, true⟩) :
    insertBoth f o l = insertAt f (f ⟨o, true⟩) ⟨o, true⟩ (insertAt f (f ⟨o, false⟩) ⟨o, false⟩ l) := by
  show l.takeWhile (fun x => decide (f x < f ⟨o, false⟩)) ++ insertAt f _ _
    (⟨o, false⟩ :: l.dropWhile (fun x => decide (f x < f ⟨o, false⟩))) = insertAt f _ _ (l.takeWhile (fun x => decide (f x < f ⟨o, false⟩)) ++
    ⟨o, false⟩ :: l.dropWhile (fun x => decide (f x < f ⟨o, false⟩)))
  generalize hr : (⟨o, false⟩ :: l.dropWhile (fun x => decide (f x < f ⟨o, false⟩)) : List (EP O)) = r
  have ht : ∀ x ∈ l.takeWhile (fun x => decide (f x < f ⟨o, false⟩)), f x < f ⟨o, true⟩ :=
    fun x hx => lt_of_lt_of_le ((mem_takeWhile_lt hs x).1 hx).2 hv
  generalize l.takeWhile (fun x => decide (f x < f ⟨o, false⟩)) = p at ht
  show p ++ insertAt f _ _ r = insertAt f _ _ (p ++ r)
  unfold insertAt
  rw [(takeWhile_lt_append ht).1, (takeWhile_lt_append ht).2, List.append_assoc]

/-! Moving an end point. -/

/-- What a move of the end point `e` to the value `v` yields: the list keeps its end points, and is sorted
by the new values. -/
structure Moved (f g : EP O → K) (e : EP O) (l l' : List (EP O)) : Prop where
  perm : l'.Perm l
  sorted : (∀ x, x ≠ e → g x = f x) → Srt g l'

theorem before_not_mem (e : EP O) (l : List (EP O)) : e ∉ before e l := by
  intro h
  unfold before at h
  induction l with
  | nil => simp at h
  | cons a l ih =>
    rw [List.takeWhile_cons] at h
    split at h
    · next ha =>
      rcases List.mem_cons.1 h with rfl | h
      · simp at ha
      · exact ih h
    · simp at h

theorem sink_append (f : EP O → K) (v : K) (pre : List (EP O)) :
    (sink f v pre).2 ++ (sink f v pre).1.reverse = pre := by
  unfold sink
  rw [← List.reverse_append, List.takeWhile_append_dropWhile, List.reverse_reverse]

theorem mem_sink_fst {f : EP O → K} {v : K} {pre : List (EP O)} (hs : Srt f pre) (x : EP O) :
    x ∈ (sink f v pre).1 ↔ x ∈ pre ∧ v < f x := by
  unfold sink
  have hr : pre.reverse.Pairwise (fun a b => f b ≤ f a) := List.pairwise_reverse.2 hs
  rw [← List.mem_reverse (as := pre)]
  generalize pre.reverse = l at hr
  show x ∈ l.takeWhile _ ↔ _
  induction l with
  | nil => simp
  | cons a l ih =>
    obtain ⟨h1, h2⟩ := List.pairwise_cons.1 hr
    rw [List.takeWhile_cons]
    by_cases ha : f a > v
    · rw [if_pos (decide_eq_true ha), List.mem_cons, List.mem_cons, ih h2]
      constructor
      · rintro (rfl | h)
        · exact ⟨Or.inl rfl, ha⟩
        · exact ⟨Or.inr h.1, h.2⟩
      · rintro ⟨rfl | h, hv⟩
        · exact Or.inl rfl
        · exact Or.inr ⟨h, hv⟩
    · rw [if_neg (by simpa using ha)]
      simp only [List.not_mem_nil, List.mem_cons, false_iff, not_and]
      rintro (rfl | ho) hv
      · exact ha hv
      · exact ha (lt_of_lt_of_le hv (h1 x ho))

theorem mem_sink_snd {f : EP O → K} {v : K} {pre : List (EP O)} (hs : Srt f pre) (x : EP O)
    (hx : x ∈ (sink f v pre).2) : x ∈ pre ∧ f x ≤ v := by
  unfold sink at hx
  have hr : pre.reverse.Pairwise (fun a b => f b ≤ f a) := List.pairwise_reverse.2 hs
  rw [← List.mem_reverse (as := pre)]
  rw [List.mem_reverse] at hx
  generalize pre.reverse = l at hr hx
  change x ∈ l.dropWhile _ at hx
  induction l with
  | nil => simp at hx
  | cons a l ih =>
    obtain ⟨h1, h2⟩ := List.pairwise_cons.1 hr
    rw [List.dropWhile_cons] at hx
    by_cases ha : f a > v
    · rw [if_pos (decide_eq_true ha)] at hx
      exact ⟨List.mem_cons_of_mem _ (ih h2 hx).1, (ih h2 hx).2⟩
    · rw [if_neg (by simpa using ha)] at hx
      refine ⟨hx, ?_⟩
      rcases List.mem_cons.1 hx with rfl | h
      · exact not_lt.1 ha
      · exact (h1 x h).trans (not_lt.1 ha)

/-- Facts about the list around an end point. -/
theorem around {f : EP O → K} {e : EP O} {l : List (EP O)} (hs : Srt f l) (hn : l.Nodup) (he : e ∈ l) :
    Srt f (before e l) ∧ Srt f (after e l) ∧ (∀ x ∈ before e l, f x ≤ f e ∧ x ≠ e ∧ x ∈ l) ∧
    (∀ x ∈ after e l, f e ≤ f x ∧ x ≠ e ∧ x ∈ l) ∧
    (∀ x ∈ l, x ≠ e → f x < f e → x ∈ before e l) ∧ (∀ x ∈ l, x ≠ e → f e < f x → x ∈ after e l) ∧
    (∀ x ∈ before e l, ∀ y ∈ after e l, f x ≤ f y) := by
  have hl := split_at he
  have hs' := hs
  have hn' := hn
  rw [hl] at hs' hn'
  obtain ⟨h1, h2, h3⟩ := List.pairwise_append.1 hs'
  obtain ⟨h4, h5⟩ := List.pairwise_cons.1 h2
  have hmem : ∀ x, x ∈ l ↔ x ∈ before e l ∨ x = e ∨ x ∈ after e l := by
    intro x; conv_lhs => rw [hl]
    simp
  have hea : e ∉ after e l := by
    have := (List.nodup_append.1 hn').2.1
    exact (List.nodup_cons.1 this).1
  refine ⟨h1, h5, ?_, ?_, ?_, ?_, ?_⟩
  · intro x hx
    exact ⟨h3 x hx e List.mem_cons_self, fun h => before_not_mem e l (h ▸ hx), (hmem x).2 (Or.inl hx)⟩
  · intro x hx
    exact ⟨h4 x hx, fun h => hea (h ▸ hx), (hmem x).2 (Or.inr (Or.inr hx))⟩
  · intro x hx hne hlt
    rcases (hmem x).1 hx with h | h | h
    · exact h
    · exact absurd h hne
    · exact absurd hlt (not_lt.2 (h4 x h))
  · intro x hx hne hlt
    rcases (hmem x).1 hx with h | h | h
    · exact absurd hlt (not_lt.2 (h3 x h e List.mem_cons_self))
    · exact absurd h hne
    · exact h
  · intro x hx y hy
    exact h3 x hx y (List.mem_cons_of_mem _ hy)

/-- Towards the front. -/
theorem moved_down {f g : EP O → K} {e : EP O} {l : List (EP O)} (hs : Srt f l) (hn : l.Nodup) (he : e ∈ l)
    (hv : g e ≤ f e) :
    Moved f g e l ((sink f (g e) (before e l)).2 ++ e :: ((sink f (g e) (before e l)).1.reverse ++ after e l)) := by
  obtain ⟨h1, h2, h3, h4, -, -, h7⟩ := around hs hn he
  have m1 := mem_sink_fst (v := g e) h1
  have m2 := mem_sink_snd (v := g e) h1
  have happ := sink_append f (g e) (before e l)
  constructor
  · refine List.perm_middle.trans ?_
    conv_rhs => rw [split_at he]
    rw [← List.append_assoc, happ]
    exact List.perm_middle.symm
  · intro hg
    rw [← happ] at h1
    obtain ⟨p1, p2, p3⟩ := List.pairwise_append.1 h1
    rw [Srt, List.pairwise_append, List.pairwise_cons, List.pairwise_append]
    have e2 : ∀ x ∈ (sink f (g e) (before e l)).2, g x = f x := fun x hx => hg x (h3 x (m2 x hx).1).2.1
    have e1 : ∀ x ∈ (sink f (g e) (before e l)).1.reverse, g x = f x :=
      fun x hx => hg x (h3 x ((m1 x).1 (List.mem_reverse.1 hx)).1).2.1
    have e3 : ∀ x ∈ after e l, g x = f x := fun x hx => hg x (h4 x hx).2.1
    refine ⟨srt_congr e2 p1, ⟨?_, srt_congr e1 p2, srt_congr e3 h2, ?_⟩, ?_⟩
    · intro x hx
      rcases List.mem_append.1 hx with hx | hx
      · rw [e1 x hx]; exact ((m1 x).1 (List.mem_reverse.1 hx)).2.le
      · rw [e3 x hx]; exact hv.trans (h4 x hx).1
    · intro a ha b hb
      rw [e1 a ha, e3 b hb]
      exact h7 a ((m1 a).1 (List.mem_reverse.1 ha)).1 b hb
    · intro a ha b hb
      rw [e2 a ha]
      rcases List.mem_cons.1 hb with rfl | hb
      · exact (m2 a ha).2
      · rcases List.mem_append.1 hb with hb | hb
        · rw [e1 b hb]; exact p3 a ha b hb
        · rw [e3 b hb]; exact h7 a (m2 a ha).1 b hb

/-- Towards the back. -/
theorem moved_up {f g : EP O → K} {e : EP O} {l : List (EP O)} (hs : Srt f l) (hn : l.Nodup) (he : e ∈ l)
    (hv : f e ≤ g e) :
    Moved f g e l (before e l ++ ((after e l).takeWhile (fun x => decide (f x < g e)) ++
      e :: (after e l).dropWhile (fun x => decide (f x < g e)))) := by
  obtain ⟨h1, h2, h3, h4, -, -, h7⟩ := around hs hn he
  have m1 := mem_takeWhile_lt (v := g e) h2
  have m2 := mem_dropWhile_lt (v := g e) h2
  have happ := List.takeWhile_append_dropWhile (p := fun x => decide (f x < g e)) (l := after e l)
  constructor
  · conv_rhs => rw [split_at he]
    refine List.Perm.append_left _ (List.perm_middle.trans ?_)
    rw [happ]
  · intro hg
    rw [← happ] at h2
    obtain ⟨p1, p2, p3⟩ := List.pairwise_append.1 h2
    have e1 : ∀ x ∈ (after e l).takeWhile (fun x => decide (f x < g e)), g x = f x :=
      fun x hx => hg x (h4 x ((m1 x).1 hx).1).2.1
    have e2 : ∀ x ∈ (after e l).dropWhile (fun x => decide (f x < g e)), g x = f x :=
      fun x hx => hg x (h4 x (m2 x hx).1).2.1
    have e3 : ∀ x ∈ before e l, g x = f x := fun x hx => hg x (h3 x hx).2.1
    rw [Srt, List.pairwise_append, List.pairwise_append, List.pairwise_cons]
    refine ⟨srt_congr e3 h1, ⟨srt_congr e1 p1, ⟨?_, srt_congr e2 p2⟩, ?_⟩, ?_⟩
    · intro x hx
      rw [e2 x hx]; exact (m2 x hx).2
    · intro a ha b hb
      rw [e1 a ha]
      rcases List.mem_cons.1 hb with rfl | hb
      · exact ((m1 a).1 ha).2.le
      · rw [e2 b hb]; exact p3 a ha b hb
    · intro a ha b hb
      rw [e3 a ha]
      rcases List.mem_append.1 hb with hb | hb
      · rw [e1 b hb]; exact h7 a ha b ((m1 b).1 hb).1
      · rcases List.mem_cons.1 hb with rfl | hb
        · exact (h3 a ha).1.trans hv
        · rw [e2 b hb]; exact h7 a ha b (m2 b hb).1

end SaP
end Fcl
