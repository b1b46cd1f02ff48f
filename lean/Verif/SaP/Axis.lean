import Verif.SaP.Lists
import Verif.AABB.Lemmas
import Mathlib.Tactic.FinCases

/-! One axis of `update_`: the list stays sorted, and how the pairs change. -/

set_option linter.unusedSectionVars false
set_option linter.unusedVariables false

namespace Fcl
namespace SaP
variable {K O : Type*} [LinearOrder K] [LinearOrder O]

/-- The intervals of the boxes on axis `c` meet. -/
def Ov (c : Fin 3) (a b : AABB K) : Prop := a.lo.get c ≤ b.hi.get c ∧ b.lo.get c ≤ a.hi.get c

theorem overlap_iff_ov (a b : AABB K) : a.overlap b = true ↔ ∀ c, Ov c a b := by
  rw [AABB.overlap_iff]
  constructor
  · intro h c
    fin_cases c <;> simp [Ov, V3.get] at h ⊢ <;> grind
  · intro h
    have h0 := h 0
    have h1 := h 1
    have h2 := h 2
    simp [Ov, V3.get] at h0 h1 h2
    grind

theorem Ov.symm {c : Fin 3} {a b : AABB K} (h : Ov c a b) : Ov c b a := ⟨h.2, h.1⟩

theorem overlap_symm' (a b : AABB K) : a.overlap b = b.overlap a := by
  rw [Bool.eq_iff_iff, overlap_iff_ov, overlap_iff_ov]
  exact ⟨fun h c => (h c).symm, fun h c => (h c).symm⟩

theorem setC_get (v : V3 K) (c : Fin 3) (x : K) (d : Fin 3) :
    (setC v c x).get d = if d = c then x else v.get d := by
  fin_cases c <;> fin_cases d <;> simp [setC, V3.get]

theorem val_setLo (cached : O → AABB K) (o : O) (c d : Fin 3) (x : K) (e : EP O) :
    val (setLo cached o c x) d e = if e = ⟨o, false⟩ ∧ d = c then x else val cached d e := by
  obtain ⟨p, h⟩ := e
  by_cases hp : p = o
  · subst hp
    cases h <;> simp [val, setLo, setC_get]
  · cases h <;> simp [val, setLo, hp]

theorem val_setHi (cached : O → AABB K) (o : O) (c d : Fin 3) (x : K) (e : EP O) :
    val (setHi cached o c x) d e = if e = ⟨o, true⟩ ∧ d = c then x else val cached d e := by
  obtain ⟨p, h⟩ := e
  by_cases hp : p = o
  · subst hp
    cases h <;> simp [val, setHi, setC_get]
  · cases h <;> simp [val, setHi, hp]

theorem mkPair_inj {a b o : O} (h : mkPair a o = mkPair b o) : a = b := by
  unfold mkPair at h
  split_ifs at h <;> simp only [Prod.mk.injEq] at h
  · exact h.1
  · obtain ⟨h1, h2⟩ := h; exact h1.trans h2
  · obtain ⟨h1, h2⟩ := h; exact h2.trans h1
  · exact h.2

theorem mkPair_comm (a b : O) : mkPair a b = mkPair b a := by
  unfold mkPair
  rcases lt_trichotomy a b with h | h | h
  · rw [if_pos h, if_neg (not_lt.2 h.le)]
  · subst h; rfl
  · rw [if_neg (not_lt.2 h.le), if_pos h]

theorem mem_passAdd (cached : O → AABB K) (kind : Bool) (b : AABB K) (o : O) (A : List (EP O))
    (P : List (O × O)) (y : O × O) :
    y ∈ passPairs addPair cached kind b o A P ↔
      y ∈ P ∨ ∃ e ∈ A, e.hi = kind ∧ (cached e.obj).overlap b = true ∧ y = mkPair e.obj o := by
  induction A generalizing P with
  | nil => simp [passPairs]
  | cons a A ih =>
    unfold passPairs at ih ⊢
    rw [List.foldl_cons, ih]
    by_cases h : a.hi = kind ∧ (cached a.obj).overlap b = true
    · rw [if_pos h]
      have : y ∈ addPair P (mkPair a.obj o) ↔ y ∈ P ∨ y = mkPair a.obj o := by
        unfold addPair
        split
        · next hm =>
          constructor
          · exact Or.inl
          · rintro (h | rfl)
            · exact h
            · exact hm
        · simp
      rw [this]
      constructor
      · rintro ((h' | h') | ⟨e, he, h'⟩)
        · exact Or.inl h'
        · exact Or.inr ⟨a, List.mem_cons_self, h.1, h.2, h'⟩
        · exact Or.inr ⟨e, List.mem_cons_of_mem _ he, h'⟩
      · rintro (h' | ⟨e, he, h1, h2, h3⟩)
        · exact Or.inl (Or.inl h')
        · rcases List.mem_cons.1 he with rfl | he
          · exact Or.inl (Or.inr h3)
          · exact Or.inr ⟨e, he, h1, h2, h3⟩
    · rw [if_neg h]
      constructor
      · rintro (h' | ⟨e, he, h'⟩)
        · exact Or.inl h'
        · exact Or.inr ⟨e, List.mem_cons_of_mem _ he, h'⟩
      · rintro (h' | ⟨e, he, h1, h2, h3⟩)
        · exact Or.inl h'
        · rcases List.mem_cons.1 he with rfl | he
          · exact absurd ⟨h1, h2⟩ h
          · exact Or.inr ⟨e, he, h1, h2, h3⟩

theorem nodup_passAdd (cached : O → AABB K) (kind : Bool) (b : AABB K) (o : O) (A : List (EP O))
    (P : List (O × O)) (hP : P.Nodup) : (passPairs addPair cached kind b o A P).Nodup := by
  induction A generalizing P with
  | nil => exact hP
  | cons a A ih =>
    unfold passPairs at ih ⊢
    rw [List.foldl_cons]
    apply ih
    split
    · unfold addPair
      split
      · exact hP
      · next hm =>
        rw [List.nodup_append]
        exact ⟨hP, List.nodup_singleton _, by
          intro x hx y hy; rw [List.mem_singleton.1 hy]; rintro rfl; exact hm hx⟩
    · exact hP

theorem nodup_passRemove (cached : O → AABB K) (kind : Bool) (b : AABB K) (o : O) (A : List (EP O))
    (P : List (O × O)) (hP : P.Nodup) : (passPairs removePair cached kind b o A P).Nodup := by
  induction A generalizing P with
  | nil => exact hP
  | cons a A ih =>
    unfold passPairs at ih ⊢
    rw [List.foldl_cons]
    apply ih
    split
    · exact hP.erase _
    · exact hP

theorem mem_passRemove (cached : O → AABB K) (kind : Bool) (b : AABB K) (o : O) (A : List (EP O))
    (P : List (O × O)) (hP : P.Nodup) (y : O × O) :
    y ∈ passPairs removePair cached kind b o A P ↔
      y ∈ P ∧ ¬ ∃ e ∈ A, e.hi = kind ∧ (cached e.obj).overlap b = true ∧ y = mkPair e.obj o := by
  induction A generalizing P with
  | nil => simp [passPairs]
  | cons a A ih =>
    unfold passPairs at ih ⊢
    rw [List.foldl_cons]
    by_cases h : a.hi = kind ∧ (cached a.obj).overlap b = true
    · rw [if_pos h, ih (removePair P (mkPair a.obj o)) (hP.erase _), removePair, hP.mem_erase_iff]
      constructor
      · rintro ⟨⟨h1, h2⟩, h3⟩
        refine ⟨h2, ?_⟩
        rintro ⟨e, he, h4, h5, h6⟩
        rcases List.mem_cons.1 he with rfl | he
        · exact h1 h6
        · exact h3 ⟨e, he, h4, h5, h6⟩
      · rintro ⟨h1, h2⟩
        refine ⟨⟨fun h' => h2 ⟨a, List.mem_cons_self, h.1, h.2, h'⟩, h1⟩, ?_⟩
        rintro ⟨e, he, h'⟩
        exact h2 ⟨e, List.mem_cons_of_mem _ he, h'⟩
    · rw [if_neg h, ih P hP]
      refine and_congr_right fun _ => not_congr ?_
      constructor
      · rintro ⟨e, he, h'⟩
        exact ⟨e, List.mem_cons_of_mem _ he, h'⟩
      · rintro ⟨e, he, h1, h2, h3⟩
        rcases List.mem_cons.1 he with rfl | he
        · exact absurd ⟨h1, h2⟩ h
        · exact ⟨e, he, h1, h2, h3⟩

/-- The box with both ends replaced on axis `c`. -/
def setBoth (b : AABB K) (c : Fin 3) (nb : AABB K) : AABB K :=
  ⟨setC b.lo c (nb.lo.get c), setC b.hi c (nb.hi.get c)⟩

/-- How the pairs of `o` change on one axis: `P` before, `P'` after. -/
structure PairStep (c : Fin 3) (o : O) (cached : O → AABB K) (nb : AABB K) (l : List (EP O))
    (P P' : List (O × O)) : Prop where
  nodup : P'.Nodup
  other : ∀ y, (∀ p, p ≠ o → y ≠ mkPair p o) → (y ∈ P' ↔ y ∈ P)
  keep : ∀ p, p ≠ o → ⟨p, false⟩ ∈ l → ⟨p, true⟩ ∈ l → Ov c nb (cached p) →
    (mkPair p o ∈ P' ↔ mkPair p o ∈ P ∨ (nb.overlap (cached p) = true ∧ ¬ Ov c (cached o) (cached p)))
  drop : ∀ p, p ≠ o → ⟨p, false⟩ ∈ l → ⟨p, true⟩ ∈ l → ¬ Ov c nb (cached p) →
    (cached o).overlap (cached p) = true → mkPair p o ∉ P'
  out : ∀ p, p ≠ o → ¬ Ov c nb (cached p) → mkPair p o ∉ P → mkPair p o ∉ P'
  new : ∀ p, mkPair p o ∈ P' → mkPair p o ∈ P ∨ (⟨p, false⟩ ∈ l ∨ ⟨p, true⟩ ∈ l)

/-- No other end point in the list has the value of an end of the old or of the new box, and the other
boxes have positive extent. -/
def GenAxis (c : Fin 3) (o : O) (cached : O → AABB K) (nb : AABB K) (l : List (EP O)) : Prop :=
  ∀ e ∈ l, e.obj ≠ o → (cached e.obj).lo.get c < (cached e.obj).hi.get c ∧
    ∀ b ∈ [cached o, nb], val cached c e ≠ b.lo.get c ∧ val cached c e ≠ b.hi.get c

/-- The result of one turn of the loop. -/
structure AxisStep (c : Fin 3) (o : O) (nb : AABB K) (s s' : Axis K O) : Prop where
  perm : s'.l.Perm s.l
  sorted : Srt (val s'.cached c) s'.l
  cached : s'.cached = Function.update s.cached o (setBoth (s.cached o) c nb)
  pairs : GenAxis c o s.cached nb s.l → s.pairs.Nodup → PairStep c o s.cached nb s.l s.pairs s'.pairs

theorem setHi_setLo (cached : O → AABB K) (o : O) (c : Fin 3) (nb : AABB K) :
    setHi (setLo cached o c (nb.lo.get c)) o c (nb.hi.get c) =
      Function.update cached o (setBoth (cached o) c nb) := by
  unfold setHi setLo setBoth
  simp

theorem setLo_setHi (cached : O → AABB K) (o : O) (c : Fin 3) (nb : AABB K) :
    setLo (setHi cached o c (nb.hi.get c)) o c (nb.lo.get c) =
      Function.update cached o (setBoth (cached o) c nb) := by
  unfold setHi setLo setBoth
  simp

section
variable {c : Fin 3} {o : O} {nb : AABB K} {s : Axis K O}

theorem downLo_eq (hn : s.l.Nodup) (hlo : ⟨o, false⟩ ∈ s.l) (hhi : ⟨o, true⟩ ∈ s.l)
    (hs : Srt (val s.cached c) s.l) (hsol : (s.cached o).lo.get c < (s.cached o).hi.get c) :
    downLo c o nb s = some
      { l := (sink (val s.cached c) (nb.lo.get c) (before ⟨o, false⟩ s.l)).2 ++ ⟨o, false⟩ ::
          ((sink (val s.cached c) (nb.lo.get c) (before ⟨o, false⟩ s.l)).1.reverse ++ after ⟨o, false⟩ s.l)
        pairs := passPairs addPair s.cached true nb o
          (sink (val s.cached c) (nb.lo.get c) (before ⟨o, false⟩ s.l)).1 s.pairs
        cached := setLo s.cached o c (nb.lo.get c) } := by
  obtain ⟨-, -, -, -, -, h6, -⟩ := around hs hn hlo
  have hmem : (⟨o, true⟩ : EP O) ∈ after ⟨o, false⟩ s.l := h6 _ hhi (by simp) (by simpa [val] using hsol)
  unfold downLo
  by_cases hp : before ⟨o, false⟩ s.l = []
  · simp only [hp, if_true, Option.map_some, Option.some.injEq]
    have hl := split_at hlo
    rw [hp] at hl
    simp only [sink, List.reverse_nil, List.takeWhile_nil, List.dropWhile_nil, passPairs, List.foldl_nil,
      List.nil_append]
    rw [List.nil_append] at hl
    rw [← hl]
  · have : after ⟨o, false⟩ s.l ≠ [] := List.ne_nil_of_mem hmem
    simp only [hp, this, if_false, Option.map_some]

theorem down_step (hn : s.l.Nodup) (hlo : ⟨o, false⟩ ∈ s.l) (hhi : ⟨o, true⟩ ∈ s.l)
    (hs : Srt (val s.cached c) s.l) (hsol : (s.cached o).lo.get c < (s.cached o).hi.get c)
    (hnb : nb.lo.get c < nb.hi.get c) (h1 : nb.lo.get c < (s.cached o).lo.get c)
    (h2 : nb.hi.get c < (s.cached o).hi.get c) :
    ∃ s', (downLo c o nb s).bind (downHi c o nb) = some s' ∧ AxisStep c o nb s s' := by
  obtain ⟨a1, a2, a3, a4, a5, a6, a7⟩ := around hs hn hlo
  rw [downLo_eq hn hlo hhi hs hsol, Option.bind_some]
  set f := val s.cached c with hf
  set r := sink f (nb.lo.get c) (before ⟨o, false⟩ s.l) with hr
  set c1 := setLo s.cached o c (nb.lo.get c) with hc1
  set l1 := r.2 ++ ⟨o, false⟩ :: (r.1.reverse ++ after ⟨o, false⟩ s.l) with hl1
  set P1 := passPairs addPair s.cached true nb o r.1 s.pairs with hP1
  have g1 : val c1 c ⟨o, false⟩ = nb.lo.get c := by rw [hc1, val_setLo]; simp
  have g2 : ∀ x : EP O, x ≠ ⟨o, false⟩ → val c1 c x = f x := by
    intro x hx; rw [hc1, val_setLo, if_neg (fun h => hx h.1)]
  have hmv : Moved f (val c1 c) ⟨o, false⟩ s.l l1 := by
    have := moved_down (g := val c1 c) hs hn hlo (by rw [g1, hf]; simpa [val] using h1.le)
    rw [g1] at this
    exact this
  have hs1 := hmv.sorted g2
  have hn1 : l1.Nodup := hmv.perm.nodup_iff.2 hn
  have hhi1 : (⟨o, true⟩ : EP O) ∈ l1 := hmv.perm.mem_iff.2 hhi
  have hlo1 : (⟨o, false⟩ : EP O) ∈ l1 := hmv.perm.mem_iff.2 hlo
  obtain ⟨b1, b2, b3, b4, b5, b6, b7⟩ := around hs1 hn1 hhi1
  have vhi : val c1 c ⟨o, true⟩ = (s.cached o).hi.get c := by rw [g2 _ (by simp)]; simp [hf, val]
  set q := sink (val c1 c) (nb.hi.get c) (before ⟨o, true⟩ l1) with hq
  have hq2 : q.2 ≠ [] := by
    have hb : (⟨o, false⟩ : EP O) ∈ before ⟨o, true⟩ l1 :=
      b5 _ hlo1 (by simp) (by rw [g1, vhi]; exact h1.trans hsol)
    have : (⟨o, false⟩ : EP O) ∉ q.1 := by
      rw [hq, mem_sink_fst b1, g1]
      exact fun h => absurd h.2 (not_lt.2 hnb.le)
    rw [← sink_append (val c1 c) (nb.hi.get c) (before ⟨o, true⟩ l1), ← hq] at hb
    rcases List.mem_append.1 hb with hb | hb
    · exact List.ne_nil_of_mem hb
    · exact absurd (List.mem_reverse.1 hb) this
  refine ⟨{ l := q.2 ++ ⟨o, true⟩ :: (q.1.reverse ++ after ⟨o, true⟩ l1)
            pairs := passPairs removePair c1 false (c1 o) o q.1 P1
            cached := setHi c1 o c (nb.hi.get c) }, ?_, ?_⟩
  · unfold downHi
    simp only
    rw [if_neg (by rw [not_not, vhi]; exact h2), if_neg hq2]
  · have g3 : val (setHi c1 o c (nb.hi.get c)) c ⟨o, true⟩ = nb.hi.get c := by rw [val_setHi]; simp
    have g4 : ∀ x : EP O, x ≠ ⟨o, true⟩ → val (setHi c1 o c (nb.hi.get c)) c x = val c1 c x := by
      intro x hx; rw [val_setHi, if_neg (fun h => hx h.1)]
    have hmv2 : Moved (val c1 c) (val (setHi c1 o c (nb.hi.get c)) c) ⟨o, true⟩ l1
        (q.2 ++ ⟨o, true⟩ :: (q.1.reverse ++ after ⟨o, true⟩ l1)) := by
      have := moved_down (g := val (setHi c1 o c (nb.hi.get c)) c) hs1 hn1 hhi1 (by rw [g3, vhi]; exact h2.le)
      rw [g3] at this
      exact this
    refine ⟨hmv2.perm.trans hmv.perm, hmv2.sorted g4, setHi_setLo s.cached o c nb, ?_⟩
    intro hg hP
    have hP1n : P1.Nodup := nodup_passAdd _ _ _ _ _ _ hP
    have hc1p : ∀ p, p ≠ o → c1 p = s.cached p := by
      intro p hp; rw [hc1]; unfold setLo; rw [Function.update_of_ne hp]
    have mem1 : ∀ y, y ∈ P1 ↔ y ∈ s.pairs ∨ ∃ e ∈ r.1, e.hi = true ∧ (s.cached e.obj).overlap nb = true ∧
        y = mkPair e.obj o := mem_passAdd _ _ _ _ _ _
    have mem2 := mem_passRemove c1 false (c1 o) o q.1 P1 hP1n
    have r1 : ∀ x, x ∈ r.1 ↔ x ∈ before ⟨o, false⟩ s.l ∧ nb.lo.get c < f x := mem_sink_fst a1
    have q1 : ∀ x, x ∈ q.1 ↔ x ∈ before ⟨o, true⟩ l1 ∧ nb.hi.get c < val c1 c x := mem_sink_fst b1
    have flo : f ⟨o, false⟩ = (s.cached o).lo.get c := by simp [hf, val]
    -- no own end point is passed
    have r1o : ∀ x ∈ r.1, x.obj ≠ o := by
      intro x hx h
      obtain ⟨p, hb⟩ := x
      subst h
      have := a3 _ ((r1 _).1 hx).1
      cases hb
      · exact this.2.1 rfl
      · have h' := this.1
        rw [flo] at h'
        exact absurd h' (not_le.2 (by simpa [hf, val] using hsol))
    have q1o : ∀ x ∈ q.1, x.obj ≠ o := by
      intro x hx h
      obtain ⟨p, hb⟩ := x
      subst h
      obtain ⟨hx1, hx2⟩ := (q1 _).1 hx
      cases hb
      · rw [g1] at hx2; exact absurd hx2 (not_lt.2 hnb.le)
      · exact (b3 _ hx1).2.1 rfl
    refine ⟨nodup_passRemove _ _ _ _ _ _ hP1n, ?_, ?_, ?_, ?_, ?_⟩
    · intro y hy
      rw [mem2, mem1]
      constructor
      · rintro ⟨h | ⟨e, he, -, -, h⟩, -⟩
        · exact h
        · exact absurd h (hy _ (r1o e he))
      · intro h
        refine ⟨Or.inl h, ?_⟩
        rintro ⟨e, he, -, -, h⟩
        exact hy _ (q1o e he) h
    · intro p hp hpl hph hov
      obtain ⟨gs, gl⟩ := hg _ hph hp
      rw [mem2, mem1]
      have hno : ¬ ∃ e ∈ q.1, e.hi = false ∧ (c1 e.obj).overlap (c1 o) = true ∧ mkPair p o = mkPair e.obj o := by
        rintro ⟨⟨e, hb⟩, he, rfl, -, h⟩
        have := mkPair_inj h
        subst this
        have := ((q1 _).1 he).2
        rw [g2 _ (by simp [hp])] at this
        exact absurd hov.2 (not_le.2 (by simpa [hf, val] using this))
      simp only [hno, not_false_eq_true, and_true]
      refine or_congr Iff.rfl ?_
      constructor
      · rintro ⟨⟨e, hb⟩, he, rfl, h1', h⟩
        have := mkPair_inj h
        subst this
        refine ⟨by rw [overlap_symm']; exact h1', ?_⟩
        intro h'
        have h3 := (a3 _ ((r1 _).1 he).1).1
        rw [flo] at h3
        have h4 := (gl (s.cached o) (by simp)).1
        simp only [hf, val, if_true] at h3 h4
        exact h4 (le_antisymm h3 h'.1)
      · rintro ⟨h1', h2'⟩
        refine ⟨⟨p, true⟩, (r1 _).2 ⟨?_, ?_⟩, rfl, by rw [overlap_symm']; exact h1', rfl⟩
        · apply a5 _ hph (by simp)
          rw [flo]
          simp only [hf, val, if_true]
          by_contra hlt
          exact h2' ⟨not_lt.1 hlt, hov.2.trans h2.le⟩
        · have := (gl nb (by simp)).1
          simp only [hf, val, if_true] at this ⊢
          exact lt_of_le_of_ne hov.1 this.symm
    · intro p hp hpl hph hov hcur
      obtain ⟨gs, gl⟩ := hg _ hpl hp
      rw [mem2]
      rintro ⟨-, h⟩
      apply h
      have hcur' := (overlap_iff_ov _ _).1 hcur
      have hgt : nb.hi.get c < (s.cached p).lo.get c := by
        by_contra hle
        exact hov ⟨h1.le.trans (hcur' c).1, not_lt.1 hle⟩
      refine ⟨⟨p, false⟩, (q1 _).2 ⟨?_, ?_⟩, rfl, ?_, rfl⟩
      · apply b5 _ (hmv.perm.mem_iff.2 hpl) (by simp)
        rw [vhi, g2 _ (by simp [hp])]
        have := (gl (s.cached o) (by simp)).2
        simp only [hf, val, Bool.false_eq_true, if_false] at this ⊢
        exact lt_of_le_of_ne (hcur' c).2 this
      · rw [g2 _ (by simp [hp])]
        simpa [hf, val] using hgt
      · rw [hc1p p hp, overlap_symm', overlap_iff_ov]
        intro d
        have hd := hcur' d
        rw [hc1]
        unfold setLo Ov
        simp only [Function.update_self, setC_get]
        by_cases hdc : d = c
        · subst hdc
          rw [if_pos rfl]
          exact ⟨h1.le.trans hd.1, hd.2⟩
        · rw [if_neg hdc]; exact hd
    · intro p hp hov hnP
      rw [mem2, mem1]
      rintro ⟨h | ⟨e, he, -, h1', h⟩, -⟩
      · exact hnP h
      · have := mkPair_inj h
        rw [← this] at h1'
        exact hov ((overlap_iff_ov _ _).1 h1' c).symm
    · intro p h
      rw [mem2, mem1] at h
      rcases h.1 with h | ⟨⟨e, hb⟩, he, h1', h2', h3'⟩
      · exact Or.inl h
      · have := mkPair_inj h3'
        subst this
        have hm := (a3 _ ((r1 _).1 he).1).2.2
        cases hb
        · exact Or.inr (Or.inl hm)
        · exact Or.inr (Or.inr hm)

theorem mem_dropLast_of_lt {f : EP O → K} {l : List (EP O)} (hs : Srt f l) {x y : EP O} (hx : x ∈ l) (hy : y ∈ l)
    (h : f x < f y) : x ∈ l.dropLast := by
  have hne : l ≠ [] := List.ne_nil_of_mem hx
  rw [← List.dropLast_append_getLast hne] at hx
  rcases List.mem_append.1 hx with hx | hx
  · exact hx
  · rw [List.mem_singleton] at hx
    rw [← List.dropLast_append_getLast hne] at hy hs
    rcases List.mem_append.1 hy with hy | hy
    · have := (List.pairwise_append.1 hs).2.2 y hy _ (List.mem_singleton_self _)
      rw [← hx] at this
      exact absurd h (not_lt.2 this)
    · rw [List.mem_singleton.1 hy, ← hx] at h
      exact absurd h (lt_irrefl _)

theorem upHi_eq (hn : s.l.Nodup) (hlo : ⟨o, false⟩ ∈ s.l) (hhi : ⟨o, true⟩ ∈ s.l)
    (hs : Srt (val s.cached c) s.l) (hsol : (s.cached o).lo.get c < (s.cached o).hi.get c)
    (h2 : (s.cached o).hi.get c < nb.hi.get c) :
    upHi c o nb s = some
      { l := before ⟨o, true⟩ s.l ++
          ((after ⟨o, true⟩ s.l).takeWhile (fun x => decide (val s.cached c x < nb.hi.get c)) ++ ⟨o, true⟩ ::
            (after ⟨o, true⟩ s.l).dropWhile (fun x => decide (val s.cached c x < nb.hi.get c)))
        pairs := passPairs addPair s.cached false nb o
          (if (after ⟨o, true⟩ s.l).dropWhile (fun x => decide (val s.cached c x < nb.hi.get c)) = [] then
            ((after ⟨o, true⟩ s.l).takeWhile (fun x => decide (val s.cached c x < nb.hi.get c))).dropLast
           else (after ⟨o, true⟩ s.l).takeWhile (fun x => decide (val s.cached c x < nb.hi.get c))) s.pairs
        cached := setHi s.cached o c (nb.hi.get c) } := by
  obtain ⟨-, -, -, -, h5, -, -⟩ := around hs hn hhi
  have hmem : (⟨o, false⟩ : EP O) ∈ before ⟨o, true⟩ s.l := h5 _ hlo (by simp) (by simpa [val] using hsol)
  have hpre : before ⟨o, true⟩ s.l ≠ [] := List.ne_nil_of_mem hmem
  have hval : val s.cached c ⟨o, true⟩ < nb.hi.get c := by simpa [val] using h2
  unfold upHi
  by_cases hp : after ⟨o, true⟩ s.l = []
  · simp only [hp, if_true, Option.map_some, Option.some.injEq]
    have hl := split_at hhi
    rw [hp] at hl
    simp only [List.takeWhile_nil, List.dropWhile_nil, passPairs, if_true, List.dropLast_nil, List.foldl_nil,
      List.nil_append]
    rw [← hl]
  · simp only [hp, hpre, hval, not_true_eq_false, if_false, Option.map_some]

theorem up_step (hn : s.l.Nodup) (hlo : ⟨o, false⟩ ∈ s.l) (hhi : ⟨o, true⟩ ∈ s.l)
    (hs : Srt (val s.cached c) s.l) (hsol : (s.cached o).lo.get c < (s.cached o).hi.get c)
    (hnb : nb.lo.get c < nb.hi.get c) (h1 : (s.cached o).lo.get c < nb.lo.get c)
    (h2 : (s.cached o).hi.get c < nb.hi.get c) :
    ∃ s', (upHi c o nb s).bind (upLo c o nb) = some s' ∧ AxisStep c o nb s s' := by
  obtain ⟨a1, a2, a3, a4, a5, a6, a7⟩ := around hs hn hhi
  rw [upHi_eq hn hlo hhi hs hsol h2, Option.bind_some]
  set f := val s.cached c with hf
  set T := (after ⟨o, true⟩ s.l).takeWhile (fun x => decide (f x < nb.hi.get c)) with hT
  set D := (after ⟨o, true⟩ s.l).dropWhile (fun x => decide (f x < nb.hi.get c)) with hD
  set A := (if D = [] then T.dropLast else T) with hA
  set c1 := setHi s.cached o c (nb.hi.get c) with hc1
  set l1 := before ⟨o, true⟩ s.l ++ (T ++ ⟨o, true⟩ :: D) with hl1
  set P1 := passPairs addPair s.cached false nb o A s.pairs with hP1
  have g1 : val c1 c ⟨o, true⟩ = nb.hi.get c := by rw [hc1, val_setHi]; simp
  have g2 : ∀ x : EP O, x ≠ ⟨o, true⟩ → val c1 c x = f x := by
    intro x hx; rw [hc1, val_setHi, if_neg (fun h => hx h.1)]
  have hmv : Moved f (val c1 c) ⟨o, true⟩ s.l l1 := by
    have := moved_up (g := val c1 c) hs hn hhi (by rw [g1, hf]; simpa [val] using h2.le)
    rw [g1] at this
    exact this
  have hs1 := hmv.sorted g2
  have hn1 : l1.Nodup := hmv.perm.nodup_iff.2 hn
  have hhi1 : (⟨o, true⟩ : EP O) ∈ l1 := hmv.perm.mem_iff.2 hhi
  have hlo1 : (⟨o, false⟩ : EP O) ∈ l1 := hmv.perm.mem_iff.2 hlo
  obtain ⟨b1, b2, b3, b4, b5, b6, b7⟩ := around hs1 hn1 hlo1
  have vlo : val c1 c ⟨o, false⟩ = (s.cached o).lo.get c := by rw [g2 _ (by simp)]; simp [hf, val]
  set T2 := (after ⟨o, false⟩ l1).takeWhile (fun x => decide (val c1 c x < nb.lo.get c)) with hT2
  set D2 := (after ⟨o, false⟩ l1).dropWhile (fun x => decide (val c1 c x < nb.lo.get c)) with hD2
  have hD2n : D2 ≠ [] := by
    have hb : (⟨o, true⟩ : EP O) ∈ after ⟨o, false⟩ l1 :=
      b6 _ hhi1 (by simp) (by rw [g1, vlo]; exact h1.trans hnb)
    have : (⟨o, true⟩ : EP O) ∉ T2 := by
      rw [hT2, mem_takeWhile_lt b2, g1]
      exact fun h => absurd h.2 (not_lt.2 hnb.le)
    rw [← List.takeWhile_append_dropWhile (p := fun x => decide (val c1 c x < nb.lo.get c))
      (l := after ⟨o, false⟩ l1), ← hT2, ← hD2] at hb
    rcases List.mem_append.1 hb with hb | hb
    · exact absurd hb this
    · exact List.ne_nil_of_mem hb
  refine ⟨{ l := before ⟨o, false⟩ l1 ++ (T2 ++ ⟨o, false⟩ :: D2)
            pairs := passPairs removePair c1 true (c1 o) o T2 P1
            cached := setLo c1 o c (nb.lo.get c) }, ?_, ?_⟩
  · unfold upLo
    simp only
    rw [if_neg hD2n]
  · have g3 : val (setLo c1 o c (nb.lo.get c)) c ⟨o, false⟩ = nb.lo.get c := by rw [val_setLo]; simp
    have g4 : ∀ x : EP O, x ≠ ⟨o, false⟩ → val (setLo c1 o c (nb.lo.get c)) c x = val c1 c x := by
      intro x hx; rw [val_setLo, if_neg (fun h => hx h.1)]
    have hmv2 : Moved (val c1 c) (val (setLo c1 o c (nb.lo.get c)) c) ⟨o, false⟩ l1
        (before ⟨o, false⟩ l1 ++ (T2 ++ ⟨o, false⟩ :: D2)) := by
      have := moved_up (g := val (setLo c1 o c (nb.lo.get c)) c) hs1 hn1 hlo1 (by rw [g3, vlo]; exact h1.le)
      rw [g3] at this
      exact this
    refine ⟨hmv2.perm.trans hmv.perm, hmv2.sorted g4, setLo_setHi s.cached o c nb, ?_⟩
    intro hg hP
    have hP1n : P1.Nodup := nodup_passAdd _ _ _ _ _ _ hP
    have hc1p : ∀ p, p ≠ o → c1 p = s.cached p := by
      intro p hp; rw [hc1]; unfold setHi; rw [Function.update_of_ne hp]
    have mem1 : ∀ y, y ∈ P1 ↔ y ∈ s.pairs ∨ ∃ e ∈ A, e.hi = false ∧ (s.cached e.obj).overlap nb = true ∧
        y = mkPair e.obj o := mem_passAdd _ _ _ _ _ _
    have mem2 := mem_passRemove c1 true (c1 o) o T2 P1 hP1n
    have t1 : ∀ x, x ∈ T ↔ x ∈ after ⟨o, true⟩ s.l ∧ f x < nb.hi.get c := mem_takeWhile_lt a2
    have t2 : ∀ x, x ∈ T2 ↔ x ∈ after ⟨o, false⟩ l1 ∧ val c1 c x < nb.lo.get c := mem_takeWhile_lt b2
    have hAT : ∀ x ∈ A, x ∈ T := by
      intro x hx
      rw [hA] at hx
      split at hx
      · exact List.mem_of_mem_dropLast hx
      · exact hx
    have fhi : f ⟨o, true⟩ = (s.cached o).hi.get c := by simp [hf, val]
    have t1o : ∀ x ∈ A, x.obj ≠ o := by
      intro x hx h
      obtain ⟨p, hb⟩ := x
      subst h
      have := a4 _ ((t1 _).1 (hAT _ hx)).1
      cases hb
      · have h' := this.1
        rw [fhi] at h'
        exact absurd h' (not_le.2 (by simpa [hf, val] using hsol))
      · exact this.2.1 rfl
    have t2o : ∀ x ∈ T2, x.obj ≠ o := by
      intro x hx h
      obtain ⟨p, hb⟩ := x
      subst h
      obtain ⟨hx1, hx2⟩ := (t2 _).1 hx
      cases hb
      · exact (b4 _ hx1).2.1 rfl
      · rw [g1] at hx2; exact absurd hx2 (not_lt.2 hnb.le)
    refine ⟨nodup_passRemove _ _ _ _ _ _ hP1n, ?_, ?_, ?_, ?_, ?_⟩
    · intro y hy
      rw [mem2, mem1]
      constructor
      · rintro ⟨h | ⟨e, he, -, -, h⟩, -⟩
        · exact h
        · exact absurd h (hy _ (t1o e he))
      · intro h
        refine ⟨Or.inl h, ?_⟩
        rintro ⟨e, he, -, -, h⟩
        exact hy _ (t2o e he) h
    · intro p hp hpl hph hov
      obtain ⟨gs, gl⟩ := hg _ hpl hp
      rw [mem2, mem1]
      have hno : ¬ ∃ e ∈ T2, e.hi = true ∧ (c1 e.obj).overlap (c1 o) = true ∧ mkPair p o = mkPair e.obj o := by
        rintro ⟨⟨e, hb⟩, he, rfl, -, h⟩
        have := mkPair_inj h
        subst this
        have := ((t2 _).1 he).2
        rw [g2 _ (by simp [hp])] at this
        exact absurd hov.1 (not_le.2 (by simpa [hf, val] using this))
      simp only [hno, not_false_eq_true, and_true]
      refine or_congr Iff.rfl ?_
      constructor
      · rintro ⟨⟨e, hb⟩, he, rfl, h1', h⟩
        have := mkPair_inj h
        subst this
        refine ⟨by rw [overlap_symm']; exact h1', ?_⟩
        intro h'
        have h3 := (a4 _ ((t1 _).1 (hAT _ he)).1).1
        rw [fhi] at h3
        have h4 := (gl (s.cached o) (by simp)).2
        simp only [hf, val, Bool.false_eq_true, if_false] at h3 h4
        exact h4 (le_antisymm h'.2 h3)
      · rintro ⟨h1', h2'⟩
        have hgt : (s.cached o).hi.get c < (s.cached p).lo.get c := by
          by_contra hlt
          exact h2' ⟨h1.le.trans hov.1, not_lt.1 hlt⟩
        have hlt : (s.cached p).lo.get c < nb.hi.get c := by
          have := (gl nb (by simp)).2
          simp only [hf, val, Bool.false_eq_true, if_false] at this
          exact lt_of_le_of_ne hov.2 this
        have hin : (⟨p, false⟩ : EP O) ∈ after ⟨o, true⟩ s.l :=
          a6 _ hpl (by simp) (by rw [fhi]; simpa [hf, val] using hgt)
        have hin2 : (⟨p, true⟩ : EP O) ∈ after ⟨o, true⟩ s.l :=
          a6 _ hph (by simp [hp]) (by rw [fhi]; simpa [hf, val] using hgt.trans gs)
        have hT' : (⟨p, false⟩ : EP O) ∈ T := (t1 _).2 ⟨hin, by simpa [hf, val] using hlt⟩
        refine ⟨⟨p, false⟩, ?_, rfl, by rw [overlap_symm']; exact h1', rfl⟩
        rw [hA]
        split
        · next hDn =>
          have hTe : T = after ⟨o, true⟩ s.l := by
            have := List.takeWhile_append_dropWhile (p := fun x => decide (f x < nb.hi.get c))
              (l := after ⟨o, true⟩ s.l)
            rw [← hT, ← hD, hDn, List.append_nil] at this
            exact this
          rw [hTe]
          exact mem_dropLast_of_lt a2 hin hin2 (by simpa [hf, val] using gs)
        · exact hT'
    · intro p hp hpl hph hov hcur
      obtain ⟨gs, gl⟩ := hg _ hph hp
      rw [mem2]
      rintro ⟨-, h⟩
      apply h
      have hcur' := (overlap_iff_ov _ _).1 hcur
      have hgt : (s.cached p).hi.get c < nb.lo.get c := by
        by_contra hle
        exact hov ⟨not_lt.1 hle, (hcur' c).2.trans h2.le⟩
      refine ⟨⟨p, true⟩, (t2 _).2 ⟨?_, ?_⟩, rfl, ?_, rfl⟩
      · apply b6 _ (hmv.perm.mem_iff.2 hph) (by simp)
        rw [vlo, g2 _ (by simp [hp])]
        have := (gl (s.cached o) (by simp)).1
        simp only [hf, val, if_true] at this ⊢
        exact lt_of_le_of_ne (hcur' c).1 this.symm
      · rw [g2 _ (by simp [hp])]
        simpa [hf, val] using hgt
      · rw [hc1p p hp, overlap_symm', overlap_iff_ov]
        intro d
        have hd := hcur' d
        rw [hc1]
        unfold setHi Ov
        simp only [Function.update_self, setC_get]
        by_cases hdc : d = c
        · subst hdc
          rw [if_pos rfl]
          exact ⟨hd.1, hd.2.trans h2.le⟩
        · rw [if_neg hdc]; exact hd
    · intro p hp hov hnP
      rw [mem2, mem1]
      rintro ⟨h | ⟨e, he, -, h1', h⟩, -⟩
      · exact hnP h
      · have := mkPair_inj h
        rw [← this] at h1'
        exact hov ((overlap_iff_ov _ _).1 h1' c).symm
    · intro p h
      rw [mem2, mem1] at h
      rcases h.1 with h | ⟨⟨e, hb⟩, he, h1', h2', h3'⟩
      · exact Or.inl h
      · have := mkPair_inj h3'
        subst this
        have hm := (a4 _ ((t1 _).1 (hAT _ he)).1).2.2
        cases hb
        · exact Or.inr (Or.inl hm)
        · exact Or.inr (Or.inr hm)

theorem stay_step (hs : Srt (val s.cached c) s.l) (h1 : (s.cached o).lo.get c = nb.lo.get c)
    (h2 : (s.cached o).hi.get c = nb.hi.get c) : AxisStep c o nb s s := by
  have hov : ∀ b, Ov c nb b ↔ Ov c (s.cached o) b := by intro b; unfold Ov; rw [h1, h2]
  refine ⟨List.Perm.refl _, hs, ?_, ?_⟩
  · have e : setBoth (s.cached o) c nb = s.cached o := by
      unfold setBoth
      rw [← h1, ← h2]
      have hh : ∀ v : V3 K, setC v c (v.get c) = v := by
        intro v; fin_cases c <;> rfl
      rw [hh, hh]
    rw [e, Function.update_eq_self]
  · intro _ hP
    refine ⟨hP, fun _ _ => Iff.rfl, ?_, ?_, fun p _ _ h => h, fun p h => Or.inl h⟩
    · intro p hp _ _ ho
      constructor
      · exact Or.inl
      · rintro (h | ⟨-, h⟩)
        · exact h
        · exact absurd ((hov _).1 ho) h
    · intro p hp _ _ hno hcur
      exact absurd ((hov _).2 ((overlap_iff_ov _ _).1 hcur c)) hno

/-- One turn of the loop of `update_` on a sorted list, for a box of positive extent that is translated. -/
theorem updateAxis_step (hn : s.l.Nodup) (hlo : ⟨o, false⟩ ∈ s.l) (hhi : ⟨o, true⟩ ∈ s.l)
    (hs : Srt (val s.cached c) s.l) (hsol : (s.cached o).lo.get c < (s.cached o).hi.get c)
    (hnb : nb.lo.get c < nb.hi.get c)
    (hsh : (nb.lo.get c < (s.cached o).lo.get c ∧ nb.hi.get c < (s.cached o).hi.get c) ∨
      ((s.cached o).lo.get c < nb.lo.get c ∧ (s.cached o).hi.get c < nb.hi.get c) ∨
      ((s.cached o).lo.get c = nb.lo.get c ∧ (s.cached o).hi.get c = nb.hi.get c)) :
    ∃ s', updateAxis c o nb s = some s' ∧ AxisStep c o nb s s' := by
  unfold updateAxis
  rcases hsh with ⟨h1, h2⟩ | ⟨h1, h2⟩ | ⟨h1, h2⟩
  · rw [if_pos h1]
    exact down_step hn hlo hhi hs hsol hnb h1 h2
  · rw [if_neg (not_lt.2 h1.le), if_pos h1]
    exact up_step hn hlo hhi hs hsol hnb h1 h2
  · rw [if_neg (by rw [h1]; exact lt_irrefl _), if_neg (by rw [h1]; exact lt_irrefl _)]
    exact ⟨s, rfl, stay_step hs h1 h2⟩

end

end SaP
end Fcl
