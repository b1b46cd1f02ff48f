import Verif.Ccd.PolytopeSpec

/-!
# The visible patch is what it should be
-/

namespace Fcl
namespace Pt

variable {V : Type*} {P : Poly V} {outside flat : ℕ → Bool}

theorem Closed.live {P : Poly V} (h : Closed P) {f e : ℕ} (hs : P.Side e f) : ∃ ed, P.edges e = some ed := by
  obtain ⟨fc, hf, he⟩ := hs
  obtain ⟨-, a, b, c, -, -, -, ⟨e0, h0, -⟩, h12⟩ := h.tri f fc hf
  simp only [Face.edges, List.mem_cons, List.not_mem_nil, or_false] at he
  rcases he with rfl | rfl | rfl
  · exact ⟨_, h0⟩
  · rcases h12 with ⟨⟨_, h1, -⟩, -⟩ | ⟨⟨_, h1, -⟩, -⟩ <;> exact ⟨_, h1⟩
  · rcases h12 with ⟨-, ⟨_, h1, -⟩⟩ | ⟨-, ⟨_, h1, -⟩⟩ <;> exact ⟨_, h1⟩

/-- The face across an edge is the other face of the edge. -/
theorem Closed.across (h : Closed P) {f e : ℕ} (hs : P.Side e f) : ∃ ed g, P.edges e = some ed ∧ ed.across f = some g ∧ f ≠ g ∧
    ∀ k, P.Side e k ↔ k = f ∨ k = g := by
  obtain ⟨ed, he⟩ := h.live hs
  obtain ⟨x, y, hx, hy, hxy, hk⟩ := h.two e ed he
  rcases (hk f).1 hs with rfl | rfl
  · exact ⟨ed, y, he, by simp [Edge.across, hx, hy], hxy, hk⟩
  · refine ⟨ed, x, he, ?_, hxy.symm, fun k => (hk k).trans or_comm⟩
    rw [Edge.across, hx, if_neg (by simpa using hxy)]

/-- What holds of the four sets at all times. -/
structure Good (P : Poly V) (outside flat : ℕ → Bool) (f0 : ℕ) (s : Patch) : Prop where
  apart : ∀ g ∈ s.visible, g ∉ s.hidden
  faces : ∀ g ∈ s.visible, P.faces g ≠ none
  inner : ∀ e ∈ s.inner, P.edges e ≠ none ∧ ∀ g, P.Side e g → g ∈ s.visible
  border : ∀ e ∈ s.border, ∃ g k, g ∈ s.visible ∧ k ∈ s.hidden ∧ ∀ h, P.Side e h ↔ h = g ∨ h = k
  joined : ∀ g ∈ s.visible, Reach P (fun e h => e ∈ s.inner ∧ (outside h = true ∨ flat e = true)) f0 g
  unseen : ∀ g ∈ s.hidden, outside g = false

/-- The edge is classified. -/
def Patch.Done (s : Patch) (e : ℕ) : Prop := e ∈ s.inner ∨ e ∈ s.border

/-- A later state of the search: the sets have grown, and the edges of the new faces are classified. -/
structure Later (P : Poly V) (s s' : Patch) : Prop where
  visible : s.visible ⊆ s'.visible
  inner : s.inner ⊆ s'.inner
  border : s.border ⊆ s'.border
  hidden : s.hidden ⊆ s'.hidden
  done : ∀ g ∈ s'.visible, g ∉ s.visible → ∀ e, P.Side e g → s'.Done e

theorem Later.refl (s : Patch) : Later P s s :=
  ⟨fun _ h => h, fun _ h => h, fun _ h => h, fun _ h => h, fun _ h h' => absurd h h'⟩

theorem Patch.Done.mono {s s' : Patch} (h : Later P s s') {e : ℕ} (hd : s.Done e) : s'.Done e :=
  hd.imp (fun h' => h.inner h') fun h' => h.border h'

theorem Later.trans {s t u : Patch} (h : Later P s t) (k : Later P t u) : Later P s u where
  visible := h.visible.trans k.visible
  inner := h.inner.trans k.inner
  border := h.border.trans k.border
  hidden := h.hidden.trans k.hidden
  done g hg hs e he := by
    by_cases ht : g ∈ t.visible
    · exact (h.done g ht hs e he).mono k
    · exact k.done g hg ht e he

theorem Reach.mono {p q : ℕ → ℕ → Prop} (h : ∀ e k, p e k → q e k) {f g : ℕ} (r : Reach P p f g) : Reach P q f g := by
  induction r with
  | refl => exact .refl
  | step _ he h1 h2 ih => exact .step ih (h _ _ he) h1 h2

/-- How many faces are not in the patch. -/
def Patch.rest (P : Poly V) (s : Patch) : ℕ := (Finset.range P.nextF \ s.visible).card

theorem rest_mono {s t : Patch} (h : s.visible ⊆ t.visible) : t.rest P ≤ s.rest P :=
  Finset.card_le_card (Finset.sdiff_subset_sdiff le_rfl h)

theorem rest_insert (hc : Closed P) {s : Patch} {g : ℕ} (hg : P.faces g ≠ none) (h : g ∉ s.visible) (t : Patch)
    (ht : t.visible = insert g s.visible) : t.rest P < s.rest P := by
  apply Finset.card_lt_card
  rw [ht]
  refine ⟨Finset.sdiff_subset_sdiff le_rfl (Finset.subset_insert _ _), fun k => ?_⟩
  have := k (Finset.mem_sdiff.2 ⟨Finset.mem_range.2 (hc.newF g hg), h⟩)
  simp at this

/-- A run over some edges of a face. -/
theorem fold_good {f0 f : ℕ} {step : Patch → ℕ → Except Halt Patch} {n : ℕ}
    (hstep : ∀ s e, Good P outside flat f0 s → f ∈ s.visible → P.Side e f → s.rest P < n →
      ∃ s', step s e = .ok s' ∧ Good P outside flat f0 s' ∧ Later P s s' ∧ (s'.Done e))
    (l : List ℕ) (hl : ∀ e ∈ l, P.Side e f) (s : Patch) (hg : Good P outside flat f0 s) (hf : f ∈ s.visible) (hn : s.rest P < n) :
    ∃ s', l.foldlM step s = .ok s' ∧ Good P outside flat f0 s' ∧ Later P s s' ∧ ∀ e ∈ l, s'.Done e := by
  induction l generalizing s with
  | nil => exact ⟨s, rfl, hg, .refl _, by simp⟩
  | cons e l ih =>
    obtain ⟨t, h1, h2, h3, h4⟩ := hstep s e hg hf (hl e (by simp)) hn
    obtain ⟨u, k1, k2, k3, k4⟩ := ih (fun e he => hl e (by simp [he])) t h2 (h3.visible hf) ((rest_mono h3.visible).trans_lt hn)
    refine ⟨u, ?_, k2, h3.trans k3, ?_⟩
    · rw [List.foldlM_cons, h1]; exact k1
    · simpa using ⟨h4.mono k3, k4⟩

theorem visit_good (hc : Closed P) {f0 : ℕ} (n : ℕ) : ∀ f e s, Good P outside flat f0 s → f ∈ s.visible → P.Side e f →
    s.rest P < n → ∃ s', visit P outside flat n f e s = .ok s' ∧ Good P outside flat f0 s' ∧ Later P s s' ∧ s'.Done e := by
  induction n with
  | zero => intro f e s _ _ _ h; omega
  | succ n ih =>
    intro f e s hg hf hs hn
    obtain ⟨ed, g, he, ha, hfg, hk⟩ := hc.across hs
    have hsg : P.Side e g := (hk g).2 (Or.inr rfl)
    obtain ⟨gc, hgc, heg⟩ := id hsg
    have hgl : P.faces g ≠ none := by rw [hgc]; simp
    simp only [visit, he, ha]
    have notBorder : g ∉ s.hidden → e ∉ s.border := fun h hb => by
      obtain ⟨x, y, hx, hy, hxy⟩ := hg.border e hb
      rcases (hk y).1 ((hxy y).2 (Or.inr rfl)) with rfl | rfl
      · exact hg.apart _ hf hy
      · exact h hy
    by_cases hv : g ∈ s.visible
    · have hh := hg.apart g hv
      refine ⟨_, by rw [if_pos hv, classifyInner, if_neg (notBorder hh)], ?_, ?_, Or.inl (by simp)⟩
      · refine ⟨hg.apart, hg.faces, ?_, hg.border, ?_, hg.unseen⟩
        · intro e' h'
          rcases Finset.mem_insert.1 h' with rfl | h'
          · refine ⟨by rw [he]; simp, fun k h => ?_⟩
            rcases (hk k).1 h with rfl | rfl <;> assumption
          · exact hg.inner e' h'
        · exact fun k h => (hg.joined k h).mono fun _ _ h => ⟨Finset.mem_insert_of_mem h.1, h.2⟩
      · exact ⟨fun _ h => h, Finset.subset_insert _ _, fun _ h => h, fun _ h => h, fun _ h h' => absurd h h'⟩
    rw [if_neg hv]
    have notInner : e ∉ s.inner := fun h => hv ((hg.inner e h).2 g hsg)
    by_cases hh : g ∈ s.hidden
    · refine ⟨_, by rw [if_pos hh, classifyBorder, if_neg notInner], ?_, ?_, Or.inr (by simp)⟩
      · refine ⟨hg.apart, hg.faces, hg.inner, ?_, hg.joined, hg.unseen⟩
        intro e' h'
        rcases Finset.mem_insert.1 h' with rfl | h'
        · exact ⟨f, g, hf, hh, hk⟩
        · exact hg.border e' h'
      · exact ⟨fun _ h => h, fun _ h => h, Finset.subset_insert _ _, fun _ h => h, fun _ h h' => absurd h h'⟩
    rw [if_neg hh]
    by_cases ho : (outside g || flat e) = true
    · rw [if_pos ho]
      simp only [hgc, classifyInner, if_neg (notBorder hh), Except.bind]
      set t : Patch := ⟨s.border, insert g s.visible, s.hidden, insert e s.inner⟩ with ht
      have hgt : Good P outside flat f0 t := by
        refine ⟨?_, ?_, ?_, ?_, ?_, hg.unseen⟩
        · intro k h
          rcases Finset.mem_insert.1 h with rfl | h
          · exact hh
          · exact hg.apart k h
        · intro k h
          rcases Finset.mem_insert.1 h with rfl | h
          · exact hgl
          · exact hg.faces k h
        · intro e' h'
          rcases Finset.mem_insert.1 h' with rfl | h'
          · refine ⟨by rw [he]; simp, fun k h => ?_⟩
            rcases (hk k).1 h with rfl | rfl
            · exact Finset.mem_insert_of_mem hf
            · exact Finset.mem_insert_self _ _
          · exact ⟨(hg.inner e' h').1, fun k h => Finset.mem_insert_of_mem ((hg.inner e' h').2 k h)⟩
        · intro e' h'
          obtain ⟨x, y, hx, hy, hxy⟩ := hg.border e' h'
          exact ⟨x, y, Finset.mem_insert_of_mem hx, hy, hxy⟩
        · intro k h
          rcases Finset.mem_insert.1 h with rfl | h
          · exact .step ((hg.joined f hf).mono fun _ _ h => ⟨Finset.mem_insert_of_mem h.1, h.2⟩)
              ⟨Finset.mem_insert_self _ _, Bool.or_eq_true_iff.1 ho⟩ hs hsg
          · exact (hg.joined k h).mono fun _ _ h => ⟨Finset.mem_insert_of_mem h.1, h.2⟩
      have hrt := rest_insert hc hgl hv t rfl
      have hstep : ∀ u e', Good P outside flat f0 u ∧ e ∈ u.inner → g ∈ u.visible → P.Side e' g → u.rest P < n →
          ∃ u', (if e' ≠ e then visit P outside flat n g e' u else .ok u) = .ok u' ∧ Good P outside flat f0 u' ∧ Later P u u' ∧
            u'.Done e' := by
        rintro u e' ⟨hu, hi⟩ hgu hs' hnu
        by_cases hee : e' = e
        · subst hee
          exact ⟨u, by simp, hu, .refl _, Or.inl hi⟩
        · rw [if_pos hee]
          exact ih g e' u hu hgu hs' hnu
      -- the run over the edges of `g`
      have run : ∀ (l : List ℕ), (∀ x ∈ l, P.Side x g) → ∀ u : Patch, Good P outside flat f0 u → e ∈ u.inner → g ∈ u.visible →
          u.rest P < n → ∃ u', l.foldlM (fun s e' => if e' ≠ e then visit P outside flat n g e' s else .ok s) u = .ok u' ∧
            Good P outside flat f0 u' ∧ Later P u u' ∧ ∀ x ∈ l, u'.Done x := by
        intro l
        induction l with
        | nil => exact fun _ u hu _ _ _ => ⟨u, rfl, hu, .refl _, by simp⟩
        | cons x l ihl =>
          intro hl u hu hi hgu hnu
          obtain ⟨v, h1, h2, h3, h4⟩ := hstep u x ⟨hu, hi⟩ hgu (hl x (by simp)) hnu
          obtain ⟨w, k1, k2, k3, k4⟩ := ihl (fun y hy => hl y (by simp [hy])) v h2 (h3.inner hi) (h3.visible hgu)
            ((rest_mono h3.visible).trans_lt hnu)
          refine ⟨w, ?_, k2, h3.trans k3, ?_⟩
          · rw [List.foldlM_cons, h1]; exact k1
          · simpa using ⟨h4.mono k3, k4⟩
      obtain ⟨u, h1, h2, h3, h4⟩ := run gc.edges (fun x hx => ⟨gc, hgc, hx⟩) t hgt (Finset.mem_insert_self _ _)
        (Finset.mem_insert_self _ _) (by omega)
      refine ⟨u, h1, h2, ?_, Or.inl (h3.inner (Finset.mem_insert_self _ _))⟩
      refine ⟨(Finset.subset_insert _ _).trans h3.visible, (Finset.subset_insert _ _).trans h3.inner, h3.border, h3.hidden, ?_⟩
      intro k hku hks x hx
      by_cases hkg : k = g
      · subst hkg
        obtain ⟨kc, hkc, hxk⟩ := hx
        rw [hgc] at hkc
        cases hkc
        exact h4 x hxk
      · exact h3.done k hku (by simp [ht, hkg, hks]) x hx
    · rw [if_neg ho]
      simp only [classifyBorder, if_neg notInner, Except.map]
      refine ⟨_, rfl, ?_, ?_, Or.inr (Finset.mem_insert_self _ _)⟩
      · refine ⟨?_, hg.faces, hg.inner, ?_, hg.joined, ?_⟩
        · intro k h hm
          rcases Finset.mem_insert.1 hm with rfl | hm
          · exact hv h
          · exact hg.apart k h hm
        · intro e' h'
          rcases Finset.mem_insert.1 h' with rfl | h'
          · exact ⟨f, g, hf, Finset.mem_insert_self _ _, hk⟩
          · obtain ⟨x, y, hx, hy, hxy⟩ := hg.border e' h'
            exact ⟨x, y, hx, Finset.mem_insert_of_mem hy, hxy⟩
        · intro k h
          rcases Finset.mem_insert.1 h with rfl | h
          · simp only [Bool.or_eq_true, not_or, Bool.not_eq_true] at ho
            exact ho.1
          · exact hg.unseen k h
      · exact ⟨fun _ h => h, fun _ h => h, Finset.subset_insert _ _, Finset.subset_insert _ _, fun _ h h' => absurd h h'⟩

theorem visiblePatch_ok (hc : Closed P) {f : ℕ} (hf : P.faces f ≠ none) {fuel : ℕ} (hn : P.nextF ≤ fuel) :
    ∃ s, visiblePatch P outside flat fuel f = .ok s ∧ IsPatch P outside flat f s := by
  obtain ⟨fc, hfc⟩ := Option.ne_none_iff_exists'.1 hf
  set s0 : Patch := ⟨∅, {f}, ∅, ∅⟩ with hs0
  have hg0 : Good P outside flat f s0 := by
    refine ⟨by simp [hs0], by simpa [hs0] using hf, by simp [hs0], by simp [hs0], ?_, by simp [hs0]⟩
    intro g hg
    rw [Finset.mem_singleton.1 hg]
    exact .refl
  have hr : s0.rest P < fuel := by
    refine lt_of_lt_of_le ?_ hn
    have h1 : s0.rest P ≤ (Finset.range P.nextF \ {f}).card := le_rfl
    have h2 : (Finset.range P.nextF \ {f}).card < (Finset.range P.nextF).card := by
      apply Finset.card_lt_card
      refine ⟨Finset.sdiff_subset, fun k => ?_⟩
      have := k (Finset.mem_range.2 (hc.newF f hf))
      simp at this
    rw [Finset.card_range] at h2
    omega
  obtain ⟨s, h1, h2, h3, h4⟩ := fold_good (n := fuel) (f := f) (fun s e => visit_good (outside := outside) (flat := flat) hc (f0 := f) fuel f e s) fc.edges
    (fun e he => ⟨fc, hfc, he⟩) s0 hg0 (by simp [hs0]) hr
  refine ⟨s, by rw [visiblePatch, hfc]; exact h1, ?_⟩
  have hfs : f ∈ s.visible := h3.visible (by simp [hs0])
  have done : ∀ g ∈ s.visible, ∀ e, P.Side e g → s.Done e := by
    intro g hg e he
    by_cases hgf : g = f
    · subst hgf
      obtain ⟨gc, hgc, heg⟩ := he
      rw [hfc] at hgc
      cases hgc
      exact h4 e heg
    · exact h3.done g hg (by simp [hs0, hgf]) e he
  refine ⟨hfs, h2.faces, ?_, ?_, h2.joined, ?_⟩
  · intro e
    refine ⟨fun h => h2.inner e h, fun ⟨hl, h⟩ => ?_⟩
    obtain ⟨ed, hed⟩ := Option.ne_none_iff_exists'.1 hl
    obtain ⟨x, y, -, -, -, hxy⟩ := hc.two e ed hed
    have hx : P.Side e x := (hxy x).2 (Or.inl rfl)
    rcases done x (h x hx) e hx with hd | hd
    · exact hd
    · obtain ⟨u, w, hu, hw, huw⟩ := h2.border e hd
      exact absurd hw (h2.apart w (h w ((huw w).2 (Or.inr rfl))))
  · intro e
    constructor
    · intro h
      obtain ⟨u, w, hu, hw, huw⟩ := h2.border e h
      exact ⟨⟨u, hu, (huw u).2 (Or.inl rfl)⟩, w, (huw w).2 (Or.inr rfl), fun hv => h2.apart w hv hw⟩
    · rintro ⟨⟨g, hg, he⟩, k, hk, hkv⟩
      rcases done g hg e he with hd | hd
      · exact absurd ((h2.inner e hd).2 k hk) hkv
      · exact hd
  · intro e he g hs hgv
    obtain ⟨u, w, hu, hw, huw⟩ := h2.border e he
    rcases (huw g).1 hs with rfl | rfl
    · exact absurd hu hgv
    · exact h2.unseen _ hw

end Pt
end Fcl
