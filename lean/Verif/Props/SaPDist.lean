import Verif.SaP.Dist
import Verif.Search.Lemmas
import Verif.Props.SaP
import Verif.Props.SSaP

/-!
# C15 for the sweep-and-prune manager
-/

set_option linter.unusedSectionVars false

namespace Fcl
open SaP Search

section
variable {K O σ : Type*} [Field K] [LinearOrder K] [IsStrictOrderedRing K] [LinearOrder O]
  {dist : AABB K → AABB K → K} {eqv : AABB K → AABB K → Bool} {big : K} {w : O → AABB K}
  {cb : DCB σ K O} {P : σ → K → Prop} {d : O → O → K} {ps : List (O × O)}

theorem SaP.cands_complete {m : SaP K O} (hi : SaP.Inv m) (hf : m.fresh = true) :
    Complete m.cands m.cached (fun o => o ∈ m.arr) (fun _ => True) := by
  intro b
  refine ⟨_, by rw [SaP.cands, if_pos hf], ?_, ?_⟩
  · intro o ho
    obtain ⟨e, he, rfl⟩ := List.mem_map.1 ho
    rw [List.mem_filter, upTo_eq_filter (hi.sorted _), List.mem_filter] at he
    exact (hi.mem _ e).1 he.1.1
  · intro _ o ho hov
    rw [overlap_get] at hov
    refine List.mem_map.2 ⟨⟨o, false⟩, ?_, rfl⟩
    rw [List.mem_filter, upTo_eq_filter (hi.sorted _), List.mem_filter]
    refine ⟨⟨(hi.mem _ _).2 ho, ?_⟩, ?_⟩
    · simpa [val] using (hov m.axis).1
    · simpa [val] using (hov m.axis).2

theorem lastBox_valid {h : List (PCall K O)} (hh : PHistory h) {o : O} {b : AABB K} (hb : lastBox o h = some b) :
    b.Valid := by
  have solid : ∀ {b : AABB K}, b.Solid → b.Valid := fun h => ⟨(h 0).le, (h 1).le, (h 2).le⟩
  induction hh generalizing b with
  | nil => cases hb
  | @snoc h c hh hc ih =>
    obtain ⟨hc1, hc2⟩ := hc
    unfold lastBox at hb
    rw [List.foldl_append] at hb
    change lastStep o (lastBox o h) c = some b at hb
    have upd : ∀ {b'}, c.Updates o → (lastBox o h).map (fun _ => c.w o) = some b' → b'.Valid := by
      intro b' hu hm
      rcases hl : lastBox o h with _ | x
      · rw [hl] at hm; cases hm
      · rw [hl] at hm
        cases hm
        exact solid (hc2 o x hu hl).2.1
    unfold lastStep at hb
    unfold PCall.Updates at upd
    rcases hop : c.op with p | ps | p | _ | _ | p | ps | _ <;> rw [hop] at hb hc1 upd <;> simp only at hb hc1 upd
    · split at hb
      · rename_i e; cases hb; rw [e]; exact hc1.2
      · exact ih hb
    · split at hb
      · rename_i e; cases hb; exact (hc1.2.1 o e).2
      · exact ih hb
    · split at hb
      · cases hb
      · exact ih hb
    · exact ih hb
    · exact upd trivial hb
    · split at hb
      · rename_i e; exact upd e hb
      · exact ih hb
    · split at hb
      · rename_i e; exact upd e hb
      · exact ih hb
    · cases hb

theorem inMgr_valid {h : List (PCall K O)} (hh : PHistory h) (hw : LastCurrent h w) {o : O} (ho : InMgr o h) :
    (w o).Valid := by
  rcases hl : lastBox o h with _ | b
  · exact absurd hl ho
  · rw [← hw o b hl]; exact lastBox_valid hh hl

/-- What the theorems below need of the manager, from a history. -/
theorem SaP.dist_setup {approx : AABB K → AABB K → Bool} (hap : ∀ a b, approx a b = true → a = b)
    (b0 : AABB K) {h : List (PCall K O)} (hh : PHistory h) (hw : LastCurrent h w) (hr : removedLast h = false) :
    ∃ m, run approx b0 h = some m ∧ Complete m.cands m.cached (fun o => o ∈ m.arr) (fun _ => True) ∧
      (∀ o, o ∈ m.arr ↔ InMgr o h) ∧ ∀ o, InMgr o h → m.cached o = w o := by
  obtain ⟨m, hm, ha⟩ := run_agrees hap b0 hh
  refine ⟨m, hm, cands_complete ha.inv (ha.fresh hr), fun o => ha.arr o, fun o ho => ?_⟩
  obtain ⟨x, hx⟩ := lastBox_of_mem ho
  rw [ha.cached o x hx, hw o x hx]

/-- C15 for SaP, `distance(obj)`: when it returns, the bound is the minimum of the distances of the other registered
objects. `ps` lists the pairs `(o, q)`. Missing: it may not return (`C15_sap_diverges_single`). -/
theorem C15_sap_object_partial {approx : AABB K → AABB K → Bool} (hap : ∀ a b, approx a b = true → a = b)
    (b0 : AABB K) {h : List (PCall K O)} (hh : PHistory h) (hw : LastCurrent h w) (hr : removedLast h = false)
    (hg : GapDist2 dist) (q : O) (hvq : (w q).Valid) (hps : ∀ p, p ∈ ps ↔ InMgr p.1 h ∧ p.1 ≠ q ∧ p.2 = q)
    (hd : ∀ p ∈ ps, dist (w p.1) (w p.2) ≤ d p.1 p.2) (hcb : cb.Tracks P d ps) (s : σ) (hP : P s big) :
    ∃ m, run approx b0 h = some m ∧ ∀ fuel x, m.distanceObj dist eqv big w cb fuel q s = .ok x →
      x.2 = minDist d big ps := by
  obtain ⟨m, hm, hc, harr, hcach⟩ := dist_setup hap b0 hh hw hr
  refine ⟨m, hm, fun fuel x hx => ?_⟩
  unfold distanceObj at hx
  split at hx
  · rename_i h0
    cases hx
    have : ps = [] := by
      rw [List.eq_nil_iff_forall_not_mem]
      intro p hp
      have := (harr p.1).2 ((hps p).1 hp).1
      rw [List.length_eq_zero_iff.1 h0] at this
      simp at this
    rw [this]; rfl
  · rcases hq : distQ dist eqv big w m false cb fuel q ⟨s, big, []⟩ with e | r
    · rw [hq] at hx; cases hx
    · rw [hq] at hx
      cases hx
      have hf := search_spec hc (fun o ho => by rw [hcach o ((harr o).1 ho)]; exact hg _ _ (inMgr_valid hh hw ((harr o).1 ho)) hvq) hcb (by simp) q (fun o ho hoq => (hps _).2 ⟨(harr o).1 ho, hoq, rfl⟩)
        (fun o ho => by rw [hcach o ((hps _).1 ho).1]; exact hd _ ho) (fun _ _ _ => trivial) fuel _ (Good.init hP) hq
      refine le_antisymm (le_minDist _ _ _ _ hf.le fun p hp => ?_) hf.good.low
      rcases hs : r.2 with _ | _
      · obtain ⟨h1, h2, h3⟩ := (hps p).1 hp
        rw [h3]
        exact hf.all hs p.1 ((harr _).2 h1) h2
      · exact hf.stop hs p hp

/-- C15 for SaP, `distance(obj)`: termination, when the query box has positive extents and some other registered
object is at a distance below `big`. -/
theorem C15_sap_object_terminates_partial [Archimedean K] {approx : AABB K → AABB K → Bool}
    (hap : ∀ a b, approx a b = true → a = b)
    (b0 : AABB K) {h : List (PCall K O)} (hh : PHistory h) (hw : LastCurrent h w) (hr : removedLast h = false)
    (heq : ∀ b, eqv b b = true) (q o : O) (ho : InMgr o h) (hoq : o ≠ q) (hfin : d o q < big)
    (hsolid : ∀ i : Fin 3, (w q).lo.get i < (w q).hi.get i)
    (hps : ∀ p, p ∈ ps ↔ InMgr p.1 h ∧ p.1 ≠ q ∧ p.2 = q)
    (hd : ∀ p ∈ ps, dist (w p.1) (w p.2) ≤ d p.1 p.2) (hcb : cb.Tracks P d ps) (s : σ) (hP : P s big) :
    ∃ m, run approx b0 h = some m ∧ ∃ F, ∀ fuel ≥ F, ∃ x, m.distanceObj dist eqv big w cb fuel q s = .ok x := by
  obtain ⟨m, hm, hc, harr, hcach⟩ := dist_setup hap b0 hh hw hr
  obtain ⟨N, hN⟩ := exists_cover hsolid (m.cached o)
  refine ⟨m, hm, N + 2, fun fuel hf => ?_⟩
  unfold distanceObj
  split
  · exact ⟨_, rfl⟩
  · obtain ⟨r, hr⟩ := search_terminates (on := false) hc hcb (by simp) q
      (fun o ho hoq => (hps _).2 ⟨(harr o).1 ho, hoq, rfl⟩)
      (fun o ho => by rw [hcach o ((hps _).1 ho).1]; exact hd _ ho) (heq (w q)) o ((harr o).2 ho) hoq hfin N
      (fun c hc _ => ⟨trivial, hN c hc⟩) fuel hf _ (Good.init hP)
    unfold distQ
    rw [hr]
    exact ⟨_, rfl⟩

/-- C15 for SaP, self-distance: the value when it returns. `d` does not depend on the order of the two objects. -/
theorem C15_sap_self_partial {approx : AABB K → AABB K → Bool} (hap : ∀ a b, approx a b = true → a = b)
    (b0 : AABB K) {h : List (PCall K O)} (hh : PHistory h) (hw : LastCurrent h w) (hr : removedLast h = false)
    (hg : GapDist2 dist) (hsym : ∀ a b, d a b = d b a)
    (hps : ∀ p, p ∈ ps ↔ InMgr p.1 h ∧ InMgr p.2 h ∧ p.1 ≠ p.2)
    (hd : ∀ p ∈ ps, dist (w p.1) (w p.2) ≤ d p.1 p.2) (hcb : cb.Tracks P d ps) (s : σ) (hP : P s big) :
    ∃ m, run approx b0 h = some m ∧ ∀ fuel x, m.distanceSelf dist eqv big w cb fuel s = .ok x →
      x.2 = minDist d big ps := by
  obtain ⟨m, hm, hc, harr, hcach⟩ := dist_setup hap b0 hh hw hr
  refine ⟨m, hm, fun fuel x hx => ?_⟩
  unfold distanceSelf at hx
  split at hx
  · rename_i h0
    cases hx
    have : ps = [] := by
      rw [List.eq_nil_iff_forall_not_mem]
      intro p hp
      have := (harr p.1).2 ((hps p).1 hp).1
      rw [List.length_eq_zero_iff.1 h0] at this
      simp at this
    rw [this]; rfl
  · rcases hq : each (distQ dist eqv big w m true cb fuel) m.arr ⟨s, big, []⟩ with e | t
    · rw [hq] at hx; cases hx
    · rw [hq] at hx
      cases hx
      refine each_spec (R := fun o => o ∈ m.arr) (fun p hp => ?_) (fun q hqm t r ht hr => ?_) s hP hq
      · obtain ⟨h1, h2, h3⟩ := (hps p).1 hp
        exact ⟨(harr _).2 h2, (harr _).2 h1, h3⟩
      · exact search_spec hc
          (fun o ho => by rw [hcach o ((harr o).1 ho)]; exact hg _ _ (inMgr_valid hh hw ((harr o).1 ho)) (inMgr_valid hh hw ((harr q).1 hqm)))
          hcb (fun _ => hsym) q
          (fun o ho hoq => (hps _).2 ⟨(harr o).1 ho, (harr q).1 hqm, hoq⟩)
          (fun o ho => by rw [hcach o ((hps _).1 ho).1]; exact hd _ ho) (fun _ _ _ => trivial) fuel _ ht hr

/-- C15 for SaP, self-distance: termination, when all boxes have positive extents and every registered object has
another one at a distance below `big`. -/
theorem C15_sap_self_terminates_partial [Archimedean K] {approx : AABB K → AABB K → Bool}
    (hap : ∀ a b, approx a b = true → a = b)
    (b0 : AABB K) {h : List (PCall K O)} (hh : PHistory h) (hw : LastCurrent h w) (hr : removedLast h = false)
    (hg : GapDist2 dist) (heq : ∀ b, eqv b b = true) (hsym : ∀ a b, d a b = d b a)
    (hother : ∀ q, InMgr q h → ∃ o, InMgr o h ∧ o ≠ q ∧ d o q < big)
    (hsolid : ∀ q, InMgr q h → ∀ i : Fin 3, (w q).lo.get i < (w q).hi.get i)
    (hps : ∀ p, p ∈ ps ↔ InMgr p.1 h ∧ InMgr p.2 h ∧ p.1 ≠ p.2)
    (hd : ∀ p ∈ ps, dist (w p.1) (w p.2) ≤ d p.1 p.2) (hcb : cb.Tracks P d ps) (s : σ) (hP : P s big) :
    ∃ m, run approx b0 h = some m ∧ ∃ F, ∀ fuel ≥ F, ∃ x, m.distanceSelf dist eqv big w cb fuel s = .ok x := by
  obtain ⟨m, hm, hc, harr, hcach⟩ := dist_setup hap b0 hh hw hr
  have hone : ∀ q ∈ m.arr, ∃ N : ℕ, ∀ fuel ≥ N, ∀ t, Good P d big ps t →
      ∃ r, distQ dist eqv big w m true cb fuel q t = .ok r ∧ Good P d big ps r.1 := by
    intro q hqm
    obtain ⟨o, ho, hoq, hfin⟩ := hother q ((harr q).1 hqm)
    obtain ⟨N, hN⟩ := exists_cover (hsolid q ((harr q).1 hqm)) (m.cached o)
    refine ⟨N + 2, fun fuel hf t ht => ?_⟩
    have hl : ∀ o, o ∈ m.arr → o ≠ q → (o, q) ∈ ps := fun o ho hoq => (hps _).2 ⟨(harr o).1 ho, (harr q).1 hqm, hoq⟩
    have hd' : ∀ o, (o, q) ∈ ps → dist (m.cached o) (w q) ≤ d o q :=
      fun o ho => by rw [hcach o ((hps _).1 ho).1]; exact hd _ ho
    obtain ⟨r, hr⟩ := search_terminates (on := true) hc hcb (fun _ => hsym) q hl hd' (heq (w q)) o ((harr o).2 ho) hoq hfin N
      (fun c hc _ => ⟨trivial, hN c hc⟩) fuel hf t ht
    exact ⟨r, hr, (search_spec hc (fun o ho => by rw [hcach o ((harr o).1 ho)]; exact hg _ _ (inMgr_valid hh hw ((harr o).1 ho)) (inMgr_valid hh hw ((harr q).1 hqm))) hcb (fun _ => hsym) q hl hd' (fun _ _ _ => trivial) fuel t ht hr).good⟩
  obtain ⟨F, hF⟩ : ∃ F : ℕ, ∀ q ∈ m.arr, ∀ fuel ≥ F, ∀ t, Good P d big ps t →
      ∃ r, distQ dist eqv big w m true cb fuel q t = .ok r ∧ Good P d big ps r.1 := by
    generalize m.arr = l at hone
    induction l with
    | nil => exact ⟨0, by simp⟩
    | cons a l ih =>
      obtain ⟨F, hF⟩ := ih (fun q hq => hone q (List.mem_cons_of_mem _ hq))
      obtain ⟨N, hN⟩ := hone a (List.mem_cons_self ..)
      refine ⟨max F N, fun q hq fuel hf => ?_⟩
      rcases List.mem_cons.1 hq with rfl | hq
      · exact hN fuel (le_trans (le_max_right _ _) hf)
      · exact hF q hq fuel (le_trans (le_max_left _ _) hf)
  refine ⟨m, hm, F, fun fuel hf => ?_⟩
  unfold distanceSelf
  split
  · exact ⟨_, rfl⟩
  · obtain ⟨r, hr⟩ := each_terminates (fun q hq t ht => hF q hq fuel hf t ht) ⟨s, big, []⟩ (Good.init hP)
    rw [hr]
    exact ⟨_, rfl⟩

/-- C15 for two SaP managers: the value when it returns. `ps` lists the pairs in the order of the search, the
object of the manager searched first. -/
theorem C15_sap_managers_partial {approx : AABB K → AABB K → Bool} (hap : ∀ a b, approx a b = true → a = b)
    (b0 : AABB K) {h h' : List (PCall K O)} (hh : PHistory h) (hh' : PHistory h') (hw : LastCurrent h w)
    (hw' : LastCurrent h' w) (hr : removedLast h = false) (hr' : removedLast h' = false)
    (hg : GapDist2 dist) (hsym : ∀ a b, d a b = d b a)
    (hps : ∀ p, p ∈ ps ↔ (InMgr p.1 h ∧ InMgr p.2 h' ∨ InMgr p.1 h' ∧ InMgr p.2 h) ∧ p.1 ≠ p.2)
    (hd : ∀ p ∈ ps, dist (w p.1) (w p.2) ≤ d p.1 p.2) (hcb : cb.Tracks P d ps) (s : σ) (hP : P s big) :
    ∃ m m', run approx b0 h = some m ∧ run approx b0 h' = some m' ∧
      ∀ fuel x, m.distanceOther dist eqv big w m' cb fuel s = .ok x → x.2 = minDist d big ps := by
  obtain ⟨m, hm, hc, harr, hcach⟩ := dist_setup hap b0 hh hw hr
  obtain ⟨m', hm', hc', harr', hcach'⟩ := dist_setup hap b0 hh' hw' hr'
  refine ⟨m, m', hm, hm', fun fuel x hx => ?_⟩
  -- one loop, over the objects of `n'` against the manager `n`
  have key : ∀ (n n' : SaP K O) (g g' : List (PCall K O)), Complete n.cands n.cached (fun o => o ∈ n.arr) (fun _ => True) →
      (∀ o, o ∈ n.arr ↔ InMgr o g) → (∀ o, InMgr o g → n.cached o = w o) → (∀ o, o ∈ n'.arr ↔ InMgr o g') →
      (∀ o, InMgr o g → (w o).Valid) → (∀ o, InMgr o g' → (w o).Valid) →
      (∀ p ∈ ps, (InMgr p.1 g ∧ InMgr p.2 g' ∨ InMgr p.1 g' ∧ InMgr p.2 g) ∧ p.1 ≠ p.2) →
      (∀ p : O × O, InMgr p.1 g → InMgr p.2 g' → p.1 ≠ p.2 → p ∈ ps ∧ (p.2, p.1) ∈ ps) →
      ∀ t, each (distQ dist eqv big w n false cb fuel) n'.arr ⟨s, big, []⟩ = .ok t → t.md = minDist d big ps := by
    intro n n' g g' hc harr hcach harr' hv hv' hps1 hps2 t ht
    -- the pairs the loop is about
    set qs := ps.filter (fun p => decide (p.1 ∈ n.arr) && decide (p.2 ∈ n'.arr)) with hqs
    have hmem : ∀ p, p ∈ qs ↔ InMgr p.1 g ∧ InMgr p.2 g' ∧ p.1 ≠ p.2 := by
      intro p
      rw [hqs, List.mem_filter, Bool.and_eq_true, decide_eq_true_eq, decide_eq_true_eq, harr, harr']
      constructor
      · rintro ⟨h1, h2, h3⟩; exact ⟨h2, h3, (hps1 p h1).2⟩
      · rintro ⟨h1, h2, h3⟩; exact ⟨(hps2 p h1 h2 h3).1, h1, h2⟩
    have hmin : minDist d big ps = minDist d big qs := by
      refine le_antisymm (le_minDist _ _ _ _ (minDist_le_big _ _ _) fun p hp => minDist_le _ _ _ _ (List.mem_filter.1 hp).1)
        (le_minDist _ _ _ _ (minDist_le_big _ _ _) fun p hp => ?_)
      obtain ⟨h1 | h1, h2⟩ := hps1 p hp
      · exact minDist_le _ _ _ _ ((hmem p).2 ⟨h1.1, h1.2, h2⟩)
      · rw [hsym]
        exact minDist_le d big qs (p.2, p.1) ((hmem (p.2, p.1)).2 ⟨h1.2, h1.1, Ne.symm h2⟩)
    rw [hmin]
    have hcb' : cb.Tracks P d qs := hcb.subset (fun p hp => (List.mem_filter.1 hp).1)
    refine each_spec (R := fun o => o ∈ n.arr) (fun p hp => ?_) (fun q hqm t r ht hr => ?_) s hP ht
    · obtain ⟨h1, h2, h3⟩ := (hmem p).1 hp
      exact ⟨(harr' _).2 h2, (harr _).2 h1, h3⟩
    · exact search_spec hc
        (fun o ho => by rw [hcach o ((harr o).1 ho)]; exact hg _ _ (hv o ((harr o).1 ho)) (hv' q ((harr' q).1 hqm)))
        hcb' (fun _ => hsym) q
        (fun o ho hoq => (hmem _).2 ⟨(harr o).1 ho, (harr' q).1 hqm, hoq⟩)
        (fun o ho => by
          rw [hcach o ((hmem _).1 ho).1]; exact hd _ (List.mem_filter.1 ho).1) (fun _ _ _ => trivial) fuel _ ht hr
  unfold distanceOther at hx
  split at hx
  · rename_i h0
    cases hx
    have : ps = [] := by
      rw [List.eq_nil_iff_forall_not_mem]
      intro p hp
      have hne : ∀ {o}, InMgr o h → m.size ≠ 0 := fun ho hz => by
        have := (harr _).2 ho; rw [List.length_eq_zero_iff.1 hz] at this; simp at this
      have hne' : ∀ {o}, InMgr o h' → m'.size ≠ 0 := fun ho hz => by
        have := (harr' _).2 ho; rw [List.length_eq_zero_iff.1 hz] at this; simp at this
      rcases ((hps p).1 hp).1 with h1 | h1
      · rcases h0 with h0 | h0
        · exact hne h1.1 h0
        · exact hne' h1.2 h0
      · rcases h0 with h0 | h0
        · exact hne h1.2 h0
        · exact hne' h1.1 h0
    rw [this]; rfl
  · split at hx
    · rcases hq : each (distQ dist eqv big w m' false cb fuel) m.arr ⟨s, big, []⟩ with e | t
      · rw [hq] at hx; cases hx
      · rw [hq] at hx
        cases hx
        exact key m' m h' h hc' harr' hcach' harr (fun _ => inMgr_valid hh' hw') (fun _ => inMgr_valid hh hw) (fun p hp => ⟨((hps p).1 hp).1.symm, ((hps p).1 hp).2⟩)
          (fun p h1 h2 h3 => ⟨(hps p).2 ⟨Or.inr ⟨h1, h2⟩, h3⟩, (hps (p.2, p.1)).2 ⟨Or.inl ⟨h2, h1⟩, Ne.symm h3⟩⟩) t hq
    · rcases hq : each (distQ dist eqv big w m false cb fuel) m'.arr ⟨s, big, []⟩ with e | t
      · rw [hq] at hx; cases hx
      · rw [hq] at hx
        cases hx
        exact key m m' h h' hc harr hcach harr' (fun _ => inMgr_valid hh hw) (fun _ => inMgr_valid hh' hw') (fun p hp => (hps p).1 hp)
          (fun p h1 h2 h3 => ⟨(hps p).2 ⟨Or.inl ⟨h1, h2⟩, h3⟩, (hps (p.2, p.1)).2 ⟨Or.inr ⟨h2, h1⟩, Ne.symm h3⟩⟩) t hq

/-- C15 fails for SaP: with a single registered object, self-distance and `distance` to that very object never
return, whatever the callback. -/
theorem C15_sap_diverges_single {approx : AABB K → AABB K → Bool} (hap : ∀ a b, approx a b = true → a = b)
    (b0 : AABB K) {h : List (PCall K O)} (hh : PHistory h) (hw : LastCurrent h w) (hr : removedLast h = false)
    (o : O) (ho : ∀ p, InMgr p h ↔ p = o) (cb : DCB σ K O) (s : σ) :
    ∃ m, run approx b0 h = some m ∧ ∀ fuel, m.distanceObj dist eqv big w cb fuel o s = .error .fuel ∧
      m.distanceSelf dist eqv big w cb fuel s = .error .fuel := by
  obtain ⟨m, hm, hc, harr, hcach⟩ := dist_setup hap b0 hh hw hr
  have hne : m.size ≠ 0 := fun hz => by
    have := (harr o).2 ((ho o).2 rfl); rw [List.length_eq_zero_iff.1 hz] at this; simp at this
  have hdiv : ∀ on fuel, distQ dist eqv big w m on cb fuel o ⟨s, big, []⟩ = .error .fuel := by
    intro on fuel
    unfold distQ search
    refine loop_diverges (fun b => ?_) fuel _ _ (le_refl _)
    obtain ⟨l, e, h1, -⟩ := hc b
    exact ⟨l, e, fun p hp => (ho p).1 ((harr p).1 (h1 p hp))⟩
  refine ⟨m, hm, fun fuel => ⟨?_, ?_⟩⟩
  · unfold distanceObj
    rw [if_neg hne, hdiv]; rfl
  · unfold distanceSelf
    rw [if_neg hne]
    rcases hl : m.arr with _ | ⟨a, l⟩
    · exact absurd (by simp [SaP.size, hl]) hne
    · have : a = o := (ho a).1 ((harr a).1 (by rw [hl]; exact List.mem_cons_self ..))
      subst this
      rw [each, hdiv]; rfl

/-- Distance queries right after an object has been unregistered use deleted memory. -/
theorem C15_sap_violated_unregister {m m' : SaP K O} {o : O} (hm : m.unregister true o = some m')
    (hne : m'.size ≠ 0) (cb : DCB σ K O) (q : O) (s : σ) (fuel : ℕ) :
    m'.distanceObj dist eqv big w cb (fuel + 1) q s = .error .ub := by
  unfold unregister at hm
  split at hm
  · cases hm
  · split at hm
    · cases hm
    · obtain rfl := Option.some.inj hm
      unfold distanceObj distQ search
      rw [if_neg hne, loop]
      rfl

end

/-- The distance used by the code has the gap property, on either side, in exact real arithmetic. -/
theorem gapDist2_distance : GapDist2 (AABB.distance (K := ℝ)) := by
  intro a b ha hb i
  have h : ∀ (r amin amax bmin bmax : ℝ), 0 ≤ r → amin ≤ amax → bmin ≤ bmax →
      (amin - bmax ≤ Real.sqrt (AABB.distStep r amin amax bmin bmax) ∧
        bmin - amax ≤ Real.sqrt (AABB.distStep r amin amax bmin bmax)) ∧
      r ≤ AABB.distStep r amin amax bmin bmax := by
    intro r amin amax bmin bmax hr h1 h2
    unfold AABB.distStep
    simp only [AABB.ArithOps.sub, AABB.ArithOps.add, AABB.ArithOps.mul]
    split
    · refine ⟨⟨Real.le_sqrt_of_sq_le (by nlinarith), le_trans (by linarith) (Real.sqrt_nonneg _)⟩, ?_⟩
      nlinarith [mul_self_nonneg (bmax - amin)]
    · split
      · refine ⟨⟨le_trans (by linarith) (Real.sqrt_nonneg _), Real.le_sqrt_of_sq_le (by nlinarith)⟩, ?_⟩
        nlinarith [mul_self_nonneg (amax - bmin)]
      · exact ⟨⟨le_trans (by linarith) (Real.sqrt_nonneg _), le_trans (by linarith) (Real.sqrt_nonneg _)⟩, le_refl _⟩
  unfold AABB.distance
  simp only
  have hz : (AABB.ArithOps.zero : ℝ) = 0 := rfl
  rw [hz]
  set r1 := AABB.distStep (0 : ℝ) a.lo.x a.hi.x b.lo.x b.hi.x with e1
  set r2 := AABB.distStep r1 a.lo.y a.hi.y b.lo.y b.hi.y with e2
  set r3 := AABB.distStep r2 a.lo.z a.hi.z b.lo.z b.hi.z with e3
  obtain ⟨p1, q1⟩ := h 0 a.lo.x a.hi.x b.lo.x b.hi.x le_rfl ha.1 hb.1
  rw [← e1] at p1 q1
  obtain ⟨p2, q2⟩ := h r1 a.lo.y a.hi.y b.lo.y b.hi.y q1 ha.2.1 hb.2.1
  rw [← e2] at p2 q2
  obtain ⟨p3, q3⟩ := h r2 a.lo.z a.hi.z b.lo.z b.hi.z (q1.trans q2) ha.2.2 hb.2.2
  rw [← e3] at p3 q3
  show _ ≤ Real.sqrt r3 ∧ _ ≤ Real.sqrt r3
  fin_cases i
  · exact ⟨p1.1.trans (Real.sqrt_le_sqrt (q2.trans q3)), p1.2.trans (Real.sqrt_le_sqrt (q2.trans q3))⟩
  · exact ⟨p2.1.trans (Real.sqrt_le_sqrt q3), p2.2.trans (Real.sqrt_le_sqrt q3)⟩
  · exact p3

/-! ## A concrete case: two cubes three apart -/

namespace SaPDistExample

def cube (a b : ℚ) : AABB ℚ := ⟨⟨a, a, a⟩, ⟨b, b, b⟩⟩
theorem cube_lo (a b : ℚ) (c : Fin 3) : (cube a b).lo.get c = a := by fin_cases c <;> rfl
theorem cube_hi (a b : ℚ) (c : Fin 3) : (cube a b).hi.get c = b := by fin_cases c <;> rfl

def w : ℕ → AABB ℚ
  | 0 => cube 0 2
  | 1 => cube 5 6
  | _ => cube 20 30

def srt (f : EP ℕ → ℚ) (l : List (EP ℕ)) : List (EP ℕ) := l.insertionSort (fun a b => f a ≤ f b)

theorem srt_lawful : LawfulSortE srt := by
  intro f l
  haveI : Std.Total (fun a b : EP ℕ => f a ≤ f b) := ⟨fun a b => le_total _ _⟩
  haveI : IsTrans (EP ℕ) (fun a b : EP ℕ => f a ≤ f b) := ⟨fun a b c h h' => le_trans h h'⟩
  exact ⟨List.perm_insertionSort _ _, List.pairwise_insertionSort _ _⟩

def same (a b : AABB ℚ) : Bool :=
  decide (a.lo.x = b.lo.x ∧ a.lo.y = b.lo.y ∧ a.lo.z = b.lo.z ∧ a.hi.x = b.hi.x ∧ a.hi.y = b.hi.y ∧ a.hi.z = b.hi.z)

def hist : List (PCall ℚ ℕ) := [⟨.registerMany [0, 1], w, srt, 0, 0, true⟩]

/-- The largest gap on an axis. -/
def gap (a b : AABB ℚ) : ℚ :=
  max (max (a.lo.x - b.hi.x) (b.lo.x - a.hi.x))
    (max (max (a.lo.y - b.hi.y) (b.lo.y - a.hi.y)) (max (a.lo.z - b.hi.z) (b.lo.z - a.hi.z)))

theorem gap_gapDist : GapDist2 gap := by
  intro a b _ _ i
  fin_cases i
  · exact ⟨le_max_of_le_left (le_max_left _ _), le_max_of_le_left (le_max_right _ _)⟩
  · exact ⟨le_max_of_le_right (le_max_of_le_left (le_max_left _ _)),
      le_max_of_le_right (le_max_of_le_left (le_max_right _ _))⟩
  · exact ⟨le_max_of_le_right (le_max_of_le_right (le_max_left _ _)),
      le_max_of_le_right (le_max_of_le_right (le_max_right _ _))⟩

/-- A callback that tracks the minimum of the gaps and never stops. -/
def cb : DCB Unit ℚ ℕ := fun s md a b => (s, min md (gap (w a) (w b)), false)

theorem cb_tracks (ps : List (ℕ × ℕ)) : cb.Tracks (fun _ _ => True) (fun a b => gap (w a) (w b)) ps :=
  fun _ _ _ _ _ => ⟨trivial, rfl, fun h => by cases h⟩

theorem last (o : ℕ) : lastBox o hist = if o ∈ [0, 1] then some (w o) else none := rfl

theorem hist_ok : PHistory hist := by
  refine .snoc (h := []) .nil ⟨⟨by decide, fun o ho => ⟨fun h => h rfl, ?_⟩, srt_lawful⟩, fun o b hu => hu.elim⟩
  simp only [List.mem_cons, List.not_mem_nil, or_false] at ho
  rcases ho with rfl | rfl <;> exact ⟨by decide +kernel, by decide +kernel, by decide +kernel⟩

theorem hist_current : LastCurrent hist w := by
  intro o b hb
  rw [last] at hb
  split_ifs at hb
  exact (Option.some.inj hb).symm

theorem inMgr (o : ℕ) : InMgr o hist ↔ o = 0 ∨ o = 1 := by
  unfold InMgr
  rw [last]
  by_cases h : o ∈ [0, 1]
  · rw [if_pos h]; simpa using h
  · rw [if_neg h]; simpa using h

end SaPDistExample

/-- The hypotheses of the self-distance theorems hold of it, and the search ends with the distance of the cubes. -/
example : PHistory SaPDistExample.hist ∧ LastCurrent SaPDistExample.hist SaPDistExample.w ∧
    removedLast SaPDistExample.hist = false ∧ GapDist2 SaPDistExample.gap ∧
    (∀ q, InMgr q SaPDistExample.hist → ∃ o, InMgr o SaPDistExample.hist ∧ o ≠ q ∧
      SaPDistExample.gap (SaPDistExample.w o) (SaPDistExample.w q) < 1000) ∧
    (∀ p, p ∈ [(0, 1), (1, 0)] ↔ InMgr p.1 SaPDistExample.hist ∧ InMgr p.2 SaPDistExample.hist ∧ p.1 ≠ p.2) ∧
    ((run SaPDistExample.same (SaPDistExample.cube 0 0) SaPDistExample.hist).bind (fun m =>
      (m.distanceSelf SaPDistExample.gap SaPDistExample.same 1000 SaPDistExample.w SaPDistExample.cb 9 ()).toOption)).map (·.2)
      = some 3 := by
  refine ⟨SaPDistExample.hist_ok, SaPDistExample.hist_current, rfl, SaPDistExample.gap_gapDist, ?_, ?_, by decide +kernel⟩
  · intro q hq
    rcases (SaPDistExample.inMgr q).1 hq with rfl | rfl
    · exact ⟨1, (SaPDistExample.inMgr 1).2 (Or.inr rfl), by decide, by decide +kernel⟩
    · exact ⟨0, (SaPDistExample.inMgr 0).2 (Or.inl rfl), by decide, by decide +kernel⟩
  · rintro ⟨a, b⟩
    rw [SaPDistExample.inMgr, SaPDistExample.inMgr]
    simp only [List.mem_cons, Prod.mk.injEq, List.not_mem_nil, or_false]
    omega

end Fcl
