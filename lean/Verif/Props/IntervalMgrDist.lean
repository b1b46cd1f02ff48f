import Verif.Props.IntervalMgr
import Verif.Props.SaPDist

/-!
# C15 for the interval tree manager
-/

set_option linter.unusedSectionVars false

namespace Fcl
open IMgr Search

section
variable {K O σ : Type*} [Field K] [LinearOrder K] [IsStrictOrderedRing K] [LinearOrder O] {bot : K}
  {dist : AABB K → AABB K → K} {eqv : AABB K → AABB K → Bool} {big : K} {w : O → AABB K}
  {cb : DCB σ K O} {P : σ → K → Prop} {d : O → O → K} {ps : List (O × O)}

/-- The query box `b`, grown `n` times by half its extents, meets the box `a`, and grown twice as far still lies above
`-DBL_MAX`. -/
def IMgr.Reach (bot : K) (n : ℕ) (b a : AABB K) : Prop :=
  ∀ i : Fin 3, b.lo.get i - n * ((b.hi.get i - b.lo.get i) / 2) ≤ a.hi.get i ∧
    a.lo.get i ≤ b.hi.get i + n * ((b.hi.get i - b.lo.get i) / 2) ∧
    bot < b.lo.get i - 2 * n * ((b.hi.get i - b.lo.get i) / 2) ∧ b.lo.get i ≤ b.hi.get i

theorem IMgr.cands_complete {h : List (ICall K O)} {m : IMgr K O} (hi : IMgr.Inv bot h m) (hw : Current h w) :
    Complete (m.cands bot) w (fun o => Registered o h) (fun b => ∀ i : Fin 3, bot < b.lo.get i) := by
  intro b
  obtain ⟨l, e, h1, h2⟩ := cands_spec hi hw b
  exact ⟨l, e, h1, fun hb => (h2 hb).2⟩

theorem IMgr.registered_valid {h : List (ICall K O)} {m : IMgr K O} (hi : IMgr.Inv bot h m) (hw : Current h w) {o : O}
    (ho : Registered o h) : (w o).Valid := by
  obtain ⟨f, hf, hfw⟩ := hw
  have := hi.fit f hf o ho
  rw [hfw o ho] at this
  exact ⟨(this 0).2, (this 1).2, (this 2).2⟩

theorem IMgr.above_expand {b : AABB K} {r : K} (h : ∀ i : Fin 3, bot < b.lo.get i - r) :
    ∀ i : Fin 3, bot < (b.expand ⟨r, r, r⟩).lo.get i := by
  intro i
  have e1 : (b.expand ⟨r, r, r⟩).lo.get i = b.lo.get i - r := by fin_cases i <;> rfl
  rw [e1]; exact h i

theorem IMgr.reach_grown {n : ℕ} {b a : AABB K} (h : Reach bot n b a) (c : K) (hc : (n : K) ≤ c) (hc2 : c ≤ 2 * n) :
    (∀ i : Fin 3, bot < (grown b c).lo.get i) ∧ a.overlap (grown b c) = true := by
  have hle : ∀ i : Fin 3, 0 ≤ (b.hi.get i - b.lo.get i) / 2 := fun i => by have := (h i).2.2.2; linarith
  refine ⟨fun i => ?_, axis_get.2 fun i => ?_⟩
  · rw [grown_lo]
    have := mul_le_mul_of_nonneg_right hc2 (hle i)
    linarith [(h i).2.2.1]
  · rw [grown_lo, grown_hi]
    have := mul_le_mul_of_nonneg_right hc (hle i)
    constructor <;> linarith [(h i).1, (h i).2.1]

theorem IMgr.mem_objs {h : List (ICall K O)} {m : IMgr K O} (hi : IMgr.Inv bot h m) (q : O) :
    q ∈ (m.ends 0).map (·.obj) ↔ Registered q h := by
  rw [(objs_perm m).mem_iff, List.mem_append, (objs_spec hi false).2, (objs_spec hi true).2]
  exact or_self_iff

/-- C15 for the interval tree manager, `distance(obj)`: when it returns, the bound is the minimum of the distances of
the other registered objects. `ps` lists the pairs `(o, q)`. The query box grown by any of these distances lies above
`-DBL_MAX`. Missing: it may not return (`C15_interval_diverges_single`). -/
theorem C15_interval_object_partial {h : List (ICall K O)} (hh : IMgr.History bot h) {m : IMgr K O} (hr : run bot h = some m)
    (hw : Current h w) (hg : GapDist2 dist) (q : O) (hvq : (w q).Valid)
    (hps : ∀ p, p ∈ ps ↔ Registered p.1 h ∧ p.1 ≠ q ∧ p.2 = q)
    (hbot : ∀ p ∈ ps, d p.1 p.2 < big → ∀ i : Fin 3, bot < (w q).lo.get i - d p.1 p.2)
    (hd : ∀ p ∈ ps, dist (w p.1) (w p.2) ≤ d p.1 p.2) (hcb : cb.Tracks P d ps) (s : σ) (hP : P s big) (fuel : ℕ)
    {x : σ × K} (hx : m.distanceObj bot dist eqv big w cb fuel q s = .ok x) : x.2 = minDist d big ps := by
  have hi := hh.inv hr
  unfold distanceObj at hx
  split at hx
  · rename_i h0
    cases hx
    have : ps = [] := by
      rw [List.eq_nil_iff_forall_not_mem]
      intro p hp
      exact (size_zero hi).1 h0 _ ((hps p).1 hp).1
    rw [this]; rfl
  · rcases hq : m.distQ bot dist eqv big w false cb fuel q ⟨s, big, []⟩ with e | r
    · rw [hq] at hx; cases hx
    · rw [hq] at hx
      cases hx
      have hf := search_spec (cands_complete hi hw) (fun o ho => hg _ _ (registered_valid hi hw ho) hvq) hcb (by simp) q
        (fun o ho hoq => (hps _).2 ⟨ho, hoq, rfl⟩) (fun o ho => hd _ ho)
        (fun p hp hlt => above_expand (hbot p hp hlt)) fuel _ (Good.init hP) hq
      refine le_antisymm (le_minDist _ _ _ _ hf.le fun p hp => ?_) hf.good.low
      rcases hs : r.2 with _ | _
      · obtain ⟨h1, h2, h3⟩ := (hps p).1 hp
        rw [h3]
        exact hf.all hs p.1 h1 h2
      · exact hf.stop hs p hp

/-- C15 for the interval tree manager, `distance(obj)`: termination, when some other registered object is at a distance
below `big` and within reach of the growing search box. -/
theorem C15_interval_object_terminates_partial {h : List (ICall K O)} (hh : IMgr.History bot h) {m : IMgr K O}
    (hr : run bot h = some m) (hw : Current h w) (heq : ∀ b, eqv b b = true) (q o : O) (ho : Registered o h) (hoq : o ≠ q)
    (hfin : d o q < big) (N : ℕ) (hN : Reach bot N (w q) (w o)) (hps : ∀ p, p ∈ ps ↔ Registered p.1 h ∧ p.1 ≠ q ∧ p.2 = q)
    (hd : ∀ p ∈ ps, dist (w p.1) (w p.2) ≤ d p.1 p.2) (hcb : cb.Tracks P d ps) (s : σ) (hP : P s big)
    (fuel : ℕ) (hf : N + 2 ≤ fuel) : ∃ x, m.distanceObj bot dist eqv big w cb fuel q s = .ok x := by
  have hi := hh.inv hr
  unfold distanceObj
  split
  · exact ⟨_, rfl⟩
  · obtain ⟨r, hr⟩ := search_terminates (on := false) (cands_complete hi hw) hcb (by simp) q
      (fun o ho hoq => (hps _).2 ⟨ho, hoq, rfl⟩) (fun o ho => hd _ ho) (heq (w q)) o ho hoq hfin N
      (fun c hc hc2 => reach_grown hN c hc hc2) fuel hf _ (Good.init hP)
    unfold distQ
    rw [hr]
    exact ⟨_, rfl⟩

/-- C15 for the interval tree manager, self-distance: the value when it returns. -/
theorem C15_interval_self_partial {h : List (ICall K O)} (hh : IMgr.History bot h) {m : IMgr K O} (hr : run bot h = some m)
    (hw : Current h w) (hg : GapDist2 dist) (hsym : ∀ a b, d a b = d b a)
    (hps : ∀ p, p ∈ ps ↔ Registered p.1 h ∧ Registered p.2 h ∧ p.1 ≠ p.2)
    (hbot : ∀ p ∈ ps, d p.1 p.2 < big → ∀ q, Registered q h → ∀ i : Fin 3, bot < (w q).lo.get i - d p.1 p.2)
    (hd : ∀ p ∈ ps, dist (w p.1) (w p.2) ≤ d p.1 p.2) (hcb : cb.Tracks P d ps) (s : σ) (hP : P s big) (fuel : ℕ)
    {x : σ × K} (hx : m.distanceSelf bot dist eqv big w cb fuel s = .ok x) : x.2 = minDist d big ps := by
  have hi := hh.inv hr
  unfold distanceSelf at hx
  split at hx
  · rename_i h0
    cases hx
    have : ps = [] := by
      rw [List.eq_nil_iff_forall_not_mem]
      intro p hp
      exact (size_zero hi).1 h0 _ ((hps p).1 hp).1
    rw [this]; rfl
  · rcases hq : each (m.distQ bot dist eqv big w true cb fuel) ((m.ends 0).map (·.obj)) ⟨s, big, []⟩ with e | t
    · rw [hq] at hx; cases hx
    · rw [hq] at hx
      cases hx
      refine each_spec (R := fun o => Registered o h) (fun p hp => ?_) (fun q hqm t r ht hr => ?_) s hP hq
      · obtain ⟨h1, h2, h3⟩ := (hps p).1 hp
        exact ⟨(mem_objs hi _).2 h2, h1, h3⟩
      · have hq' := (mem_objs hi q).1 hqm
        exact search_spec (cands_complete hi hw)
          (fun o ho => hg _ _ (registered_valid hi hw ho) (registered_valid hi hw hq'))
          hcb (fun _ => hsym) q (fun o ho hoq => (hps _).2 ⟨ho, hq', hoq⟩) (fun o ho => hd _ ho)
          (fun p hp hlt => above_expand (hbot p hp hlt q hq')) fuel _ ht hr

/-- C15 for the interval tree manager, self-distance: termination, when every registered object has another one at a
distance below `big` and within reach of the growing search box. -/
theorem C15_interval_self_terminates_partial {h : List (ICall K O)} (hh : IMgr.History bot h) {m : IMgr K O}
    (hr : run bot h = some m) (hw : Current h w) (hg : GapDist2 dist) (heq : ∀ b, eqv b b = true)
    (hsym : ∀ a b, d a b = d b a) (N : ℕ)
    (hother : ∀ q, Registered q h → ∃ o, Registered o h ∧ o ≠ q ∧ d o q < big ∧ ∃ n ≤ N, Reach bot n (w q) (w o))
    (hps : ∀ p, p ∈ ps ↔ Registered p.1 h ∧ Registered p.2 h ∧ p.1 ≠ p.2)
    (hbot : ∀ p ∈ ps, d p.1 p.2 < big → ∀ q, Registered q h → ∀ i : Fin 3, bot < (w q).lo.get i - d p.1 p.2)
    (hd : ∀ p ∈ ps, dist (w p.1) (w p.2) ≤ d p.1 p.2) (hcb : cb.Tracks P d ps) (s : σ) (hP : P s big) (fuel : ℕ)
    (hf : N + 2 ≤ fuel) : ∃ x, m.distanceSelf bot dist eqv big w cb fuel s = .ok x := by
  have hi := hh.inv hr
  unfold distanceSelf
  split
  · exact ⟨_, rfl⟩
  · obtain ⟨r, hr⟩ := each_terminates (f := m.distQ bot dist eqv big w true cb fuel) (all := (m.ends 0).map (·.obj))
      (P := P) (d := d) (big := big) (ps := ps) (fun q hqm t ht => by
        have hq' := (mem_objs hi q).1 hqm
        obtain ⟨o, ho, hoq, hfin, n, hn, hreach⟩ := hother q hq'
        have hl : ∀ o, Registered o h → o ≠ q → (o, q) ∈ ps := fun o ho hoq => (hps _).2 ⟨ho, hq', hoq⟩
        obtain ⟨r, hr⟩ := search_terminates (on := true) (cands_complete hi hw) hcb (fun _ => hsym) q hl (fun o ho => hd _ ho)
          (heq (w q)) o ho hoq hfin n (fun c hc hc2 => reach_grown hreach c hc hc2) fuel (by omega) t ht
        exact ⟨r, hr, (search_spec (cands_complete hi hw)
          (fun o ho => hg _ _ (registered_valid hi hw ho) (registered_valid hi hw hq')) hcb (fun _ => hsym) q hl
          (fun o ho => hd _ ho) (fun p hp hlt => above_expand (hbot p hp hlt q hq')) fuel t ht hr).good⟩)
      ⟨s, big, []⟩ (Good.init hP)
    rw [hr]
    exact ⟨_, rfl⟩

/-- C15 for two interval tree managers: the value when it returns. -/
theorem C15_interval_managers_partial {h h' : List (ICall K O)} (hh : IMgr.History bot h) (hh' : IMgr.History bot h')
    {m m' : IMgr K O} (hr : run bot h = some m) (hr' : run bot h' = some m') (hw : Current h w) (hw' : Current h' w)
    (hg : GapDist2 dist) (hsym : ∀ a b, d a b = d b a)
    (hps : ∀ p, p ∈ ps ↔ (Registered p.1 h ∧ Registered p.2 h' ∨ Registered p.1 h' ∧ Registered p.2 h) ∧ p.1 ≠ p.2)
    (hbot : ∀ p ∈ ps, d p.1 p.2 < big → ∀ q, Registered q h ∨ Registered q h' →
      ∀ i : Fin 3, bot < (w q).lo.get i - d p.1 p.2)
    (hd : ∀ p ∈ ps, dist (w p.1) (w p.2) ≤ d p.1 p.2) (hcb : cb.Tracks P d ps) (s : σ) (hP : P s big) (fuel : ℕ)
    {x : σ × K} (hx : distanceOther bot dist eqv big w m m' cb fuel s = .ok x) : x.2 = minDist d big ps := by
  have hi := hh.inv hr
  have hi' := hh'.inv hr'
  -- one loop, over the objects of `n'` against the manager `n`
  have key : ∀ (n n' : IMgr K O) (g g' : List (ICall K O)), IMgr.Inv bot g n → IMgr.Inv bot g' n' → Current g w →
      Current g' w →
      (∀ p ∈ ps, d p.1 p.2 < big → ∀ q, Registered q g' → ∀ i : Fin 3, bot < (w q).lo.get i - d p.1 p.2) →
      (∀ p ∈ ps, (Registered p.1 g ∧ Registered p.2 g' ∨ Registered p.1 g' ∧ Registered p.2 g) ∧ p.1 ≠ p.2) →
      (∀ p : O × O, Registered p.1 g → Registered p.2 g' → p.1 ≠ p.2 → p ∈ ps ∧ (p.2, p.1) ∈ ps) →
      ∀ t, each (n.distQ bot dist eqv big w false cb fuel) ((n'.ends 0).map (·.obj)) ⟨s, big, []⟩ = .ok t →
        t.md = minDist d big ps := by
    intro n n' g g' hn hn' hwn hwn' hb hps1 hps2 t ht
    classical
    set qs := ps.filter (fun p => decide (Registered p.1 g) && decide (Registered p.2 g')) with hqs
    have hmem : ∀ p, p ∈ qs ↔ Registered p.1 g ∧ Registered p.2 g' ∧ p.1 ≠ p.2 := by
      intro p
      rw [hqs, List.mem_filter, Bool.and_eq_true, decide_eq_true_eq, decide_eq_true_eq]
      constructor
      · rintro ⟨h1, h2, h3⟩; exact ⟨h2, h3, (hps1 p h1).2⟩
      · rintro ⟨h1, h2, h3⟩; exact ⟨(hps2 p h1 h2 h3).1, h1, h2⟩
    have hmin : minDist d big ps = minDist d big qs := by
      refine le_antisymm (le_minDist _ _ _ _ (minDist_le_big _ _ _) fun p hp => minDist_le _ _ _ _ (List.mem_filter.1 hp).1)
        (le_minDist _ _ _ _ (minDist_le_big _ _ _) fun p hp => ?_)
      obtain ⟨h1 | h1, h2⟩ := hps1 p hp
      · exact minDist_le _ _ _ _ ((hmem p).2 ⟨h1.1, h1.2, h2⟩)
      · rw [hsym]
        exact minDist_le d big qs (p.2, p.1) ((hmem (p.2, p.1)).2 ⟨h1.2, h1.1, Ne.symm h2⟩)
    rw [hmin]
    have hcb' : cb.Tracks P d qs := hcb.subset (fun p hp => (List.mem_filter.1 hp).1)
    refine each_spec (R := fun o => Registered o g) (fun p hp => ?_) (fun q hqm t r ht hr => ?_) s hP ht
    · obtain ⟨h1, h2, h3⟩ := (hmem p).1 hp
      exact ⟨(mem_objs hn' _).2 h2, h1, h3⟩
    · have hq' := (mem_objs hn' q).1 hqm
      exact search_spec (cands_complete hn hwn)
        (fun o ho => hg _ _ (registered_valid hn hwn ho) (registered_valid hn' hwn' hq')) hcb' (fun _ => hsym) q
        (fun o ho hoq => (hmem _).2 ⟨ho, hq', hoq⟩) (fun o ho => hd _ (List.mem_filter.1 ho).1)
        (fun p hp hlt => above_expand (hb p (List.mem_filter.1 hp).1 hlt q hq')) fuel _ ht hr
  unfold distanceOther at hx
  split at hx
  · rename_i h0
    cases hx
    have : ps = [] := by
      rw [List.eq_nil_iff_forall_not_mem]
      intro p hp
      rcases ((hps p).1 hp).1 with h1 | h1 <;> rcases h0 with h0 | h0
      · exact (size_zero hi).1 h0 _ h1.1
      · exact (size_zero hi').1 h0 _ h1.2
      · exact (size_zero hi).1 h0 _ h1.2
      · exact (size_zero hi').1 h0 _ h1.1
    rw [this]; rfl
  · split at hx
    · rcases hq : each (m'.distQ bot dist eqv big w false cb fuel) ((m.ends 0).map (·.obj)) ⟨s, big, []⟩ with e | t
      · rw [hq] at hx; cases hx
      · rw [hq] at hx
        cases hx
        exact key m' m h' h hi' hi hw' hw (fun p hp hlt q hq => hbot p hp hlt q (Or.inl hq))
          (fun p hp => ⟨((hps p).1 hp).1.symm, ((hps p).1 hp).2⟩)
          (fun p h1 h2 h3 => ⟨(hps p).2 ⟨Or.inr ⟨h1, h2⟩, h3⟩, (hps (p.2, p.1)).2 ⟨Or.inl ⟨h2, h1⟩, Ne.symm h3⟩⟩) t hq
    · rcases hq : each (m.distQ bot dist eqv big w false cb fuel) ((m'.ends 0).map (·.obj)) ⟨s, big, []⟩ with e | t
      · rw [hq] at hx; cases hx
      · rw [hq] at hx
        cases hx
        exact key m m' h h' hi hi' hw hw' (fun p hp hlt q hq => hbot p hp hlt q (Or.inr hq))
          (fun p hp => (hps p).1 hp)
          (fun p h1 h2 h3 => ⟨(hps p).2 ⟨Or.inl ⟨h1, h2⟩, h3⟩, (hps (p.2, p.1)).2 ⟨Or.inr ⟨h2, h1⟩, Ne.symm h3⟩⟩) t hq

/-- C15 fails for the interval tree manager: with a single registered object, self-distance and `distance` to that very
object never return, whatever the callback. -/
theorem C15_interval_diverges_single {h : List (ICall K O)} (hh : IMgr.History bot h) {m : IMgr K O} (hr : run bot h = some m)
    (hw : Current h w) (o : O) (ho : ∀ p, Registered p h ↔ p = o) (cb : DCB σ K O) (s : σ) (fuel : ℕ) :
    m.distanceObj bot dist eqv big w cb fuel o s = .error .fuel ∧
      m.distanceSelf bot dist eqv big w cb fuel s = .error .fuel := by
  have hi := hh.inv hr
  have hne : m.size ≠ 0 := fun hz => (size_zero hi).1 hz o ((ho o).2 rfl)
  have hdiv : ∀ on fuel, m.distQ bot dist eqv big w on cb fuel o ⟨s, big, []⟩ = .error .fuel := by
    intro on fuel
    unfold distQ search
    refine loop_diverges (fun b => ?_) fuel _ _ (le_refl _)
    obtain ⟨l, e, h1, -⟩ := cands_spec hi hw b
    exact ⟨l, e, fun p hp => (ho p).1 (h1 p hp)⟩
  constructor
  · unfold distanceObj
    rw [if_neg hne, hdiv]; rfl
  · unfold distanceSelf
    rw [if_neg hne]
    rcases hl : (m.ends 0).map (·.obj) with _ | ⟨a, l⟩
    · exact absurd ((mem_objs hi o).2 ((ho o).2 rfl)) (by rw [hl]; simp)
    · have : a = o := (ho a).1 ((mem_objs hi a).1 (by rw [hl]; exact List.mem_cons_self ..))
      subst this
      rw [hl, each, hdiv]; rfl

end

/-! ## A concrete case: two cubes three apart -/

namespace IntervalDistExample
open SaPDistExample (cube w gap same cb cube_lo cube_hi gap_gapDist cb_tracks)

def srt (l : List (IEnd ℚ ℕ)) : List (IEnd ℚ ℕ) := l.insertionSort (fun a b => a.val ≤ b.val)

theorem srt_lawful : LawfulSortI srt := by
  intro l
  have : Std.Total (fun a b : IEnd ℚ ℕ => a.val ≤ b.val) := ⟨fun a b => le_total _ _⟩
  have : IsTrans (IEnd ℚ ℕ) (fun a b : IEnd ℚ ℕ => a.val ≤ b.val) := ⟨fun a b c h h' => le_trans h h'⟩
  exact ⟨List.perm_insertionSort _ _, List.pairwise_insertionSort _ _⟩

def hist : List (ICall ℚ ℕ) := [⟨.registerMany [0, 1], w, srt⟩, ⟨.setup, w, srt⟩]

theorem reg (o : ℕ) : Registered o hist ↔ o = 0 ∨ o = 1 := by
  have : regBox o hist = if o ∈ [0, 1] then some (w o) else none := rfl
  unfold Registered
  rw [this]
  by_cases h : o ∈ [0, 1]
  · rw [if_pos h]; simpa using h
  · rw [if_neg h]; simpa using h

theorem fit (o : ℕ) (ho : o = 0 ∨ o = 1) : Fit (-1000) (w o) := by
  intro i
  rcases ho with rfl | rfl
  · show -1000 < (cube 0 2).lo.get i ∧ (cube 0 2).lo.get i ≤ (cube 0 2).hi.get i
    rw [cube_lo, cube_hi]; norm_num
  · show -1000 < (cube 5 6).lo.get i ∧ (cube 5 6).lo.get i ≤ (cube 5 6).hi.get i
    rw [cube_lo, cube_hi]; norm_num

theorem hist_ok : IMgr.History (-1000) hist := by
  refine .snoc (h := [⟨.registerMany [0, 1], w, srt⟩]) (.snoc (h := []) .nil
    ⟨srt_lawful, fun o ho => fit o ?_, by decide, fun o _ h => h rfl⟩) ⟨srt_lawful, fun o ho => fit o ((reg o).1 ho), trivial⟩
  have h1 : regBox o ([⟨.registerMany [0, 1], w, srt⟩] : List (ICall ℚ ℕ)) = if o ∈ [0, 1] then some (w o) else none := rfl
  have ho' : regBox o ([⟨.registerMany [0, 1], w, srt⟩] : List (ICall ℚ ℕ)) ≠ none := ho
  rw [h1] at ho'
  by_contra hno
  rw [if_neg (by simpa using hno)] at ho'
  exact ho' rfl

/-- The hypotheses of the self-distance theorems hold of it, and the search ends with the distance of the cubes. -/
example : IMgr.History (-1000) hist ∧ Current hist w ∧
    (∀ q, Registered q hist → ∃ o, Registered o hist ∧ o ≠ q ∧ gap (w o) (w q) < 100 ∧ ∃ n ≤ 8, Reach (-1000) n (w q) (w o)) ∧
    (∀ p, p ∈ [(0, 1), (1, 0)] ↔ Registered p.1 hist ∧ Registered p.2 hist ∧ p.1 ≠ p.2) ∧
    (∀ p ∈ [(0, 1), (1, 0)], ∀ q, Registered q hist → ∀ i : Fin 3, -1000 < (w q).lo.get i - gap (w p.1) (w p.2)) ∧
    ((run (-1000) hist).bind (fun m =>
      (m.distanceSelf (-1000) gap same 100 w cb 9 ()).toOption)).map (·.2) = some 3 := by
  refine ⟨hist_ok, ⟨w, rfl, fun _ _ => rfl⟩, fun q hq => ?_, ?_, fun p hp q hq i => ?_, by decide +kernel⟩
  · rcases (reg q).1 hq with rfl | rfl
    · refine ⟨1, (reg 1).2 (Or.inr rfl), by decide, by decide +kernel, 8, le_rfl, fun i => ?_⟩
      show _ ∧ _ ∧ _ ∧ _
      have e0 : w 0 = cube 0 2 := rfl
      have e1 : w 1 = cube 5 6 := rfl
      rw [e0, e1, cube_lo, cube_hi, cube_lo, cube_hi]; norm_num
    · refine ⟨0, (reg 0).2 (Or.inl rfl), by decide, by decide +kernel, 8, le_rfl, fun i => ?_⟩
      have e0 : w 0 = cube 0 2 := rfl
      have e1 : w 1 = cube 5 6 := rfl
      rw [e0, e1, cube_lo, cube_hi, cube_lo, cube_hi]; norm_num
  · rintro ⟨a, b⟩
    rw [reg, reg]
    simp only [List.mem_cons, Prod.mk.injEq, List.not_mem_nil, or_false]
    omega
  · have e : gap (w p.1) (w p.2) = 3 := by
      simp only [List.mem_cons, List.not_mem_nil, or_false] at hp
      rcases hp with rfl | rfl <;> decide +kernel
    rw [e]
    have e0 : w 0 = cube 0 2 := rfl
    have e1 : w 1 = cube 5 6 := rfl
    rcases (reg q).1 hq with rfl | rfl
    · rw [e0, cube_lo]; norm_num
    · rw [e1, cube_lo]; norm_num

end IntervalDistExample
end Fcl
