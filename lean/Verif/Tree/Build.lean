import Verif.Tree.Lemmas

/-! Helper lemmas about building trees: `bottomup`, `topdown`, `mortonRecurse`, `init`. -/

namespace Fcl
namespace HTree
variable {K O : Type*} [LinearOrder K]
set_option linter.unusedSectionVars false

/-- Enclosing and with least boxes. -/
def Good (t : HTree K O) : Prop := t.Enc ∧ t.Tight

theorem good_merge {l r : HTree K O} (hl : l.Good) (hr : r.Good) :
    (node (l.bv.merge r.bv) l r).Good :=
  ⟨⟨AABB.merge_contain_left _ _, AABB.merge_contain_right _ _, hl.1, hr.1⟩, merge_tight hl.2 hr.2⟩

theorem joinAt_spec (ts : List (HTree K O)) (i j : Nat) (hij : i < j) (hj : j < ts.length)
    (hE : ∀ t ∈ ts, t.Good) :
    ∃ ts', joinAt ts i j = some ts' ∧ ts'.length + 1 = ts.length ∧
      (allLeaves ts').Perm (allLeaves ts) ∧ ∀ t ∈ ts', t.Good := by
  have hi : i < ts.length := by omega
  have hne : ts ≠ [] := by rintro rfl; simp at hj
  obtain ⟨z, hz⟩ : ∃ z, ts.getLast? = some z := ⟨ts.getLast hne, List.getLast?_eq_some_getLast hne⟩
  obtain ⟨rest, h1, h2⟩ := perm_two ts i j hij hj
    (node (ts[i].bv.merge ts[j].bv) ts[i] ts[j]) z hz
  refine ⟨((ts.set i (node (ts[i].bv.merge ts[j].bv) ts[i] ts[j])).set j z).dropLast, ?_, ?_, ?_, ?_⟩
  · unfold joinAt
    rw [List.getElem?_eq_getElem hi, List.getElem?_eq_getElem hj, hz]
  · simp; omega
  · refine (allLeaves_perm h2).trans (List.Perm.trans ?_ (allLeaves_perm h1).symm)
    simp [allLeaves, leaves]
  · intro t ht
    rw [h2.mem_iff] at ht
    have hr : ∀ u ∈ ts[i] :: ts[j] :: rest, u.Good := fun u hu => hE u (h1.mem_iff.2 hu)
    rcases List.mem_cons.1 ht with rfl | ht
    · exact good_merge (hr _ (by simp)) (hr _ (by simp))
    · exact hr t (by simp [ht])

/-- What every builder guarantees. -/
def Builds (ts : List (HTree K O)) (t : HTree K O) : Prop :=
  t.leaves.Perm (allLeaves ts) ∧ t.Good

theorem bottomup_spec (cfg : Cfg K O) (hs : ∀ b, cfg.sizeOk b = true) (fuel : Nat)
    (ts : List (HTree K O)) (hne : ts ≠ []) (hf : ts.length ≤ fuel + 1) (hE : ∀ t ∈ ts, t.Good) :
    ∃ t, bottomup cfg fuel ts = some t ∧ Builds ts t := by
  induction fuel generalizing ts with
  | zero =>
    match ts, hne, hf with
    | [t], _, _ => exact ⟨t, rfl, by simp [Builds, allLeaves, hE t (by simp)]⟩
  | succ fuel ih =>
    match ts, hne, hf with
    | [t], _, _ => exact ⟨t, rfl, by simp [Builds, allLeaves, hE t (by simp)]⟩
    | t :: u :: ts, _, hf =>
      unfold bottomup
      cases hsc : scanPairs cfg 0 (t :: u :: ts) none with
      | none => exact absurd hsc (scanPairs_two cfg hs t u ts)
      | some r =>
        obtain ⟨i, j, m⟩ := r
        obtain ⟨hij, hj⟩ := scanPairs_bound cfg (t :: u :: ts).length (t :: u :: ts) 0 none (by simp)
          (by simp) i j m hsc
        obtain ⟨ts', e1, e2, e3, e4⟩ := joinAt_spec (t :: u :: ts) i j hij hj hE
        simp only [e1]
        obtain ⟨v, k1, k2, k3⟩ := ih ts' (by rintro rfl; simp at e2) (by simp at hf e2; omega) e4
        exact ⟨v, k1, k2.trans e3, k3⟩

theorem foldl_merge_least (us : List (HTree K O)) (v c : AABB K) (hv : c.contain v = true)
    (h : ∀ u ∈ us, c.contain u.bv = true) :
    c.contain (us.foldl (fun v u => v.merge u.bv) v) = true := by
  induction us generalizing v with
  | nil => exact hv
  | cons u us ih =>
    exact ih _ (AABB.merge_least hv (h u (by simp))) (fun x hx => h x (by simp [hx]))

theorem volOf_least (t : HTree K O) (ts : List (HTree K O)) (c : AABB K)
    (h : ∀ u ∈ t :: ts, c.contain u.bv = true) : c.contain (volOf t ts) = true :=
  foldl_merge_least ts _ c (h t (by simp)) (fun u hu => h u (by simp [hu]))

theorem volOf_contains (t : HTree K O) (ts : List (HTree K O)) :
    ∀ u ∈ t :: ts, (volOf t ts).contain u.bv = true := by
  have key : ∀ (us : List (HTree K O)) (v : AABB K),
      (us.foldl (fun v u => v.merge u.bv) v).contain v = true ∧
      ∀ u ∈ us, (us.foldl (fun v u => v.merge u.bv) v).contain u.bv = true := by
    intro us
    induction us with
    | nil => intro v; simp [AABB.contain_refl]
    | cons u us ih =>
      intro v
      obtain ⟨h1, h2⟩ := ih (v.merge u.bv)
      refine ⟨AABB.contain_trans h1 (AABB.merge_contain_left _ _), ?_⟩
      intro x hx
      rcases List.mem_cons.1 hx with rfl | hx
      · exact AABB.contain_trans h1 (AABB.merge_contain_right _ _)
      · exact h2 x hx
  intro u hu
  rcases List.mem_cons.1 hu with rfl | hu
  · exact (key ts _).1
  · exact (key ts _).2 u hu

/-- A node whose box is the total box of a list of good trees, over two trees built from a
rearrangement of that list. -/
theorem good_vol {t : HTree K O} {ts as bs : List (HTree K O)} {l r : HTree K O}
    (hg : ∀ u ∈ t :: ts, u.Good) (hp : (as ++ bs).Perm (t :: ts))
    (hl : Builds as l) (hr : Builds bs r) : Builds (t :: ts) (node (volOf t ts) l r) := by
  have hlv : (l.leaves ++ r.leaves).Perm (allLeaves (t :: ts)) := by
    refine (List.Perm.append hl.1 hr.1).trans ?_
    have := allLeaves_perm hp
    simpa [allLeaves] using this
  have hc : ∀ x ∈ l.leaves ++ r.leaves, (volOf t ts).contain x.2.1 = true := by
    intro x hx
    rw [hlv.mem_iff] at hx
    obtain ⟨u, hu, hxu⟩ := List.mem_flatMap.1 hx
    exact AABB.contain_trans (volOf_contains t ts u hu) ((hg u hu).1.contain_leaf x hxu)
  refine ⟨hlv, ⟨?_, ?_, hl.2.1, hr.2.1⟩, ?_, hl.2.2, hr.2.2⟩
  · exact hl.2.2.least _ fun x hx => hc x (by simp [hx])
  · exact hr.2.2.least _ fun x hx => hc x (by simp [hx])
  · intro c hcc
    apply volOf_least
    intro u hu
    refine (hg u hu).2.least c fun x hx => hcc x ?_
    rw [hlv.mem_iff]
    exact List.mem_flatMap.2 ⟨u, hu, hx⟩

theorem topdown0_spec (cfg : Cfg K O) (hn : ∀ a k ts, (cfg.nth a k ts).Perm ts)
    (hs : ∀ b, cfg.sizeOk b = true) (fuel : Nat) (ts : List (HTree K O)) (hne : ts ≠ [])
    (hf : ts.length ≤ fuel + 1) (hE : ∀ t ∈ ts, t.Good) :
    ∃ t, topdown0 cfg fuel ts = some t ∧ Builds ts t := by
  induction fuel generalizing ts with
  | zero =>
    match ts, hne, hf with
    | [t], _, _ => exact ⟨t, rfl, by simp [Builds, allLeaves, hE t (by simp)]⟩
  | succ fuel ih =>
    match ts, hne, hf with
    | [t], _, _ => exact ⟨t, rfl, by simp [Builds, allLeaves, hE t (by simp)]⟩
    | t :: u :: ts, _, hf =>
      unfold topdown0
      dsimp only
      split
      · set k := (t :: u :: ts).length / 2 with hk
        set all' := cfg.nth (cfg.bestAxis (volOf t (u :: ts))) k (t :: u :: ts) with hall
        have hp : all'.Perm (t :: u :: ts) := hn _ _ _
        have hlen : all'.length = ts.length + 2 := by simpa using hp.length_eq
        have hl2 : (t :: u :: ts).length = ts.length + 2 := rfl
        have hk' : k = (ts.length + 2) / 2 := by rw [hk, hl2]
        have hg : ∀ v ∈ all', v.Good := fun v hv => hE v (hp.mem_iff.1 hv)
        obtain ⟨l, l1, l2⟩ := ih (all'.take k)
          (by intro h; have := congrArg List.length h; rw [List.length_take, List.length_nil] at this; omega)
          (by rw [List.length_take]; omega) (fun v hv => hg v (List.mem_of_mem_take hv))
        obtain ⟨r, r1, r2⟩ := ih (all'.drop k)
          (by intro h; have := congrArg List.length h; rw [List.length_drop, List.length_nil] at this; omega)
          (by rw [List.length_drop]; omega) (fun v hv => hg v (List.mem_of_mem_drop hv))
        rw [l1, r1]
        exact ⟨_, rfl, good_vol hE (by rw [List.take_append_drop]; exact hp) l2 r2⟩
      · exact bottomup_spec cfg hs _ _ (by simp) (by simp) hE

/-! ### `topdown_1` -/

theorem partSwap_spec (p : HTree K O → Bool) (pre mid ts : List (HTree K O)) :
    ((partSwap p pre mid ts).1 ++ (partSwap p pre mid ts).2).Perm (pre ++ mid ++ ts) ∧
    (partSwap p pre mid ts).1 = pre ++ ts.filter p ∧
    (partSwap p pre mid ts).2.Perm (mid ++ ts.filter (fun t => !p t)) := by
  induction ts generalizing pre mid with
  | nil => simp [partSwap]
  | cons t ts ih =>
    unfold partSwap
    by_cases h : p t
    · rw [if_pos h]
      cases mid with
      | nil =>
        obtain ⟨h1, h2, h3⟩ := ih (pre ++ [t]) []
        refine ⟨by simpa using h1, by simp [h2, h], by simpa [h] using h3⟩
      | cons m ms =>
        obtain ⟨h1, h2, h3⟩ := ih (pre ++ [t]) (ms ++ [m])
        dsimp only
        refine ⟨h1.trans ?_, by simp [h2, h], h3.trans ?_⟩
        · simp only [List.append_assoc]
          refine List.Perm.append_left _ ?_
          exact (List.Perm.cons t (List.perm_middle (a := m) (l₁ := ms) (l₂ := ts))).trans
            ((List.Perm.swap _ _ _).trans (List.Perm.cons m List.perm_middle.symm))
        · rw [List.filter_cons_of_neg (by simp [h])]
          exact List.Perm.append_right _ (List.perm_append_singleton _ _)
    · rw [if_neg h]
      obtain ⟨h1, h2, h3⟩ := ih pre (mid ++ [t])
      refine ⟨by simpa using h1, by simp [h2, h], ?_⟩
      rw [List.filter_cons_of_pos (by simp [h])]
      simpa using h3

/-- Both sides of the split are inhabited. -/
def Splits (cfg : Cfg K O) (ts : List (HTree K O)) : Prop :=
  (∃ t ∈ ts, cfg.below (ts.map bv) t.bv = true) ∧ (∃ t ∈ ts, cfg.below (ts.map bv) t.bv = false)

theorem topdown1_spec (cfg : Cfg K O) (hs : ∀ b, cfg.sizeOk b = true)
    (fuel : Nat) (ts : List (HTree K O)) (hne : ts ≠ [])
    (hf : ts.length ≤ fuel + 1) (hE : ∀ t ∈ ts, t.Good)
    (hsp : ∀ us : List (HTree K O), us.Subperm ts → 2 ≤ us.length → Splits cfg us) :
    ∃ t, topdown1 cfg fuel ts = some t ∧ Builds ts t := by
  induction fuel generalizing ts with
  | zero =>
    match ts, hne, hf with
    | [t], _, _ => exact ⟨t, rfl, by simp [Builds, allLeaves, hE t (by simp)]⟩
  | succ fuel ih =>
    match ts, hne, hf with
    | [t], _, _ => exact ⟨t, rfl, by simp [Builds, allLeaves, hE t (by simp)]⟩
    | t :: u :: ts, _, hf =>
      unfold topdown1
      dsimp only
      split
      · obtain ⟨⟨x, hx, hx'⟩, ⟨y, hy, hy'⟩⟩ := hsp (t :: u :: ts) (List.Subperm.refl _) (by simp)
        obtain ⟨h1, h2, h3⟩ := partSwap_spec
          (fun v => cfg.below ((t :: u :: ts).map bv) v.bv) [] [] (t :: u :: ts)
        set parts := partSwap (fun v => cfg.below ((t :: u :: ts).map bv) v.bv) [] [] (t :: u :: ts)
        simp only [List.nil_append] at h1 h2 h3
        have n1 : parts.1 ≠ [] := by
          rw [h2]; exact List.ne_nil_of_mem (List.mem_filter.2 ⟨hx, hx'⟩)
        have n2 : parts.2 ≠ [] := by
          have : y ∈ parts.2 := h3.mem_iff.2 (List.mem_filter.2 ⟨hy, by simp only [hy']; rfl⟩)
          exact List.ne_nil_of_mem this
        have hlen := h1.length_eq
        rw [List.length_append] at hlen
        have p1 := List.length_pos_of_ne_nil n1
        have p2 := List.length_pos_of_ne_nil n2
        have hg : ∀ v ∈ parts.1 ++ parts.2, v.Good := fun v hv => hE v (h1.mem_iff.1 hv)
        have s1 : parts.1.Subperm (t :: u :: ts) :=
          (List.sublist_append_left _ _).subperm.trans h1.subperm
        have s2 : parts.2.Subperm (t :: u :: ts) :=
          (List.sublist_append_right _ _).subperm.trans h1.subperm
        obtain ⟨l, l1, l2⟩ := ih parts.1 n1 (by omega) (fun v hv => hg v (by simp [hv]))
          (fun us hus => hsp us (hus.trans s1))
        obtain ⟨r, r1, r2⟩ := ih parts.2 n2 (by omega) (fun v hv => hg v (by simp [hv]))
          (fun us hus => hsp us (hus.trans s2))
        rw [l1, r1]
        exact ⟨_, rfl, good_vol hE h1 l2 r2⟩
      · exact bottomup_spec cfg hs _ _ (by simp) (by simp) hE

theorem topdown_spec (cfg : Cfg K O) (hc : cfg.Lawful) (ts : List (HTree K O)) (hne : ts ≠ [])
    (hE : ∀ t ∈ ts, t.Good) : ∃ t, topdown cfg ts = some t ∧ Builds ts t := by
  unfold topdown
  rw [if_neg hc.level]
  exact topdown0_spec cfg hc.nth_perm hc.size_ok _ _ hne (by omega) hE

/-! ### Morton builders -/

theorem morton2_spec (cfg : Cfg K O) (fuel : Nat) (ts : List (HTree K O)) (hne : ts ≠ [])
    (hf : ts.length ≤ fuel + 1) :
    ∃ t, morton2 cfg fuel ts = some t ∧ t.leaves.Perm (allLeaves ts) := by
  induction fuel generalizing ts with
  | zero =>
    match ts, hne, hf with
    | [t], _, _ => exact ⟨t, rfl, by simp [allLeaves]⟩
  | succ fuel ih =>
    match ts, hne, hf with
    | [t], _, _ => exact ⟨t, rfl, by simp [allLeaves]⟩
    | t :: u :: ts, _, hf =>
      unfold morton2
      dsimp only
      set all := t :: u :: ts with hall
      have hlen : all.length = ts.length + 2 := by simp [hall]
      obtain ⟨l, l1, l2⟩ := ih (all.take (all.length / 2))
        (by intro h; have := congrArg List.length h; simp at this; omega) (by simp; omega)
      obtain ⟨r, r1, r2⟩ := ih (all.drop (all.length / 2))
        (by intro h; have := congrArg List.length h; simp at this; omega) (by simp; omega)
      rw [l1, r1]
      refine ⟨_, rfl, ?_⟩
      simp only [leaves]
      refine (List.Perm.append l2 r2).trans ?_
      simp only [allLeaves, ← List.flatMap_append, List.take_append_drop]
      exact List.Perm.refl _

theorem morton0_spec (cfg : Cfg K O) (hc : cfg.Lawful) (code : HTree K O → Nat) (bits split : Nat)
    (ts : List (HTree K O)) (hne : ts ≠ []) (hE : ∀ t ∈ ts, t.Good) :
    ∃ t, morton0 cfg code bits split ts = some t ∧ t.leaves.Perm (allLeaves ts) := by
  induction bits generalizing split ts with
  | zero =>
    match ts, hne with
    | [t], _ => exact ⟨t, rfl, by simp [allLeaves]⟩
    | t :: u :: ts, _ =>
      obtain ⟨v, h1, h2⟩ := topdown_spec cfg hc (t :: u :: ts) (by simp) hE
      exact ⟨v, by unfold morton0; exact h1, h2.1⟩
  | succ bits ih =>
    match ts, hne with
    | [t], _ => exact ⟨t, rfl, by simp [allLeaves]⟩
    | t :: u :: ts, _ =>
      unfold morton0
      dsimp only
      set all := t :: u :: ts with hall
      split
      · exact ih _ all (by simp [hall]) hE
      · split
        · exact ih _ all (by simp [hall]) hE
        · rename_i h1 h2
          have hle : lowerBound code split all ≤ all.length := by
            unfold lowerBound
            exact (List.takeWhile_sublist _).length_le
          obtain ⟨l, l1, l2⟩ := ih (splitLo split (bits + 1)) (all.take (lowerBound code split all))
            (by intro h; have := congrArg List.length h; simp at this; omega)
            (fun v hv => hE v (List.mem_of_mem_take hv))
          obtain ⟨r, r1, r2⟩ := ih (splitHi split (bits + 1)) (all.drop (lowerBound code split all))
            (by intro h; have := congrArg List.length h; simp at this; omega)
            (fun v hv => hE v (List.mem_of_mem_drop hv))
          rw [l1, r1]
          refine ⟨_, rfl, ?_⟩
          simp only [leaves]
          refine (List.Perm.append l2 r2).trans ?_
          simp only [allLeaves, ← List.flatMap_append, List.take_append_drop]
          exact List.Perm.refl _

theorem morton1_spec (cfg : Cfg K O) (code : HTree K O → Nat) (bits split : Nat)
    (ts : List (HTree K O)) (hne : ts ≠ []) :
    ∃ t, morton1 cfg code bits split ts = some t ∧ t.leaves.Perm (allLeaves ts) := by
  induction bits generalizing split ts with
  | zero =>
    match ts, hne with
    | [t], _ => exact ⟨t, rfl, by simp [allLeaves]⟩
    | t :: u :: ts, _ =>
      obtain ⟨v, h1, h2⟩ := morton2_spec cfg (t :: u :: ts).length (t :: u :: ts) (by simp) (by simp)
      exact ⟨v, by unfold morton1; exact h1, h2⟩
  | succ bits ih =>
    match ts, hne with
    | [t], _ => exact ⟨t, rfl, by simp [allLeaves]⟩
    | t :: u :: ts, _ =>
      unfold morton1
      dsimp only
      set all := t :: u :: ts with hall
      split
      · exact ih _ all (by simp [hall])
      · split
        · exact ih _ all (by simp [hall])
        · rename_i h1 h2
          have hle : lowerBound code split all ≤ all.length := by
            unfold lowerBound
            exact (List.takeWhile_sublist _).length_le
          obtain ⟨l, l1, l2⟩ := ih (splitLo split (bits + 1)) (all.take (lowerBound code split all))
            (by intro h; have := congrArg List.length h; simp at this; omega)
          obtain ⟨r, r1, r2⟩ := ih (splitHi split (bits + 1)) (all.drop (lowerBound code split all))
            (by intro h; have := congrArg List.length h; simp at this; omega)
          rw [l1, r1]
          refine ⟨_, rfl, ?_⟩
          simp only [leaves]
          refine (List.Perm.append l2 r2).trans ?_
          simp only [allLeaves, ← List.flatMap_append, List.take_append_drop]
          exact List.Perm.refl _

theorem good_ofLeaf (x : Nat × AABB K × O) : (ofLeaf x).Good := ⟨trivial, trivial⟩

theorem init_spec (cfg : Cfg K O) (hc : cfg.Lawful) (ts : List (HTree K O)) (hne : ts ≠ [])
    (hE : ∀ t ∈ ts, t.Good) :
    ∃ t, HTree.init cfg ts = some t ∧ t.leaves.Perm (allLeaves ts) ∧ t.Good := by
  match ts, hne with
  | t :: ts, _ =>
    unfold HTree.init
    dsimp only
    set code : HTree K O → Nat := fun u => cfg.code (volOf t ts) u.bv
    have hp := hc.sort_perm code (t :: ts)
    set so := cfg.sortM code (t :: ts)
    have hso : so ≠ [] := by
      intro h; rw [h] at hp; exact absurd hp.symm.eq_nil (by simp)
    have hg : ∀ v ∈ so, v.Good := fun v hv => hE v (hp.mem_iff.1 hv)
    have fin : ∀ o : Option (HTree K O), (∃ v, o = some v ∧ v.leaves.Perm (allLeaves so)) →
        ∃ v, o.map refit = some v ∧ v.leaves.Perm (allLeaves (t :: ts)) ∧ v.Good := by
      rintro o ⟨v, rfl, hv⟩
      exact ⟨v.refit, rfl, by rw [refit_leaves]; exact hv.trans (allLeaves_perm hp),
        refit_enc v, refit_tight v⟩
    split
    · exact fin _ (morton0_spec cfg hc code 29 _ so hso hg)
    · split
      · exact fin _ (morton1_spec cfg code 29 _ so hso)
      · split
        · exact fin _ (morton2_spec cfg _ so hso (by omega))
        · exact topdown_spec cfg hc (t :: ts) (by simp) hE

end HTree
end Fcl
