import Verif.Tree.QueryLemmas
import Verif.Tree.Split
import Mathlib.Tactic.NormNum

/-!
# What the queries do on any manager that represents a registry

The statements of C07 to C10 for every state `m` with `Inv m r`, however it was reached.
-/

namespace Fcl
open HTree Mgr
variable {K O : Type*} [LinearOrder K] [DecidableEq O]

/-- `C07_collide_object` for any state that represents the registry. -/
theorem Mgr.Inv.collideObj_spec.{v} {m : Mgr K O} {r : Reg K O} (h2 : Inv m r)
    (cfg : Cfg K O) (w : O → AABB K) (q : O) :
    ∃ ps : List (O × O),
      ps.Perm ((r.filter (fun e => e.2.overlap (w q))).map (fun e => (e.1, q))) ∧
      ∀ (σ : Type v) (cb : CB σ O) (s : σ), m.collideObj cfg w cb q s = some (runUntil cb s ps).1 := by
  unfold collideObj
  cases hr : m.root with
  | none =>
    have hp := h2.perm
    have hn := h2.n
    rw [hr] at hp hn
    have : r = [] := hp.symm.eq_nil
    subst this
    exact ⟨[], by simp, fun σ cb s => by simp [size, hn, oleaves]⟩
  | some t =>
    have hp := h2.perm
    have hn := h2.n
    have he := h2.enc
    rw [hr] at hp hn he
    obtain ⟨ps, p1, p2⟩ := collideQ_spec.{_, _, v} cfg q (w q) t he
    refine ⟨ps, p1.trans ?_, ?_⟩
    · have := ((hp.filter (fun e => e.2.overlap (w q))).map (fun e => (e.1, q)))
      rw [List.filter_map, List.map_map] at this
      exact this
    · intro σ cb s
      have : m.size ≠ 0 := by
        show m.n ≠ 0
        rw [hn]; simp [oleaves, leaves_ne_nil]
      rw [if_neg this, Option.map_some, p2]

/-- `C08_collide_self` for any state that represents the registry. -/
theorem Mgr.Inv.collideAll_spec.{v} {m : Mgr K O} {r : Reg K O} (h2 : Inv m r)
    (cfg : Cfg K O) :
    ∃ (l : Reg K O) (ps : List (O × O)),
      l.Perm r ∧ (l.map (·.1)).Nodup ∧
      ps.Perm (((pairsUp l).filter (fun p => p.1.2.overlap p.2.2)).map (fun p => (p.1.1, p.2.1))) ∧
      ∀ (σ : Type v) (cb : CB σ O) (s : σ), m.collideAll cfg cb s = some (runUntil cb s ps).1 := by
  unfold collideAll
  cases hr : m.root with
  | none =>
    have hp := h2.perm
    have hn := h2.n
    rw [hr] at hp hn
    have : r = [] := hp.symm.eq_nil
    subst this
    exact ⟨[], [], by simp, by simp, by simp [pairsUp], fun σ cb s => by simp [size, hn, oleaves]⟩
  | some t =>
    have hp := h2.perm
    have hn := h2.n
    have he := h2.enc
    rw [hr] at hp hn he
    obtain ⟨ps, p1, p2⟩ := collideSelf_spec.{_, _, v} cfg t he
    refine ⟨t.leaves.map entry, ps, hp, (hp.map _).nodup_iff.2 h2.nodup, p1.trans ?_, ?_⟩
    · rw [pairsUp_map, List.filter_map, List.map_map]
      exact List.Perm.refl _
    · intro σ cb s
      have : m.size ≠ 0 := by
        show m.n ≠ 0
        rw [hn]; simp [oleaves, leaves_ne_nil]
      rw [if_neg this, Option.map_some, p2]

/-- `C09_collide_managers` for any state that represents the registry. -/
theorem Mgr.Inv.collideOther_spec.{v} {m m' : Mgr K O} {r r' : Reg K O} (h2 : Inv m r)
    (h2' : Inv m' r') (cfg : Cfg K O) :
    ∃ ps : List (O × O),
      ps.Perm (((r.product r').filter (fun p => p.1.2.overlap p.2.2)).map (fun p => (p.1.1, p.2.1))) ∧
      ∀ (σ : Type v) (cb : CB σ O) (s : σ), m.collideOther cfg cb m' s = some (runUntil cb s ps).1 := by
  unfold collideOther
  have hp := h2.perm
  have hn := h2.n
  have he := h2.enc
  have hp' := h2'.perm
  have hn' := h2'.n
  have he' := h2'.enc
  cases hr : m.root with
  | none =>
    rw [hr] at hp hn
    have : r = [] := hp.symm.eq_nil
    subst this
    exact ⟨[], by simp [List.product], fun σ cb s => by simp [size, hn, oleaves]⟩
  | some t =>
    cases hr' : m'.root with
    | none =>
      rw [hr'] at hp' hn'
      have : r' = [] := hp'.symm.eq_nil
      subst this
      exact ⟨[], by simp [List.product], fun σ cb s => by simp [size, hn', oleaves]⟩
    | some t' =>
      rw [hr] at hp hn he
      rw [hr'] at hp' hn' he'
      obtain ⟨ps, p1, p2⟩ := collideT_spec.{_, _, v} cfg t t' he he'
      refine ⟨ps, p1.trans ?_, ?_⟩
      · have := ((product_perm hp hp').filter (fun p => p.1.2.overlap p.2.2)).map (fun p => (p.1.1, p.2.1))
        simp only [oleaves, product_map, List.filter_map, List.map_map] at this
        exact this
      · intro σ cb s
        have a : m.size ≠ 0 := by
          show m.n ≠ 0
          rw [hn]; simp [oleaves, leaves_ne_nil]
        have b : m'.size ≠ 0 := by
          show m'.n ≠ 0
          rw [hn']; simp [oleaves, leaves_ne_nil]
        rw [if_neg (by simp [a, b]), ← p2]

section distance
variable [AABB.ArithOps K] [AABB.LawfulArith K]

/-- `AABB::distance` in any arithmetic satisfying the monotonicity laws is a usable pruning bound. -/
theorem boxDist_distance : BoxDist (AABB.distance (K := K)) :=
  ⟨fun va vb h h' => AABB.distance_anti h h' va vb, fun va vb => AABB.distance_comm va vb⟩

/-- `C10_distance_object` for any state that represents the registry. -/
theorem Mgr.Inv.distanceObj_spec {σ : Type*} {m : Mgr K O} {r : Reg K O} (h2 : Inv m r)
    (hv : ∀ e ∈ r, e.2.Valid) (w : O → AABB K) (q : O) (hq : (w q).Valid) (big : K) (d : O → O → K)
    (hd : ∀ e ∈ r, (w q).distance e.2 ≤ d e.1 q) (cb : DCB σ K O)
    (P : σ → K → Prop) (hcb : cb.Tracks P d (r.map (fun e => (e.1, q)))) (s : σ) (hP : P s big) :
    ∃ res, m.distanceObj big AABB.distance w cb q s = some res ∧ P res.1 res.2.1 ∧
        res.2.1 = minDist d big (r.map (fun e => (e.1, q))) := by
  unfold distanceObj
  have hp := h2.perm
  have hn := h2.n
  have he := h2.enc
  cases hr : m.root with
  | none =>
    rw [hr] at hp hn
    have : r = [] := hp.symm.eq_nil
    subst this
    exact ⟨(s, big, false), by simp [size, hn, oleaves], hP, rfl⟩
  | some t =>
    rw [hr] at hp hn he
    have hsz : m.size ≠ 0 := by
      show m.n ≠ 0
      rw [hn]; simp [oleaves, leaves_ne_nil]
    refine ⟨distQ AABB.distance cb q (w q) t s big, by rw [if_neg hsz, Option.map_some], ?_⟩
    have hmem : ∀ x ∈ t.leaves, entry x ∈ r := fun x hx => hp.mem_iff.1 (List.mem_map.2 ⟨x, hx, rfl⟩)
    have hpm : (t.leaves.map (fun x => (x.2.2, q))).Perm (r.map (fun e => (e.1, q))) := by
      have := hp.map (fun e : O × AABB K => (e.1, q))
      rw [List.map_map] at this
      exact this
    have hcov := distQ_covers boxDist_distance hcb.nonInc q (w q) hq t he
      (fun x hx => hv _ (hmem x hx))
    refine ⟨hcov.inv hcb.nonInc hP, ?_⟩
    rw [hcov.minimum (d := d) ?_ ?_ hP]
    · exact minDist_perm _ _ hpm
    · exact hcb.subset fun p hp' => hpm.mem_iff.1 hp'
    · intro x hx
      exact hd _ (hmem x hx)

/-- `C10_distance_self` for any state that represents the registry. -/
theorem Mgr.Inv.distanceAll_spec {σ : Type*} {m : Mgr K O} {r : Reg K O} (h2 : Inv m r)
    (hv : ∀ e ∈ r, e.2.Valid) (cfg : Cfg K O) (big : K) (d : O → O → K)
    (hd : ∀ e ∈ r, ∀ f ∈ r, e.2.distance f.2 ≤ d e.1 f.1) (cb : DCB σ K O)
    (P : σ → K → Prop) (hcb : cb.Tracks P d ((r.product r).map (fun p => (p.1.1, p.2.1))))
    (s : σ) (hP : P s big) :
    ∃ l : Reg K O, l.Perm r ∧
      ∃ res, m.distanceAll cfg big AABB.distance cb s = some res ∧ P res.1 res.2.1 ∧
        res.2.1 = minDist d big ((pairsUp l).map (fun p => (p.1.1, p.2.1))) := by
  unfold distanceAll
  have hp := h2.perm
  have hn := h2.n
  have he := h2.enc
  cases hr : m.root with
  | none =>
    rw [hr] at hp hn
    have : r = [] := hp.symm.eq_nil
    subst this
    exact ⟨[], List.Perm.refl _, (s, big, false), by simp [size, hn, oleaves], hP, rfl⟩
  | some t =>
    rw [hr] at hp hn he
    have hsz : m.size ≠ 0 := by
      show m.n ≠ 0
      rw [hn]; simp [oleaves, leaves_ne_nil]
    refine ⟨t.leaves.map entry, hp, distSelf cfg AABB.distance cb t s big,
      by rw [if_neg hsz, Option.map_some], ?_⟩
    have hmem : ∀ x ∈ t.leaves, entry x ∈ r := fun x hx => hp.mem_iff.1 (List.mem_map.2 ⟨x, hx, rfl⟩)
    have pm : ∀ p ∈ pairsUp t.leaves, p.1 ∈ t.leaves ∧ p.2 ∈ t.leaves := by
      have : ∀ l : List (Nat × AABB K × O), ∀ p ∈ pairsUp l, p.1 ∈ l ∧ p.2 ∈ l := by
        intro l
        induction l with
        | nil => simp [pairsUp]
        | cons a l ih =>
          intro p hp
          rcases List.mem_append.1 hp with hp | hp
          · obtain ⟨c, hc, rfl⟩ := List.mem_map.1 hp
            exact ⟨by simp, by simp [hc]⟩
          · exact ⟨by simp [(ih p hp).1], by simp [(ih p hp).2]⟩
      exact this _
    have hcov := distSelf_covers cfg boxDist_distance hcb.nonInc t he (fun x hx => hv _ (hmem x hx))
    refine ⟨hcov.inv hcb.nonInc hP, ?_⟩
    rw [hcov.minimum (d := d) ?_ ?_ hP]
    · rw [pairsUp_map, List.map_map]; rfl
    · refine hcb.subset fun p hp' => ?_
      obtain ⟨x, hx, rfl⟩ := List.mem_map.1 hp'
      exact List.mem_map.2 ⟨(entry x.1, entry x.2), List.mem_product.2
        ⟨hmem _ (pm x hx).1, hmem _ (pm x hx).2⟩, rfl⟩
    · intro x hx
      exact hd _ (hmem _ (pm x hx).1) _ (hmem _ (pm x hx).2)

/-- `C10_distance_managers` for any state that represents the registry. -/
theorem Mgr.Inv.distanceOther_spec {σ : Type*} {m m' : Mgr K O} {r r' : Reg K O}
    (h2 : Inv m r) (h2' : Inv m' r')
    (hv : ∀ e ∈ r, e.2.Valid) (hv' : ∀ e ∈ r', e.2.Valid) (cfg : Cfg K O) (big : K) (d : O → O → K)
    (hd : ∀ e ∈ r, ∀ f ∈ r', e.2.distance f.2 ≤ d e.1 f.1) (cb : DCB σ K O)
    (P : σ → K → Prop) (hcb : cb.Tracks P d ((r.product r').map (fun p => (p.1.1, p.2.1))))
    (s : σ) (hP : P s big) :
    ∃ res, m.distanceOther cfg big AABB.distance cb m' s = some res ∧ P res.1 res.2.1 ∧
        res.2.1 = minDist d big ((r.product r').map (fun p => (p.1.1, p.2.1))) := by
  unfold distanceOther
  have hp := h2.perm
  have hn := h2.n
  have he := h2.enc
  have hp' := h2'.perm
  have hn' := h2'.n
  have he' := h2'.enc
  cases hr : m.root with
  | none =>
    rw [hr] at hp hn
    have : r = [] := hp.symm.eq_nil
    subst this
    exact ⟨(s, big, false), by simp [size, hn, oleaves], hP, rfl⟩
  | some t =>
    cases hr' : m'.root with
    | none =>
      rw [hr'] at hp' hn'
      have : r' = [] := hp'.symm.eq_nil
      subst this
      refine ⟨(s, big, false), by simp [size, hn', oleaves], hP, ?_⟩
      have e : List.product r ([] : Reg K O) = [] := by
        rw [List.eq_nil_iff_forall_not_mem]
        intro p hp
        exact absurd (List.mem_product.1 hp).2 (by simp)
      rw [e]; rfl
    | some t' =>
      rw [hr] at hp hn he
      rw [hr'] at hp' hn' he'
      have a : m.size ≠ 0 := by
        show m.n ≠ 0
        rw [hn]; simp [oleaves, leaves_ne_nil]
      have b : m'.size ≠ 0 := by
        show m'.n ≠ 0
        rw [hn']; simp [oleaves, leaves_ne_nil]
      refine ⟨distT cfg AABB.distance cb t t' s big, by rw [if_neg (by simp [a, b])], ?_⟩
      have hmem : ∀ x ∈ t.leaves, entry x ∈ r := fun x hx => hp.mem_iff.1 (List.mem_map.2 ⟨x, hx, rfl⟩)
      have hmem' : ∀ x ∈ t'.leaves, entry x ∈ r' :=
        fun x hx => hp'.mem_iff.1 (List.mem_map.2 ⟨x, hx, rfl⟩)
      have hpm : ((t.leaves.product t'.leaves).map (fun p => (p.1.2.2, p.2.2.2))).Perm
          ((r.product r').map (fun p => (p.1.1, p.2.1))) := by
        have := (product_perm hp hp').map (fun p : (O × AABB K) × (O × AABB K) => (p.1.1, p.2.1))
        simp only [oleaves, product_map, List.map_map] at this
        exact this
      have hcov := distT_covers cfg boxDist_distance hcb.nonInc t t' he he'
        (fun x hx => hv _ (hmem x hx)) (fun x hx => hv' _ (hmem' x hx))
      refine ⟨hcov.inv hcb.nonInc hP, ?_⟩
      rw [hcov.minimum (d := d) ?_ ?_ hP]
      · exact minDist_perm _ _ hpm
      · exact hcb.subset fun p hp' => hpm.mem_iff.1 hp'
      · intro x hx
        obtain ⟨k1, k2⟩ := List.mem_product.1 hx
        exact hd _ (hmem _ k1) _ (hmem' _ k2)

end distance

end Fcl
