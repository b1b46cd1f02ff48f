import Verif.Tree.QuerySpec
import Verif.Tree.Split
import Mathlib.Tactic.NormNum

/-!
# C05-C11: the dynamic AABB tree manager

`History cs [] r` (`Verif/Tree/Spec.lean`): `cs` is a sequence of public calls a client may make, starting
from an empty manager, and `r` is the list of (object, known box) it leads to. `Mgr.empty.run cs` executes
the modelled code on the same calls; `some m` says the run is free of undefined behaviour and terminates.
-/

namespace Fcl
open HTree Mgr
variable {K O : Type*} [LinearOrder K] [DecidableEq O]

/-! ## A concrete history, used to show that the hypotheses can be met -/

namespace DynExample

/-- A unit cube at position `n` on the x axis. -/
def cube (n : ℤ) : AABB ℤ := ⟨⟨n, 0, 0⟩, ⟨n + 1, 1, 1⟩⟩

/-- Some choice of heuristics. -/
def cfg : Cfg ℤ ℕ where
  select _ _ _ := true
  bigger a b := decide (a.hi.x - a.lo.x > b.hi.x - b.lo.x)
  eqv a b := decide (a.lo.x = b.lo.x ∧ a.hi.x = b.hi.x)
  sizeLt a b := decide (a.hi.x - a.lo.x < b.hi.x - b.lo.x)
  sizeOk _ := true
  bestAxis _ := 0
  nth _ _ l := l
  below _ _ := true
  code _ _ := 0
  sortM _ l := l
  buThreshold := 2
  topdownLevel := 0
  initLevel := 0
  incPass := 10
  nearlyBalanced h _ := decide (h < 10)
  junk := cube 0

theorem cfg_lawful : cfg.Lawful :=
  ⟨fun _ _ _ => List.Perm.refl _, fun _ _ => List.Perm.refl _, fun _ => rfl, by decide⟩

/-- Object `n` sits at position `n`. -/
def w0 (n : ℕ) : AABB ℤ := cube n
/-- Later object 2 has moved next to object 5. -/
def w1 (n : ℕ) : AABB ℤ := if n = 2 then cube 5 else cube n

/-- Register 1, 2, 3, 4 in a batch and 5 alone, drop 3, set up, move 2, clear nothing. -/
def calls : List (MgrCall ℤ ℕ) :=
  [⟨.registerMany [1, 2, 3, 4], w0, cfg⟩, ⟨.register 5, w0, cfg⟩, ⟨.unregister 3, w0, cfg⟩,
   ⟨.setup, w0, cfg⟩, ⟨.updateObj 2, w1, cfg⟩]

/-- Its outcome. -/
def outcome : Reg ℤ ℕ := [(5, cube 5), (1, cube 1), (2, cube 5), (4, cube 4)]

theorem history : History calls [] outcome := by
  refine .cons ⟨by decide, by simp⟩ cfg_lawful ?_
  refine .cons (show (5 : ℕ) ∉ _ by decide) cfg_lawful ?_
  refine .cons (show (3 : ℕ) ∈ _ by decide) cfg_lawful ?_
  refine .cons trivial cfg_lawful ?_
  refine .cons trivial cfg_lawful ?_
  exact .nil _

end DynExample

/-! ## C05 -/

/-- C05: after any history of calls, the run is well defined, `getObjects` lists exactly the registered
objects, each once, `size` is their number and `empty` is true exactly when there are none. -/
theorem C05_objects {cs : List (MgrCall K O)} {r : Reg K O} (h : History cs [] r) :
    ∃ m, (Mgr.empty : Mgr K O).run cs = some m ∧
      (∃ os : List O, m.getObjects = some (os.map some) ∧ os.Perm (r.map (·.1)) ∧ os.Nodup) ∧
      m.size = r.length ∧ (m.isEmpty = true ↔ r = []) := by
  obtain ⟨m, h1, h2⟩ := inv_empty.run h
  have hlen : (oleaves m.root).length = r.length := by
    have := h2.perm.length_eq; rwa [List.length_map] at this
  have htl : m.table.length = m.n := by
    rw [h2.table.length_eq, List.length_map, h2.n]
  refine ⟨m, h1, ⟨m.table.map (·.1), ?_, ?_, ?_⟩, h2.n.trans hlen, ?_⟩
  · unfold getObjects
    rw [if_pos htl.le, htl, Nat.sub_self]
    simp [List.map_map, Function.comp_def]
  · have := h2.table.map (fun e : O × Nat => e.1)
    rw [List.map_map] at this
    exact this.trans h2.keys
  · have := h2.table.map (fun e : O × Nat => e.1)
    rw [List.map_map] at this
    exact (this.trans h2.keys).nodup_iff.2 h2.nodup
  · unfold isEmpty
    cases hr : m.root with
    | none =>
      rw [hr] at hlen
      simp only [Option.isNone_none, true_iff]
      exact List.length_eq_zero_iff.1 hlen.symm
    | some t =>
      rw [hr] at hlen
      simp only [Option.isNone_some, Bool.false_eq_true, false_iff]
      rintro rfl
      exact t.leaves_ne_nil (List.length_eq_zero_iff.1 hlen)

/-- Non-vacuity: the example history leads to four registered objects. -/
example : ∃ m, (Mgr.empty : Mgr ℤ ℕ).run DynExample.calls = some m ∧ m.size = 4 ∧ m.isEmpty = false := by
  obtain ⟨m, h1, -, h3, h4⟩ := C05_objects DynExample.history
  refine ⟨m, h1, h3, ?_⟩
  rw [← Bool.not_eq_true, h4]
  exact List.cons_ne_nil _ _

/-- The abstract registry agrees with plain bookkeeping of names: registering adds, unregistering and
`clear` remove, everything else keeps. (Sanity of the specification used in C05.) -/
theorem C05_names (r : Reg K O) (c : MgrCall K O) :
    (r.step c).map (·.1) =
      match c.op with
      | .register o => o :: r.map (·.1)
      | .registerMany os => os ++ r.map (·.1)
      | .unregister o => (r.map (·.1)).filter (· ≠ o)
      | .clear => []
      | _ => r.map (·.1) := by
  have href : ∀ (r : Reg K O) o, (r.refresh c.cfg.eqv c.w o).map (·.1) = r.map (·.1) := by
    intro r o
    unfold Reg.refresh
    rw [List.map_map]
    apply List.map_congr_left
    intro e _
    simp only [Function.comp_apply]
    split <;> rfl
  unfold Reg.step
  cases c.op with
  | register o => rfl
  | registerMany os => simp [List.map_map, Function.comp_def]
  | unregister o => simp [List.filter_map, Function.comp_def]
  | setup => rfl
  | update => simp [List.map_map, Function.comp_def]
  | updateObj o => exact href r o
  | updateObjs os =>
    show (os.foldl (Reg.refresh c.cfg.eqv c.w) r).map (·.1) = r.map (·.1)
    induction os generalizing r with
    | nil => rfl
    | cons o os ih => rw [List.foldl_cons]; exact (ih _).trans (href r o)
  | clear => rfl

/-! ## C06 -/

/-- C06: in every reachable state the box of every node contains the boxes of all leaves below it, and
the leaves are exactly the registered objects with their known boxes. -/
theorem C06_enclosure {cs : List (MgrCall K O)} {r : Reg K O} (h : History cs [] r) :
    ∃ m, (Mgr.empty : Mgr K O).run cs = some m ∧
      ∀ t, m.root = some t →
        t.Encloses ∧ (t.leaves.map (fun x => (x.2.2, x.2.1))).Perm r := by
  obtain ⟨m, h1, h2⟩ := inv_empty.run h
  refine ⟨m, h1, fun t ht => ?_⟩
  have he := h2.enc
  have hp := h2.perm
  rw [ht] at he hp
  exact ⟨Enc.encloses he, hp⟩

/-- C06, at the level of the tree: each primitive keeps enclosure, whatever box is stored and however the
heuristics choose. -/
theorem C06_tree_ops (cfg : Cfg K O) (t : HTree K O) (h : t.Enc) :
    (∀ x, (insertLeaf cfg (some t) x).Encloses) ∧
    (∀ i, (∃ x ∈ t.leaves, x.1 = i) → ∃ t' c, removeLeaf cfg i t = some (t', c) ∧
        ∀ u, t' = some u → u.Encloses) ∧
    (∀ i b, (∃ x ∈ t.leaves, x.1 = i) → ∃ u, reinsertWith cfg i b t = some u ∧ u.Encloses) ∧
    t.refit.Encloses ∧
    (∀ n op, ∃ u op', balanceLoop cfg n op t = some (u, op') ∧ u.Encloses) := by
  refine ⟨fun x => (insertLeaf_enc cfg (some t) x h).encloses, ?_, ?_, (refit_enc t).encloses, ?_⟩
  · intro i hi
    obtain ⟨t', y, e1, -, -, e4⟩ := removeLeaf_spec cfg i t h hi
    refine ⟨t', y, e1, ?_⟩
    rintro u rfl
    exact Enc.encloses e4
  · intro i b hi
    obtain ⟨u, y, ls, e1, -, -, -, e5⟩ := reinsertWith_spec cfg i b t h hi
    exact ⟨u, e1, e5.encloses⟩
  · intro n op
    obtain ⟨u, op', e1, -, e3⟩ := balanceLoop_spec cfg n op t h
    exact ⟨u, op', e1, e3.encloses⟩

/-- Non-vacuity: a tree with an internal node that encloses its leaves. -/
example : (node (DynExample.cube 0) (leaf 0 (DynExample.cube 0) 0) (leaf 1 (DynExample.cube 0) 1) :
    HTree ℤ ℕ).Enc := by
  refine ⟨?_, ?_, trivial, trivial⟩ <;> decide

/-! ## C07-C09 -/

/-- C07: `collide(obj)` on any reachable manager: there is a fixed order of the registered objects whose
known box overlaps the query box, each exactly once and nobody else, and for every callback the query
amounts to calling it on those objects (paired with the query object) in that order until it returns true. -/
theorem C07_collide_object.{v} {cs : List (MgrCall K O)} {r : Reg K O} (h : History cs [] r)
    (cfg : Cfg K O) (w : O → AABB K) (q : O) :
    ∃ m, (Mgr.empty : Mgr K O).run cs = some m ∧ ∃ ps : List (O × O),
      ps.Perm ((r.filter (fun e => e.2.overlap (w q))).map (fun e => (e.1, q))) ∧
      ∀ (σ : Type v) (cb : CB σ O) (s : σ), m.collideObj cfg w cb q s = some (runUntil cb s ps).1 := by
  obtain ⟨m, h1, h2⟩ := inv_empty.run h
  exact ⟨m, h1, h2.collideObj_spec cfg w q⟩

/-- Non-vacuity: in the example, a query with the box of object 5 has two overlapping partners besides
itself. -/
example : (DynExample.outcome.filter (fun e => e.2.overlap (DynExample.w1 5))).map (·.1) = [5, 2, 4] := by
  decide

/-- C08: self-collision of any reachable manager: the calls are exactly the unordered pairs of distinct
registered objects with overlapping known boxes, each pair once (listed through some enumeration `l` of
the registry), in a fixed order, until the callback returns true. -/
theorem C08_collide_self.{v} {cs : List (MgrCall K O)} {r : Reg K O} (h : History cs [] r)
    (cfg : Cfg K O) :
    ∃ m, (Mgr.empty : Mgr K O).run cs = some m ∧ ∃ (l : Reg K O) (ps : List (O × O)),
      l.Perm r ∧ (l.map (·.1)).Nodup ∧
      ps.Perm (((pairsUp l).filter (fun p => p.1.2.overlap p.2.2)).map (fun p => (p.1.1, p.2.1))) ∧
      ∀ (σ : Type v) (cb : CB σ O) (s : σ), m.collideAll cfg cb s = some (runUntil cb s ps).1 := by
  obtain ⟨m, h1, h2⟩ := inv_empty.run h
  exact ⟨m, h1, h2.collideAll_spec cfg⟩

/-- `pairsUp` lists every unordered pair of distinct elements exactly once (sanity of the
specification). -/
theorem C08_pairs_spec {α : Type*} (l : List α) (hl : l.Nodup) :
    (pairsUp l).Nodup ∧
    (∀ a ∈ l, ∀ b ∈ l, a ≠ b → ((a, b) ∈ pairsUp l ∧ (b, a) ∉ pairsUp l) ∨
      ((b, a) ∈ pairsUp l ∧ (a, b) ∉ pairsUp l)) ∧
    ∀ p ∈ pairsUp l, p.1 ∈ l ∧ p.2 ∈ l ∧ p.1 ≠ p.2 := by
  induction l with
  | nil => simp [pairsUp]
  | cons x l ih =>
    obtain ⟨hx, hl'⟩ := List.nodup_cons.1 hl
    obtain ⟨i1, i2, i3⟩ := ih hl'
    have memp : ∀ a b, (a, b) ∈ pairsUp (x :: l) ↔ (a = x ∧ b ∈ l) ∨ (a, b) ∈ pairsUp l := by
      intro a b
      simp only [pairsUp, List.mem_append, List.mem_map, Prod.mk.injEq]
      constructor
      · rintro (⟨c, hc, rfl, rfl⟩ | h)
        · exact Or.inl ⟨rfl, hc⟩
        · exact Or.inr h
      · rintro (⟨rfl, hb⟩ | h)
        · exact Or.inl ⟨b, hb, rfl, rfl⟩
        · exact Or.inr h
    refine ⟨?_, ?_, ?_⟩
    · simp only [pairsUp]
      rw [List.nodup_append]
      refine ⟨hl'.map (fun a b h => by simpa using h), i1, ?_⟩
      rintro p hp q hq rfl
      obtain ⟨c, hc, rfl⟩ := List.mem_map.1 hp
      exact hx (i3 _ hq).1
    · intro a ha b hb hab
      rcases List.mem_cons.1 ha with ea | ha <;> rcases List.mem_cons.1 hb with eb | hb
      · exact absurd (ea.trans eb.symm) hab
      · left
        refine ⟨(memp _ _).2 (Or.inl ⟨ea, hb⟩), ?_⟩
        rw [memp]
        rintro (⟨e, -⟩ | h)
        · exact hx (e ▸ hb)
        · exact hx (ea ▸ (i3 _ h).2.1)
      · right
        refine ⟨(memp _ _).2 (Or.inl ⟨eb, ha⟩), ?_⟩
        rw [memp]
        rintro (⟨e, -⟩ | h)
        · exact hx (e ▸ ha)
        · exact hx (eb ▸ (i3 _ h).2.1)
      · have ea : a ≠ x := fun e => hx (e ▸ ha)
        have eb : b ≠ x := fun e => hx (e ▸ hb)
        simp only [memp, ea, eb, false_and, false_or]
        exact i2 a ha b hb hab
    · rintro ⟨a, b⟩ hp
      rcases (memp a b).1 hp with ⟨rfl, hb⟩ | h
      · exact ⟨by simp, by simp [hb], fun e => hx (by simpa using (show a = b from e) ▸ hb)⟩
      · obtain ⟨j1, j2, j3⟩ := i3 _ h
        exact ⟨by simp [j1], by simp [j2], j3⟩

/-- Non-vacuity: the example registry has overlapping pairs and non-overlapping ones. -/
example : ((pairsUp DynExample.outcome).filter (fun p => p.1.2.overlap p.2.2)).map (fun p => (p.1.1, p.2.1))
    = [(5, 2), (5, 4), (2, 4)] := by decide

/-- C09: collision of two reachable managers: the calls are exactly the pairs (object of the first,
object of the second) with overlapping known boxes, each once, first manager's object first, in a fixed
order, until the callback returns true. -/
theorem C09_collide_managers.{v} {cs cs' : List (MgrCall K O)} {r r' : Reg K O} (h : History cs [] r)
    (h' : History cs' [] r') (cfg : Cfg K O) :
    ∃ m m', (Mgr.empty : Mgr K O).run cs = some m ∧ (Mgr.empty : Mgr K O).run cs' = some m' ∧
      ∃ ps : List (O × O),
      ps.Perm (((r.product r').filter (fun p => p.1.2.overlap p.2.2)).map (fun p => (p.1.1, p.2.1))) ∧
      ∀ (σ : Type v) (cb : CB σ O) (s : σ), m.collideOther cfg cb m' s = some (runUntil cb s ps).1 := by
  obtain ⟨m, h1, h2⟩ := inv_empty.run h
  obtain ⟨m', h1', h2'⟩ := inv_empty.run h'
  exact ⟨m, m', h1, h1', h2.collideOther_spec h2' cfg⟩

/-- Non-vacuity: the example manager against itself has overlapping pairs. -/
example : (((DynExample.outcome.product DynExample.outcome).filter
    (fun p => p.1.2.overlap p.2.2)).map (fun p => (p.1.1, p.2.1))).length = 10 := by decide

/-! ## C10 -/

section distance
variable [AABB.ArithOps K] [AABB.LawfulArith K]

/-- C10, `distance(obj)`: for a callback that tracks the minimum of `d`, where `d` is never smaller than
the distance of the known boxes, the final bound is the minimum of `d` over all registered objects (and
the initial bound). -/
theorem C10_distance_object {σ : Type*} {cs : List (MgrCall K O)} {r : Reg K O} (h : History cs [] r)
    (hv : ∀ e ∈ r, e.2.Valid) (w : O → AABB K) (q : O) (hq : (w q).Valid) (big : K) (d : O → O → K)
    (hd : ∀ e ∈ r, (w q).distance e.2 ≤ d e.1 q) (cb : DCB σ K O)
    (P : σ → K → Prop) (hcb : cb.Tracks P d (r.map (fun e => (e.1, q)))) (s : σ) (hP : P s big) :
    ∃ m, (Mgr.empty : Mgr K O).run cs = some m ∧
      ∃ res, m.distanceObj big AABB.distance w cb q s = some res ∧ P res.1 res.2.1 ∧
        res.2.1 = minDist d big (r.map (fun e => (e.1, q))) := by
  obtain ⟨m, h1, h2⟩ := inv_empty.run h
  exact ⟨m, h1, h2.distanceObj_spec hv w q hq big d hd cb P hcb s hP⟩

/-- C10, `distance()` within one manager. `l` enumerates the registry; pairs are taken once each. -/
theorem C10_distance_self {σ : Type*} {cs : List (MgrCall K O)} {r : Reg K O} (h : History cs [] r)
    (hv : ∀ e ∈ r, e.2.Valid) (cfg : Cfg K O) (big : K) (d : O → O → K)
    (hd : ∀ e ∈ r, ∀ f ∈ r, e.2.distance f.2 ≤ d e.1 f.1) (cb : DCB σ K O)
    (P : σ → K → Prop) (hcb : cb.Tracks P d ((r.product r).map (fun p => (p.1.1, p.2.1))))
    (s : σ) (hP : P s big) :
    ∃ m, (Mgr.empty : Mgr K O).run cs = some m ∧ ∃ l : Reg K O, l.Perm r ∧
      ∃ res, m.distanceAll cfg big AABB.distance cb s = some res ∧ P res.1 res.2.1 ∧
        res.2.1 = minDist d big ((pairsUp l).map (fun p => (p.1.1, p.2.1))) := by
  obtain ⟨m, h1, h2⟩ := inv_empty.run h
  exact ⟨m, h1, h2.distanceAll_spec hv cfg big d hd cb P hcb s hP⟩

/-- C10, `distance(other_manager)`. -/
theorem C10_distance_managers {σ : Type*} {cs cs' : List (MgrCall K O)} {r r' : Reg K O}
    (h : History cs [] r) (h' : History cs' [] r')
    (hv : ∀ e ∈ r, e.2.Valid) (hv' : ∀ e ∈ r', e.2.Valid) (cfg : Cfg K O) (big : K) (d : O → O → K)
    (hd : ∀ e ∈ r, ∀ f ∈ r', e.2.distance f.2 ≤ d e.1 f.1) (cb : DCB σ K O)
    (P : σ → K → Prop) (hcb : cb.Tracks P d ((r.product r').map (fun p => (p.1.1, p.2.1))))
    (s : σ) (hP : P s big) :
    ∃ m m', (Mgr.empty : Mgr K O).run cs = some m ∧ (Mgr.empty : Mgr K O).run cs' = some m' ∧
      ∃ res, m.distanceOther cfg big AABB.distance cb m' s = some res ∧ P res.1 res.2.1 ∧
        res.2.1 = minDist d big ((r.product r').map (fun p => (p.1.1, p.2.1))) := by
  obtain ⟨m, h1, h2⟩ := inv_empty.run h
  obtain ⟨m', h1', h2'⟩ := inv_empty.run h'
  exact ⟨m, m', h1, h1', h2.distanceOther_spec h2' hv hv' cfg big d hd cb P hcb s hP⟩

end distance

/-- Non-vacuity: a callback that tracks the minimum (the obvious one, never stopping early), for any
`d` and any set of pairs. -/
example (d : ℕ → ℕ → ℝ) (ps : List (ℕ × ℕ)) :
    DCB.Tracks (fun (s : Unit) md a b => (s, min md (d a b), false)) (fun _ _ => True) d ps :=
  fun _ _ _ _ _ => ⟨trivial, rfl, by simp⟩

/-- Non-vacuity: boxes over `ℝ` and a `d` above the box distance, on a registry of two objects. -/
example : ∃ (cs : List (MgrCall ℝ ℕ)) (r : Reg ℝ ℕ), History cs [] r ∧ r.length = 2 ∧
    (∀ e ∈ r, e.2.Valid) := by
  let b : ℕ → AABB ℝ := fun n => ⟨⟨n, 0, 0⟩, ⟨n + 1, 1, 1⟩⟩
  let c : Cfg ℝ ℕ := ⟨fun _ _ _ => true, fun _ _ => true, fun _ _ => false, fun _ _ => false, fun _ => true,
    fun _ => 0, fun _ _ l => l, fun _ _ => true, fun _ _ => 0, fun _ l => l, 2, 0, 0, 10, fun _ _ => true, b 0⟩
  have hc : c.Lawful := ⟨fun _ _ _ => List.Perm.refl _, fun _ _ => List.Perm.refl _, fun _ => rfl,
    by show (0 : Int) ≠ 1; decide⟩
  refine ⟨[⟨.register 1, b, c⟩, ⟨.register 7, b, c⟩], [(7, b 7), (1, b 1)], ?_, rfl, ?_⟩
  · refine .cons (show (1 : ℕ) ∉ _ by simp) hc (.cons (show (7 : ℕ) ∉ _ by simp [Reg.step]) hc (.nil _))
  · intro e he
    simp only [List.mem_cons, List.not_mem_nil, or_false] at he
    rcases he with rfl | rfl <;> refine ⟨?_, ?_, ?_⟩ <;> norm_num [b]

/-! ## C11 -/

/-- C11 (partial): for every non-empty collection of leaves, every setting with `tree_topdown_level ≠ 1`,
and every behaviour of the library functions, the bulk constructions terminate with a tree that has
exactly the given leaves, encloses them, and whose node boxes are the least ones. Missing:
`tree_topdown_level = 1` (`C11_topdown1_diverges`, `C11_topdown1_partial`), and boxes whose size is not
below the largest finite number (`C11_bottomup_undefined`). -/
theorem C11_build_partial (cfg : Cfg K O) (hc : cfg.Lawful) (xs : List (Nat × AABB K × O)) (hne : xs ≠ []) :
    (∃ t, HTree.init cfg (xs.map ofLeaf) = some t ∧ t.leaves.Perm xs ∧ t.Encloses ∧
      ∀ c : AABB K, (∀ x ∈ xs, c.contain x.2.1 = true) → c.contain t.bv = true) ∧
    (∃ t, topdown cfg (xs.map ofLeaf) = some t ∧ t.leaves.Perm xs ∧ t.Encloses) ∧
    (∃ t, bottomup cfg xs.length (xs.map ofLeaf) = some t ∧ t.leaves.Perm xs ∧ t.Encloses) := by
  have hg : ∀ t ∈ xs.map (ofLeaf (K := K) (O := O)), t.Good := by
    intro t ht
    obtain ⟨x, -, rfl⟩ := List.mem_map.1 ht
    exact good_ofLeaf x
  have hne' : xs.map (ofLeaf (K := K) (O := O)) ≠ [] := by simpa using hne
  refine ⟨?_, ?_, ?_⟩
  · obtain ⟨t, h1, h2, h3⟩ := init_spec cfg hc _ hne' hg
    rw [allLeaves_ofLeaf] at h2
    exact ⟨t, h1, h2, h3.1.encloses, fun c hcx => h3.2.least c (fun x hx => hcx x (h2.mem_iff.1 hx))⟩
  · obtain ⟨t, h1, h2, h3⟩ := topdown_spec cfg hc _ hne' hg
    rw [allLeaves_ofLeaf] at h2
    exact ⟨t, h1, h2, h3.1.encloses⟩
  · obtain ⟨t, h1, h2, h3⟩ := bottomup_spec cfg hc.size_ok xs.length _ hne' (by simp) hg
    rw [allLeaves_ofLeaf] at h2
    exact ⟨t, h1, h2, h3.1.encloses⟩

/-- Non-vacuity: lawful settings and five coincident leaves. -/
example : ∃ t, HTree.init DynExample.cfg ((List.range 5).map (fun i => ofLeaf (i, DynExample.cube 3, i)))
    = some t ∧ t.leaves.length = 5 := by
  have := (C11_build_partial DynExample.cfg DynExample.cfg_lawful
    ((List.range 5).map (fun i => (i, DynExample.cube 3, i))) (by decide)).1
  rw [List.map_map] at this
  obtain ⟨t, h1, h2, -⟩ := this
  exact ⟨t, h1, by rw [h2.length_eq]; rfl⟩

section split
variable {F : Type*} [Field F] [LinearOrder F] [IsStrictOrderedRing F]

/-- C11 is violated by `topdown_1` (`tree_topdown_level = 1`): when the centres of more than
`bu_threshold` leaves (at least two) coincide, the recursion never returns, for any amount of fuel. -/
theorem C11_topdown1_diverges (cfg : Cfg F O) (hb : cfg.below = splitBelow) (ts : List (HTree F O))
    (h2 : 2 ≤ ts.length) (hbu : cfg.buThreshold < ts.length)
    (hc : ∀ i, ∀ t ∈ ts, ∀ u ∈ ts, centerC i t.bv = centerC i u.bv) (fuel : Nat) :
    topdown1 cfg fuel ts = none := by
  induction fuel generalizing ts with
  | zero =>
    match ts, h2 with
    | t :: u :: ts, _ => rfl
  | succ fuel ih =>
    match ts, h2 with
    | t :: u :: ts, _ =>
      unfold topdown1
      dsimp only
      rw [if_pos hbu]
      obtain ⟨h1, h2', h3⟩ := partSwap_spec
          (fun v => cfg.below ((t :: u :: ts).map bv) v.bv) [] [] (t :: u :: ts)
      simp only [List.nil_append] at h1 h2' h3
      have hno : (t :: u :: ts).filter (fun v => cfg.below ((t :: u :: ts).map bv) v.bv) = [] := by
        rw [List.filter_eq_nil_iff]
        intro v hv
        rw [hb, splitBelow_const]
        · simp
        · intro i b hb c hc'
          obtain ⟨x, hx, rfl⟩ := List.mem_map.1 hb
          obtain ⟨y, hy, rfl⟩ := List.mem_map.1 hc'
          exact hc i x hx y hy
        · exact List.mem_map.2 ⟨v, hv, rfl⟩
      rw [hno] at h2'
      rw [h2', List.nil_append] at h1
      have hlen := h1.length_eq
      rw [ih _ (by rw [hlen]; simp) (by rw [hlen]; exact hbu)
        (fun i x hx y hy => hc i x (h1.mem_iff.1 hx) y (h1.mem_iff.1 hy))]
      split <;> simp_all

/-- Three copies of the unit cube, default `bu_threshold = 2`: no fuel is enough. -/
example (cfg : Cfg ℚ ℕ) (hb : cfg.below = splitBelow) (ht : cfg.buThreshold = 2) (fuel : Nat) :
    topdown1 cfg fuel ((List.replicate 3 (0, ⟨⟨0, 0, 0⟩, ⟨1, 1, 1⟩⟩, 0)).map ofLeaf) = none := by
  apply C11_topdown1_diverges cfg hb _ (by simp) (by rw [ht]; simp)
  intro i t hmt u hmu
  rw [List.map_replicate] at hmt hmu
  rw [List.eq_of_mem_replicate hmt, List.eq_of_mem_replicate hmu]

/-- C11 (partial), `topdown_1` in exact arithmetic: it terminates with the same leaves and enclosing
boxes whenever the centres are pairwise different. -/
theorem C11_topdown1_partial (cfg : Cfg F O) (hb : cfg.below = splitBelow) (hs : ∀ b, cfg.sizeOk b = true)
    (xs : List (Nat × AABB F × O)) (hne : xs ≠ [])
    (hd : xs.Pairwise (fun x y => x.2.1.center ≠ y.2.1.center)) :
    ∃ t, topdown1 cfg xs.length (xs.map ofLeaf) = some t ∧ t.leaves.Perm xs ∧ t.Encloses := by
  have hg : ∀ t ∈ xs.map (ofLeaf (K := F) (O := O)), t.Good := by
    intro t ht
    obtain ⟨x, -, rfl⟩ := List.mem_map.1 ht
    exact good_ofLeaf x
  obtain ⟨t, h1, h2, h3⟩ := topdown1_spec cfg hs xs.length (xs.map ofLeaf) (by simpa using hne) (by simp) hg (by
    intro us hus hlen
    have hp : (xs.map (ofLeaf (K := F) (O := O))).Pairwise (fun t u => t.bv.center ≠ u.bv.center) := by
      rw [List.pairwise_map]; exact hd
    have hpu : us.Pairwise (fun t u => t.bv.center ≠ u.bv.center) := by
      obtain ⟨vs, hv1, hv2⟩ := hus
      exact (hv1.pairwise_iff (fun h => Ne.symm h)).1 (hp.sublist hv2)
    match us, hlen, hpu with
    | a :: b :: us, _, hpu =>
      have hab := (List.pairwise_cons.1 hpu).1 b (by simp)
      have : ∃ i : Fin 3, centerC i a.bv ≠ centerC i b.bv := by
        by_contra hc
        push Not at hc
        apply hab
        have e0 := hc 0; have e1 := hc 1; have e2 := hc 2
        simp only [centerC, V3.get] at e0 e1 e2
        cases ha : a.bv.center; cases hb' : b.bv.center
        rw [ha, hb'] at e0 e1 e2
        simp_all
      obtain ⟨i, hi⟩ := this
      obtain ⟨⟨x, hx, hx'⟩, ⟨y, hy, hy'⟩⟩ := splitAxis_good ((a :: b :: us).map bv) i
        ⟨a.bv, by simp, b.bv, by simp, hi⟩
      obtain ⟨x0, hx0, rfl⟩ := List.mem_map.1 hx
      obtain ⟨y0, hy0, rfl⟩ := List.mem_map.1 hy
      refine ⟨⟨x0, hx0, ?_⟩, ⟨y0, hy0, ?_⟩⟩
      · rw [hb]; exact hx'
      · rw [hb]; exact hy')
  rw [allLeaves_ofLeaf] at h2
  exact ⟨t, h1, h2, h3.1.encloses⟩

/-- Non-vacuity: three cubes with different centres. -/
example : ([0, 5, 9] : List ℚ).Pairwise (fun a b =>
    (⟨⟨a, 0, 0⟩, ⟨a + 1, 1, 1⟩⟩ : AABB ℚ).center ≠ (⟨⟨b, 0, 0⟩, ⟨b + 1, 1, 1⟩⟩ : AABB ℚ).center) := by
  norm_num [AABB.center]

end split

/-- C11 is violated by `bottomup` for boxes whose size is not below the largest finite number (planes
and half-spaces have such boxes): it dereferences uninitialised iterators. -/
theorem C11_bottomup_undefined (cfg : Cfg ℚ O) (big : ℚ) (hs : cfg.sizeOk = fun b => decide (b.size < big))
    (x y : Nat × AABB ℚ × O) (h : big ≤ (x.2.1.merge y.2.1).size) (fuel : Nat) :
    bottomup cfg fuel [ofLeaf x, ofLeaf y] = none := by
  cases fuel with
  | zero => rfl
  | succ n =>
    unfold bottomup
    simp [scanPairs, scanRow, hs, ofLeaf_bv, not_lt.2 h]

/-- Non-vacuity: with largest number 100, a box of extent 20. -/
example : (100 : ℚ) ≤ ((⟨⟨0, 0, 0⟩, ⟨1, 1, 1⟩⟩ : AABB ℚ).merge ⟨⟨-20, 0, 0⟩, ⟨0, 1, 1⟩⟩).size := by
  norm_num [AABB.merge, AABB.size, AABB.width, AABB.height, AABB.depth, V3.cmin, V3.cmax]

end Fcl
