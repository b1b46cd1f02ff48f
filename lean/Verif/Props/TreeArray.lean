import Verif.TreeArray.Refine
import Verif.Tree.QuerySpec
import Verif.Props.DynTree
import Mathlib.Analysis.SpecialFunctions.Log.Basic
import Mathlib.Tactic.IntervalCases

/-!
# C107: the manager whose tree lives in an array

`AHistory cs [] 8 r cap` (`Verif/TreeArray/Spec.lean`): `cs` is a sequence of correct calls from an empty manager that
never needs more room than the array has (8 objects, or as many as the batch that filled an empty manager), never moves
the only object and never finds the tree too deep; `r` is the registry afterwards. `(AMgr.empty raw).run cs` executes the
code on memory. The other histories are the subject of the theorems with `violated` in their names.
-/

namespace Fcl
namespace TArr
open HTree Mgr
variable {K O : Type*} [LinearOrder K] [DecidableEq O]

/-! ## Every call -/

theorem AInv.step {m : AMgr K O} {r : Reg K O} {cap : ℕ} {t : Option (ATree K O)} {fs : List ℕ} (h : AInv m r cap t fs)
    (c : ACall K O) (hok : c.op.Ok r) (hc : c.cfg.Lawful) (hf : Fits r cap c) :
    ∃ m' t' fs', m.step c = some m' ∧ AInv m' (r.step c.toCall) (nextCap r cap c.op) t' fs' := by
  obtain ⟨op, w, cfg⟩ := c
  cases op with
  | register o => exact h.register cfg w o hok hf
  | registerMany os => exact h.registerMany cfg hc w os hok.1 hok.2 hf
  | unregister o => exact h.unregister cfg o hok
  | setup =>
    obtain ⟨m', t', fs', a, b, -⟩ := h.doSetup cfg hf
    exact ⟨m', t', fs', a, b⟩
  | update => exact h.updateAll cfg hf w
  | updateObj o =>
    obtain ⟨m1, t1, fs1, a1, a2⟩ := h.updateOne cfg w o hf.2
    obtain ⟨m2, t2, fs2, b1, b2, -⟩ := a2.doSetup cfg (by rw [refresh_length]; exact hf.1)
    exact ⟨m2, t2, fs2, by simp [AMgr.step, updateObj, a1, b1], b2⟩
  | updateObjs os =>
    have h2 : 2 ≤ r.length ∨ ∀ o ∈ os, ∀ b, (o, b) ∈ r → cfg.eqv b (w o) = true ∨ b.contain (w o) = true := by
      by_cases e : 2 ≤ r.length
      · exact .inl e
      · exact .inr fun o ho => (hf.2 o ho).resolve_left e
    obtain ⟨m1, t1, fs1, a1, a2⟩ := h.updateFold cfg w os h2
    have hl : (os.foldl (Reg.refresh cfg.eqv w) r).length = r.length := by
      clear * -
      induction os generalizing r with
      | nil => rfl
      | cons o os ih => rw [List.foldl_cons, ih, refresh_length]
    obtain ⟨m2, t2, fs2, b1, b2, -⟩ := a2.doSetup cfg (by rw [hl]; exact hf.1)
    exact ⟨m2, t2, fs2, by simp [AMgr.step, updateObjs, a1, b1], b2⟩
  | clear =>
    refine ⟨_, none, List.range 16, rfl, ⟨st_empty cfg.raw, ?_, ?_, ?_, ?_, ?_, rfl⟩⟩
    · rintro u ⟨⟩
    · exact List.Perm.refl _
    · exact List.Perm.refl _
    · simp [Reg.step, ACall.toCall]
    · rfl

theorem AInv.run {cs : List (ACall K O)} {m : AMgr K O} {r r' : Reg K O} {cap cap' : ℕ} {t : Option (ATree K O)} {fs : List ℕ}
    (h : AInv m r cap t fs) (hh : AHistory cs r cap r' cap') :
    ∃ m' t' fs', m.run cs = some m' ∧ AInv m' r' cap' t' fs' := by
  induction hh generalizing m t fs with
  | nil r cap => exact ⟨m, t, fs, rfl, h⟩
  | cons hok hc hf _ ih =>
    obtain ⟨m1, t1, fs1, a1, a2⟩ := h.step _ hok hc hf
    obtain ⟨m2, t2, fs2, b1, b2⟩ := ih a2
    exact ⟨m2, t2, fs2, by simp [AMgr.run, a1, b1], b2⟩

theorem ainv_empty (raw : ℕ → Node K O) : AInv (AMgr.empty raw) [] 8 none (List.range 16) :=
  ⟨st_empty raw, by rintro u ⟨⟩, List.Perm.refl _, List.Perm.refl _, by simp, rfl, rfl⟩

/-! ## The objects, the tree and the memory -/

/-- C107: after every history that the code can take the run is well defined (nothing is read or written outside the
array, every loop ends), `getObjects` lists exactly the registered objects, each once, `size` is their number and `empty`
is right. -/
theorem C107_objects_partial {cs : List (ACall K O)} {r : Reg K O} {cap : ℕ} (raw : ℕ → Node K O) (h : AHistory cs [] 8 r cap) :
    ∃ m, (AMgr.empty raw).run cs = some m ∧
      (∃ os : List O, m.getObjects = some (os.map some) ∧ os.Perm (r.map (·.1)) ∧ os.Nodup) ∧
      m.size = r.length ∧ (m.isEmpty = true ↔ r = []) := by
  obtain ⟨m, t, fs, h1, h2⟩ := (ainv_empty raw).run h
  have hlen := h2.length
  have hn := h2.n
  have htl : m.table.length = m.tree.nLeaves := by rw [h2.table.length_eq, List.length_map, hn]
  have hk : (m.table.map (·.1)).Perm (r.map (·.1)) := by
    have a := h2.table.map (fun e : O × ℕ => e.1)
    have b := h2.perm.map (fun e : O × AABB K => e.1)
    rw [List.map_map] at a b
    exact a.trans b
  refine ⟨m, h1, ⟨m.table.map (·.1), ?_, hk, hk.nodup_iff.2 h2.nodup⟩, hn.trans hlen, ?_⟩
  · unfold AMgr.getObjects AMgr.size
    rw [if_pos htl.le, htl, Nat.sub_self]
    simp [List.map_map, Function.comp_def]
  · unfold AMgr.isEmpty
    have hnum := h2.st.num
    have ha := h2.alloc
    simp only [decide_eq_true_eq]
    rcases h2.free with ⟨-, e, f⟩ | ⟨u, -, e, f⟩
    · simp only [e, iff_true]; omega
    · simp only [e, iff_false]
      have := List.length_pos_iff.2 e
      omega

/-- C107: the tree that the queries walk over has exactly the registered objects with their known boxes at its leaves, and
the box of every node contains those of the leaves below it. -/
theorem C107_enclosure_partial {cs : List (ACall K O)} {r : Reg K O} {cap : ℕ} (raw : ℕ → Node K O) (h : AHistory cs [] 8 r cap) :
    ∃ m v, (AMgr.empty raw).run cs = some m ∧ m.view = some v ∧ (r ≠ [] → v.root ≠ none) ∧
      ∀ t, v.root = some t → t.Encloses ∧ (t.leaves.map (fun x => (x.2.2, x.2.1))).Perm r := by
  obtain ⟨m, t, fs, h1, h2⟩ := (ainv_empty raw).run h
  obtain ⟨v, h3, h4, -⟩ := h2.view
  refine ⟨m, v, h1, h3, ?_, fun t ht => ?_⟩
  · intro hr hv
    have := h4.perm
    rw [hv] at this
    exact hr this.symm.eq_nil
  · have he := h4.enc
    have hp := h4.perm
    rw [ht] at he hp
    exact ⟨Enc.encloses he, hp⟩

/-! ## The queries -/

/-- C107, `collide(obj)`: as C07. -/
theorem C107_collide_object_partial.{v} {cs : List (ACall K O)} {r : Reg K O} {cap : ℕ} (raw : ℕ → Node K O)
    (h : AHistory cs [] 8 r cap) (cfg : Cfg K O) (w : O → AABB K) (q : O) :
    ∃ m, (AMgr.empty raw).run cs = some m ∧ ∃ ps : List (O × O),
      ps.Perm ((r.filter (fun e => e.2.overlap (w q))).map (fun e => (e.1, q))) ∧
      ∀ (σ : Type v) (cb : CB σ O) (s : σ), (m.view.bind fun x => x.collideObj cfg w cb q s) = some (runUntil cb s ps).1 := by
  obtain ⟨m, t, fs, h1, h2⟩ := (ainv_empty raw).run h
  obtain ⟨v, h3, h4, -⟩ := h2.view
  obtain ⟨ps, p1, p2⟩ := h4.collideObj_spec.{_, _, v} cfg w q
  exact ⟨m, h1, ps, p1, fun σ cb s => by rw [h3]; exact p2 σ cb s⟩

/-- C107, `collide()`: as C08. -/
theorem C107_collide_self_partial.{v} {cs : List (ACall K O)} {r : Reg K O} {cap : ℕ} (raw : ℕ → Node K O)
    (h : AHistory cs [] 8 r cap) (cfg : Cfg K O) :
    ∃ m, (AMgr.empty raw).run cs = some m ∧ ∃ (l : Reg K O) (ps : List (O × O)),
      l.Perm r ∧ (l.map (·.1)).Nodup ∧
      ps.Perm (((pairsUp l).filter (fun p => p.1.2.overlap p.2.2)).map (fun p => (p.1.1, p.2.1))) ∧
      ∀ (σ : Type v) (cb : CB σ O) (s : σ), (m.view.bind fun x => x.collideAll cfg cb s) = some (runUntil cb s ps).1 := by
  obtain ⟨m, t, fs, h1, h2⟩ := (ainv_empty raw).run h
  obtain ⟨v, h3, h4, -⟩ := h2.view
  obtain ⟨l, ps, p0, p1, p2, p3⟩ := h4.collideAll_spec.{_, _, v} cfg
  exact ⟨m, h1, l, ps, p0, p1, p2, fun σ cb s => by rw [h3]; exact p3 σ cb s⟩

/-- C107, `collide(other)` of two managers of this kind: as C09. -/
theorem C107_collide_managers_partial.{v} {cs cs' : List (ACall K O)} {r r' : Reg K O} {cap cap' : ℕ} (raw raw' : ℕ → Node K O)
    (h : AHistory cs [] 8 r cap) (h' : AHistory cs' [] 8 r' cap') (cfg : Cfg K O) :
    ∃ m m', (AMgr.empty raw).run cs = some m ∧ (AMgr.empty raw').run cs' = some m' ∧ ∃ ps : List (O × O),
      ps.Perm (((r.product r').filter (fun p => p.1.2.overlap p.2.2)).map (fun p => (p.1.1, p.2.1))) ∧
      ∀ (σ : Type v) (cb : CB σ O) (s : σ),
        (m.view.bind fun x => m'.view.bind fun y => x.collideOther cfg cb y s) = some (runUntil cb s ps).1 := by
  obtain ⟨m, t, fs, h1, h2⟩ := (ainv_empty raw).run h
  obtain ⟨v, h3, h4, -⟩ := h2.view
  obtain ⟨m', t', fs', h1', h2'⟩ := (ainv_empty raw').run h'
  obtain ⟨v', h3', h4', -⟩ := h2'.view
  obtain ⟨ps, p1, p2⟩ := h4.collideOther_spec.{_, _, v} h4' cfg
  exact ⟨m, m', h1, h1', ps, p1, fun σ cb s => by rw [h3, h3']; exact p2 σ cb s⟩

section distance
variable [AABB.ArithOps K] [AABB.LawfulArith K]

/-- C107, `distance(obj)`: as C10. -/
theorem C107_distance_object_partial {σ : Type*} {cs : List (ACall K O)} {r : Reg K O} {cap : ℕ} (raw : ℕ → Node K O)
    (h : AHistory cs [] 8 r cap)
    (hv : ∀ e ∈ r, e.2.Valid) (w : O → AABB K) (q : O) (hq : (w q).Valid) (big : K) (d : O → O → K)
    (hd : ∀ e ∈ r, (w q).distance e.2 ≤ d e.1 q) (cb : DCB σ K O)
    (P : σ → K → Prop) (hcb : cb.Tracks P d (r.map (fun e => (e.1, q)))) (s : σ) (hP : P s big) :
    ∃ m, (AMgr.empty raw).run cs = some m ∧
      ∃ res, (m.view.bind fun x => x.distanceObj big AABB.distance w cb q s) = some res ∧ P res.1 res.2.1 ∧
        res.2.1 = minDist d big (r.map (fun e => (e.1, q))) := by
  obtain ⟨m, t, fs, h1, h2⟩ := (ainv_empty raw).run h
  obtain ⟨v, h3, h4, -⟩ := h2.view
  exact ⟨m, h1, by rw [h3]; exact h4.distanceObj_spec hv w q hq big d hd cb P hcb s hP⟩

/-- C107, `distance()`: as C10. -/
theorem C107_distance_self_partial {σ : Type*} {cs : List (ACall K O)} {r : Reg K O} {cap : ℕ} (raw : ℕ → Node K O)
    (h : AHistory cs [] 8 r cap)
    (hv : ∀ e ∈ r, e.2.Valid) (cfg : Cfg K O) (big : K) (d : O → O → K)
    (hd : ∀ e ∈ r, ∀ f ∈ r, e.2.distance f.2 ≤ d e.1 f.1) (cb : DCB σ K O)
    (P : σ → K → Prop) (hcb : cb.Tracks P d ((r.product r).map (fun p => (p.1.1, p.2.1))))
    (s : σ) (hP : P s big) :
    ∃ m, (AMgr.empty raw).run cs = some m ∧ ∃ l : Reg K O, l.Perm r ∧
      ∃ res, (m.view.bind fun x => x.distanceAll cfg big AABB.distance cb s) = some res ∧ P res.1 res.2.1 ∧
        res.2.1 = minDist d big ((pairsUp l).map (fun p => (p.1.1, p.2.1))) := by
  obtain ⟨m, t, fs, h1, h2⟩ := (ainv_empty raw).run h
  obtain ⟨v, h3, h4, -⟩ := h2.view
  exact ⟨m, h1, by rw [h3]; exact h4.distanceAll_spec hv cfg big d hd cb P hcb s hP⟩

/-- C107, `distance(other)` of two managers of this kind: as C10. -/
theorem C107_distance_managers_partial {σ : Type*} {cs cs' : List (ACall K O)} {r r' : Reg K O} {cap cap' : ℕ}
    (raw raw' : ℕ → Node K O) (h : AHistory cs [] 8 r cap) (h' : AHistory cs' [] 8 r' cap')
    (hv : ∀ e ∈ r, e.2.Valid) (hv' : ∀ e ∈ r', e.2.Valid) (cfg : Cfg K O) (big : K) (d : O → O → K)
    (hd : ∀ e ∈ r, ∀ f ∈ r', e.2.distance f.2 ≤ d e.1 f.1) (cb : DCB σ K O)
    (P : σ → K → Prop) (hcb : cb.Tracks P d ((r.product r').map (fun p => (p.1.1, p.2.1))))
    (s : σ) (hP : P s big) :
    ∃ m m', (AMgr.empty raw).run cs = some m ∧ (AMgr.empty raw').run cs' = some m' ∧
      ∃ res, (m.view.bind fun x => m'.view.bind fun y => x.distanceOther cfg big AABB.distance cb y s) = some res ∧
        P res.1 res.2.1 ∧ res.2.1 = minDist d big ((r.product r').map (fun p => (p.1.1, p.2.1))) := by
  obtain ⟨m, t, fs, h1, h2⟩ := (ainv_empty raw).run h
  obtain ⟨v, h3, h4, -⟩ := h2.view
  obtain ⟨m', t', fs', h1', h2'⟩ := (ainv_empty raw').run h'
  obtain ⟨v', h3', h4', -⟩ := h2'.view
  exact ⟨m, m', h1, h1', by rw [h3, h3']; exact h4.distanceOther_spec h4' hv hv' cfg big d hd cb P hcb s hP⟩

end distance

/-! ## What goes wrong -/

/-- C107: whenever the array is full, registering one more object reads through a reference into the array that has just
been deleted. -/
theorem C107_violated_growth {cs : List (ACall K O)} {r : Reg K O} {cap : ℕ} (raw : ℕ → Node K O)
    (h : AHistory cs [] 8 r cap) (hne : r ≠ []) (hfull : r.length = cap) (cfg : ACfg K O) (w : O → AABB K) (o : O) :
    ∃ m, (AMgr.empty raw).run cs = some m ∧ m.step ⟨.register o, w, cfg⟩ = none := by
  obtain ⟨m, t, fs, h1, h2⟩ := (ainv_empty raw).run h
  exact ⟨m, h1, h2.register_full cfg w o hne hfull⟩

/-- C107: telling the manager that its only object has moved out of its known box loses the object: `size` is still 1 and
`getObjects` still lists it, but there is no tree, and every query reads outside the array. -/
theorem C107_violated_single_update {cs : List (ACall K O)} {o : O} {b : AABB K} {cap : ℕ} (raw : ℕ → Node K O)
    (h : AHistory cs [] 8 [(o, b)] cap) (cfg : ACfg K O) (w : O → AABB K)
    (h1 : cfg.eqv b (w o) = false) (h2 : b.contain (w o) = false) :
    ∃ m m', (AMgr.empty raw).run cs = some m ∧ m.step ⟨.updateObj o, w, cfg⟩ = some m' ∧
      m'.size = 1 ∧ m'.getObjects = some [some o] ∧ m'.view = none := by
  obtain ⟨m, t, fs, e1, e2⟩ := (ainv_empty raw).run h
  have hl : m.tree.nLeaves = 1 := by rw [e2.n, e2.length]; rfl
  have ht : m.table.map (·.1) = [o] := by
    have a := e2.table.map (fun e : O × ℕ => e.1)
    have b := e2.perm.map (fun e : O × AABB K => e.1)
    rw [List.map_map] at a b
    exact List.perm_singleton.1 (a.trans b)
  have htl : m.table.length = 1 := by simpa using congrArg List.length ht
  refine ⟨m, { m with tree := { m.tree with root := none }, setup := true }, e1, ?_, hl, ?_, ?_⟩
  · simp only [AMgr.step, updateObj, e2.updateOne_single cfg w h1 h2, Option.bind_some]
    simp [TArr.doSetup, hl]
  · simp only [AMgr.getObjects, AMgr.size, hl, htl]
    have : m.table.map (fun e => some e.1) = [some o] := by
      have := congrArg (List.map some) ht
      simpa [Function.comp_def] using this
    simp [this]
  · simp [AMgr.view, hl]

/-! ## Examples -/

namespace Example
open DynExample (cube w0 w1)

/-- The choices of `DynExample`, and the first two for every pair. -/
def cfg : ACfg ℤ ℕ := { DynExample.cfg with
  nthIds := fun _ _ xs => xs
  pair := fun _ => (0, 1)
  raw := fun _ => ⟨cube 0, none, .child none, none⟩ }

/-- The same with `max_tree_nonbalanced_level` 0 or less. -/
def cfgDeep : ACfg ℤ ℕ := { cfg with nearlyBalanced := fun _ _ => false }

theorem cfg_lawful : cfg.Lawful := ⟨fun _ _ _ => List.Perm.refl _, fun bs h => ⟨by simp [cfg], by simp [cfg]; omega⟩⟩

theorem cfg_shallow : cfg.Shallow 10 := by
  intro k l h1 h2
  simp [cfg, DynExample.cfg]; omega

/-- Register 1, 2, 3, 4 in a batch, drop 3, register 5 alone, set up, move 2, ask for everything again. -/
def calls : List (ACall ℤ ℕ) :=
  [⟨.registerMany [1, 2, 3, 4], w0, cfg⟩, ⟨.unregister 3, w0, cfg⟩, ⟨.register 5, w0, cfg⟩,
   ⟨.setup, w0, cfg⟩, ⟨.updateObj 2, w1, cfg⟩, ⟨.update, w1, cfg⟩]

/-- The registry afterwards. -/
def outcome : Reg ℤ ℕ := [(5, cube 5), (1, cube 1), (2, cube 5), (4, cube 4)]

theorem history : AHistory calls [] 8 outcome 4 := by
  have sh : ∀ n ≤ 10, cfg.Shallow n := fun n hn k l h1 h2 => cfg_shallow k l h1 (h2.trans hn)
  refine .cons ⟨by decide, by simp⟩ cfg_lawful (.inl rfl) ?_
  refine .cons (show (3 : ℕ) ∈ _ by decide) cfg_lawful trivial ?_
  refine .cons (show (5 : ℕ) ∉ _ by decide) cfg_lawful (show List.length _ < _ by decide) ?_
  refine .cons trivial cfg_lawful (sh _ (by decide)) ?_
  refine .cons trivial cfg_lawful ⟨sh _ (by decide), .inl (by decide)⟩ ?_
  refine .cons trivial cfg_lawful (sh _ (by decide)) ?_
  exact .nil _ _

/-- Non-vacuity: the history leads to four objects, and the array is full. -/
example (raw : ℕ → Node ℤ ℕ) : ∃ m, (AMgr.empty raw).run calls = some m ∧ m.size = 4 := by
  obtain ⟨m, h1, -, h3, -⟩ := C107_objects_partial raw history
  exact ⟨m, h1, h3⟩

/-- Registering a fifth object is undefined behaviour. -/
theorem violated_growth (raw : ℕ → Node ℤ ℕ) :
    ∃ m, (AMgr.empty raw).run calls = some m ∧ m.step ⟨.register 6, w0, cfg⟩ = none :=
  C107_violated_growth raw history (by decide) (by decide) cfg w0 6

/-- So is registering a second object after a batch of one. -/
example (raw : ℕ → Node ℤ ℕ) :
    ∃ m, (AMgr.empty raw).run [⟨.registerMany [1], w0, cfg⟩] = some m ∧ m.step ⟨.register 2, w0, cfg⟩ = none :=
  C107_violated_growth raw (AHistory.cons (c := ⟨.registerMany [1], w0, cfg⟩) ⟨by decide, by simp⟩ cfg_lawful (.inl rfl) (.nil _ _))
    (by decide) (by decide) cfg w0 2

/-- Register object 2 and move it: it is lost. -/
theorem violated_single_update (raw : ℕ → Node ℤ ℕ) :
    ∃ m m', (AMgr.empty raw).run [⟨.register 2, w0, cfg⟩] = some m ∧ m.step ⟨.updateObj 2, w1, cfg⟩ = some m' ∧
      m'.size = 1 ∧ m'.getObjects = some [some 2] ∧ m'.view = none :=
  C107_violated_single_update raw (AHistory.cons (c := ⟨.register 2, w0, cfg⟩) (show (2 : ℕ) ∉ _ by decide) cfg_lawful
    (show List.length _ < _ by decide) (.nil _ _)) cfg w1 (by decide) (by decide)

/-- Three objects, object 2 moves, and the tree is found too deep and built anew; then object 2 is unregistered. -/
def deepCalls : List (ACall ℤ ℕ) :=
  [⟨.registerMany [1, 2, 3], w0, cfg⟩, ⟨.updateObj 2, w1, cfgDeep⟩, ⟨.unregister 2, w1, cfg⟩]

end Example

/-- C107: building the tree anew moves the leaves to other elements of the array, but the table of the manager keeps the
old indices. Unregistering object 2 afterwards removes object 3 from the tree: `getObjects` lists 1 and 3, and the queries
see 1 and 2. (This needs `balanceTopdown`: more than 14 objects, or a smaller `max_tree_nonbalanced_level`.) -/
theorem C107_violated_rebalance :
    ((AMgr.empty Example.cfg.raw).run Example.deepCalls).bind AMgr.getObjects = some [some 3, some 1] ∧
    (((((AMgr.empty Example.cfg.raw).run Example.deepCalls).bind AMgr.view).bind fun v => v.root).map
      fun t => t.leaves.map fun x => x.2.2) = some [1, 2] := by
  decide +kernel

/-- C107: with the default `max_tree_nonbalanced_level` of 10 the tree is never too deep with up to 14 objects, whatever its
shape (setup, array-inl.h 818). -/
theorem C107_default_shallow (cfg : ACfg K O)
    (h : ∀ k l, cfg.nearlyBalanced k l = true ↔ (k : ℝ) - Real.log l / Real.log 2 < 10) : cfg.Shallow 14 := by
  intro k l h1 h2
  rw [h]
  have l2 : 0 < Real.log 2 := Real.log_pos (by norm_num)
  by_cases e : l = 1
  · subst e
    have : k = 0 := by omega
    simp [this]
  have key : (2 : ℝ) ^ (l - 11) < l := by
    have : 1 < l := by omega
    interval_cases l <;> norm_num
  have pos : 0 < (2 : ℝ) ^ (l - 11) := by positivity
  have := Real.log_lt_log pos key
  rw [Real.log_pow] at this
  have hk : (k : ℝ) ≤ ((l - 11 : ℕ) : ℝ) + 10 := by exact_mod_cast (by omega : k ≤ (l - 11) + 10)
  have : ((l - 11 : ℕ) : ℝ) < Real.log l / Real.log 2 := by rwa [lt_div_iff₀ l2]
  linarith

end TArr
end Fcl
