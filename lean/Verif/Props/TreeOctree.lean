import Verif.Tree.OctreeQueryLemmas
import Verif.Props.DynTree
import Verif.Props.OBBNear
import Mathlib.Tactic.FinCases

/-!
# C103: an octree object against the dynamic AABB tree manager
-/

namespace Fcl
namespace OctMgr
open Octree ConvertBV HTree

/-! ### Vocabulary -/

/-- The way ends at a child that does not exist, and no node on the way is free. -/
def Missing (thr : Thresholds) : Node → Path → Prop
  | .null, [] => True
  | .inner v c, i :: p => ¬ thr.isFree v ∧ Missing thr (c i) p
  | _, _ => False

/-- The cells of an octree that are not known to be free: the leaves that are not free, with their log odds, and the cells
that the octree does not know. -/
def Cell (t : Tree) (c : Path × Option ℝ) : Prop :=
  (∃ v, c.2 = some v ∧ t.root.leafAt c.1 = some v ∧ ¬ t.thr.isFree v) ∨ c.2 = none ∧ Missing t.thr t.root c.1

/-- The object `g` made for a cell: it has the points of the cell, it is occupied exactly if the cell is, it is not free, and
a cell that the octree does not know is uncertain (unless the user has chosen a default occupancy that is not a proper
probability). -/
def Represents (q : OctObj) (c : Path × Option ℝ) (g : CellObj) : Prop :=
  BoxPts g.box = q.tree.cellAt q.X c.1 ∧
    (∀ v, c.2 = some v → (g.Occupied ↔ q.tree.thr.isOccupied v) ∧ ¬ g.Free) ∧
    (c.2 = none → 0 < q.unknown → q.unknown < 1 → ¬ g.Occupied ∧ ¬ g.Free)

/-- The box of an object and the cell meet up to the tolerance of the test of oriented boxes. -/
def Meets (q : OctObj) (a : AABB ℝ) (p : Path) : Prop :=
  OBB.NearMeet (aabbOBB a Pose.id) (aabbOBB (cellOf q.tree.bv p) q.X) (OBB.tolerance (aabbOBB a Pose.id) (aabbOBB (cellOf q.tree.bv p) q.X))

/-- A callback that keeps the minimum of `d`: from data and bound related by `P`, which it keeps, it lowers the bound to the
distance of its objects if that is smaller, and says stop only if the bound is at most the distance of each pair of `S`. -/
def Minimizes {σ I : Type*} (cb : DCB σ ℝ I) (P : σ → ℝ → Prop) (d : I → I → ℝ) (S : I → I → Prop) : Prop :=
  ∀ s md, P s md → ∀ a b, P (cb s md a b).1 (cb s md a b).2.1 ∧ (cb s md a b).2.1 = min md (d a b) ∧
    ((cb s md a b).2.2 = true → ∀ x y, S x y → (cb s md a b).2.1 ≤ d x y)

/-! ### Cells -/

theorem known_some {thr : Thresholds} : ∀ {n : Node} {p : Path} {v : ℝ}, n.Consistent →
    ((p, some v) ∈ known thr n ↔ n.leafAt p = some v ∧ ¬ thr.isFree v)
  | .null, p, v, _ => by simp [known, Node.leafAt]
  | .leaf u, p, v, _ => by
    by_cases h : thr.isFree u
    · rw [known, if_pos h, Node.leafAt_leaf]
      simp only [List.not_mem_nil, false_iff]
      rintro ⟨⟨-, rfl⟩, k⟩; exact k h
    · rw [known, if_neg h, Node.leafAt_leaf]
      simp only [List.mem_singleton, Prod.mk.injEq, Option.some.injEq]
      constructor
      · rintro ⟨rfl, rfl⟩; exact ⟨⟨rfl, rfl⟩, h⟩
      · rintro ⟨⟨rfl, rfl⟩, -⟩; exact ⟨rfl, rfl⟩
  | .inner u c, p, v, hn => by
    rw [Node.leafAt_inner]
    by_cases h : thr.isFree u
    · rw [known, if_pos h]
      simp only [List.not_mem_nil, false_iff]
      rintro ⟨⟨i, l, rfl, hl⟩, k⟩
      have : v ≤ u := Node.leafAt_le (n := .inner u c) (l := i :: l) hn hl rfl
      exact k (le_trans this h)
    · rw [known, if_neg h]
      simp only [List.mem_flatMap, List.mem_map, Prod.mk.injEq]
      constructor
      · rintro ⟨i, -, ⟨l, w⟩, hx, rfl, rfl⟩
        have := (known_some (hn i).1).1 hx
        exact ⟨⟨i, l, rfl, this.1⟩, this.2⟩
      · rintro ⟨⟨i, l, rfl, hl⟩, k⟩
        exact ⟨i, mem_eight i, (l, some v), (known_some (hn i).1).2 ⟨hl, k⟩, rfl, rfl⟩

theorem known_none {thr : Thresholds} : ∀ {n : Node} {p : Path}, (p, none) ∈ known thr n ↔ Missing thr n p
  | .null, [] => by simp [known, Missing]
  | .null, i :: p => by simp [known, Missing]
  | .leaf u, p => by
    by_cases h : thr.isFree u
    · simp [known, Missing, h]
    · simp [known, Missing, h]
  | .inner u c, [] => by
    by_cases h : thr.isFree u
    · simp [known, Missing, h]
    · simp [known, Missing, h]
  | .inner u c, i :: p => by
    by_cases h : thr.isFree u
    · simp [known, Missing, h]
    · rw [known, if_neg h, Missing]
      simp only [List.mem_flatMap, List.mem_map, Prod.mk.injEq, List.cons.injEq, h, not_false_eq_true, true_and]
      rw [← known_none]
      constructor
      · rintro ⟨j, -, ⟨l, w⟩, hx, ⟨rfl, rfl⟩, rfl⟩; exact hx
      · intro hx; exact ⟨i, mem_eight i, (p, none), hx, ⟨rfl, rfl⟩, rfl⟩

theorem cell_iff {t : Tree} (ht : t.WF) (c : Path × Option ℝ) : c ∈ known t.thr t.root ↔ Cell t c := by
  obtain ⟨p, v | v⟩ := c
  · simp [Cell, known_none]
  · simp [Cell, known_some ht.consistent]

theorem nodup_kids {α : Type*} {f : Fin 8 → List α} {g : Fin 8 → α → Path} {h : Fin 8 → α → Path × Option ℝ} (hf : ∀ i, (f i).Nodup)
    (hg : ∀ i x, (h i x).1 = i :: g i x) (hi : ∀ i, Function.Injective (h i)) : (eight.flatMap fun i => (f i).map (h i)).Nodup := by
  rw [List.nodup_flatMap]
  refine ⟨fun i _ => (hf i).map (hi i), ?_⟩
  refine (List.nodup_finRange 8).imp ?_
  intro i j hij x hx hy
  obtain ⟨a, -, rfl⟩ := List.mem_map.1 hx
  obtain ⟨b, -, e⟩ := List.mem_map.1 hy
  have := congrArg Prod.fst e
  rw [hg, hg, List.cons.injEq] at this
  exact hij this.1.symm

theorem known_nodup (thr : Thresholds) : ∀ n : Node, (known thr n).Nodup
  | .null => by simp [known]
  | .leaf u => by rw [known]; split_ifs <;> simp
  | .inner u c => by
    rw [known]
    split_ifs with h
    · simp
    · refine nodup_kids (g := fun _ x => x.1) (fun i => known_nodup thr (c i)) (fun _ _ => rfl) fun i a b e => ?_
      simp only [Prod.mk.injEq, List.cons.injEq, true_and] at e
      exact Prod.ext e.1 e.2

theorem occupied_iff {thr : Thresholds} : ∀ {n : Node} {p : Path}, n.Consistent →
    (p ∈ occupied thr n ↔ ∃ v, n.leafAt p = some v ∧ thr.isOccupied v)
  | .null, p, _ => by simp [occupied, Node.leafAt]
  | .leaf u, p, _ => by
    by_cases h : thr.isOccupied u
    · simp [occupied, h, Node.leafAt_leaf]
    · simp only [occupied, if_neg h, Node.leafAt_leaf]
      simp only [List.not_mem_nil, false_iff]
      rintro ⟨v, ⟨-, rfl⟩, k⟩; exact h k
  | .inner u c, p, hn => by
    by_cases h : thr.isOccupied u
    · rw [occupied, if_pos h]
      simp only [List.mem_flatMap, List.mem_map, Node.leafAt_inner]
      constructor
      · rintro ⟨i, -, l, hl, rfl⟩
        obtain ⟨v, k1, k2⟩ := (occupied_iff (hn i).1).1 hl
        exact ⟨v, ⟨i, l, rfl, k1⟩, k2⟩
      · rintro ⟨v, ⟨i, l, rfl, k1⟩, k2⟩
        exact ⟨i, mem_eight i, l, (occupied_iff (hn i).1).2 ⟨v, k1, k2⟩, rfl⟩
    · rw [occupied, if_neg h]
      simp only [List.not_mem_nil, false_iff]
      rintro ⟨v, hl, k⟩
      exact h (le_trans k (Node.leafAt_le hn hl rfl))

/-! ### The two versions -/

theorem probability_pos (v : ℝ) : 0 < probability v := by
  have := Real.exp_pos v
  rw [probability, sub_pos, div_lt_one (by linarith)]
  linarith

theorem probability_lt (v : ℝ) : probability v < 1 := by
  have := Real.exp_pos v
  have h : 0 < 1 / (1 + Real.exp v) := by positivity
  rw [probability]; linarith

theorem probability_le {u v : ℝ} : probability u ≤ probability v ↔ u ≤ v := by
  have hu := Real.exp_pos u
  have hv := Real.exp_pos v
  rw [probability, probability, sub_le_sub_iff_left, one_div_le_one_div (by linarith) (by linarith), add_le_add_iff_left, Real.exp_le_exp]

variable {O : Type*} [DecidableEq O] {ident : M3 ℝ → Bool} {bigger : AABB ℝ → AABB ℝ → Bool} {free : O → Bool} {q : OctObj}

/-- What is asked of the query: a rigid pose, a usable octree, and a test of the identity that is right. -/
structure Query (ident : M3 ℝ → Bool) (q : OctObj) : Prop where
  rigid : q.X.Rigid
  tree : q.tree.WF
  ident : ident q.X.R = true → q.X.R = M3.one

theorem side_tf (h : Query ident q) : (side ident bigger free q).tf = q.X := by
  unfold side
  split_ifs with k
  · show (⟨M3.one, q.X.t⟩ : Pose ℝ) = q.X
    rw [← h.ident k]
  · rfl

theorem side_thr : (side ident bigger free q).thr = q.tree.thr := by unfold side; split_ifs <;> rfl
theorem side_free : (side ident bigger free q).free = free := by unfold side; split_ifs <;> rfl

/-- The box and the placed cell have a common point. -/
def Share (X : Pose ℝ) (a b : AABB ℝ) : Prop := ∃ p, p ∈ a.pts ∧ p ∈ PlacedAt X b.pts

theorem mem_translate {b : AABB ℝ} {t p : V3 ℝ} : p ∈ (b.translate t).pts ↔ p ∈ PlacedAt ⟨M3.one, t⟩ b.pts := by
  rw [placedAt_iff]
  constructor
  · rintro ⟨⟨h1, h2⟩, ⟨h3, h4⟩, h5, h6⟩
    simp only [AABB.translate, V3.add_x, V3.add_y, V3.add_z] at h1 h2 h3 h4 h5 h6
    refine ⟨p - t, ⟨⟨?_, ?_⟩, ⟨?_, ?_⟩, ?_, ?_⟩, ?_⟩
    all_goals first | (simp only [V3.sub_x, V3.sub_y, V3.sub_z]; linarith) | skip
    rw [Pose.apply, M3.one_mulVec]; v3
  · rintro ⟨y, ⟨⟨h1, h2⟩, ⟨h3, h4⟩, h5, h6⟩, rfl⟩
    rw [Pose.apply, M3.one_mulVec]
    refine ⟨⟨?_, ?_⟩, ⟨?_, ?_⟩, ?_, ?_⟩ <;> simp only [AABB.translate, V3.add_x, V3.add_y, V3.add_z] <;> linarith

theorem overlap_of_common {a b : AABB ℝ} {p : V3 ℝ} (ha : p ∈ a.pts) (hb : p ∈ b.pts) : a.overlap b = true := by
  rw [AABB.overlap_iff]
  obtain ⟨⟨h1, h2⟩, ⟨h3, h4⟩, h5, h6⟩ := ha
  obtain ⟨⟨k1, k2⟩, ⟨k3, k4⟩, k5, k6⟩ := hb
  exact ⟨⟨by linarith, by linarith⟩, ⟨by linarith, by linarith⟩, by linarith, by linarith⟩

theorem placed_id (S : Set (V3 ℝ)) : PlacedAt Pose.id S = S := by
  ext p; rw [placedAt_iff]
  exact ⟨fun ⟨y, h, e⟩ => by rw [e, Pose.id_apply]; exact h, fun h => ⟨p, h, by rw [Pose.id_apply]⟩⟩

theorem side_sure (h : Query ident q) : Sure (side ident bigger free q) (Share q.X) where
  overlap := by
    rintro a b ⟨p, hp, hq⟩
    unfold side
    split_ifs with k
    · have e : q.X = ⟨M3.one, q.X.t⟩ := by rw [← h.ident k]
      rw [e] at hq
      exact overlap_of_common hp (mem_translate.2 hq)
    · refine OBB.C45_overlap (p := p) (C90_aabb_obb Pose.id_rigid a).1 (C90_aabb_obb h.rigid b).1 ?_ ?_
      · rw [(C90_aabb_obb Pose.id_rigid a).2, placed_id]; exact hp
      · rw [(C90_aabb_obb h.rigid b).2]; exact hq
  left := fun k ⟨p, hp, hq⟩ => ⟨p, contain_pts k hp, hq⟩
  right := fun {a b} i hb ⟨p, hp, hq⟩ => ⟨p, hp, placed_mono (cellOf_sub hb.valid [i]) hq⟩

theorem side_around (h : Query ident q) : Around (side ident bigger free q) := by
  intro b
  unfold side
  split_ifs with k
  · intro p hp; exact mem_translate.2 hp
  · exact C90_aabb_aabb h.rigid b

theorem sized_aabb {a : AABB ℝ} (h : a.Valid) (X : Pose ℝ) : (aabbOBB a X).Sized := by
  obtain ⟨h1, h2, h3⟩ := h
  refine ⟨?_, ?_, ?_⟩ <;> simp [aabbOBB] <;> linarith

theorem side_meets (h : Query ident q) {a : AABB ℝ} (ha : a.Valid) {p : Path}
    (ho : (side ident bigger free q).overlap a (cellOf q.tree.bv p) = true) : Meets q a p := by
  have hb : (cellOf q.tree.bv p).Valid := (h.tree.fat.cell).valid
  unfold side at ho
  split_ifs at ho with k
  · left
    have e : q.X = ⟨M3.one, q.X.t⟩ := by rw [← h.ident k]
    have hv : ((cellOf q.tree.bv p).translate q.X.t).Valid := by
      obtain ⟨h1, h2, h3⟩ := hb
      refine ⟨?_, ?_, ?_⟩ <;> simp [AABB.translate] <;> assumption
    obtain ⟨x, hx, hy⟩ := (C01_overlap_iff_common_point _ _ ha hv).1 ho
    refine ⟨x, ?_, ?_⟩
    · rw [(C90_aabb_obb Pose.id_rigid a).2, placed_id]; exact hx
    · rw [(C90_aabb_obb h.rigid _).2, e]; exact mem_translate.1 hy
  · exact OBB.C102_near (C90_aabb_obb Pose.id_rigid a).1 (C90_aabb_obb h.rigid _).1 (sized_aabb ha _) (sized_aabb hb _) ho

/-- The object made for a cell. -/
noncomputable def made (e : Side O) (b : AABB ℝ) (c : Path × Option ℝ) : CellObj :=
  match c.2 with | some v => e.cellObj (cellOf b c.1) v | none => e.unknownObj (cellOf b c.1)

theorem made_represents (h : Query ident q) (c : Path × Option ℝ) : Represents q c (made (side ident bigger free q) q.tree.bv c) := by
  obtain ⟨p, v | v⟩ := c
  · refine ⟨?_, fun v k => absurd k (by simp), fun _ h0 h1 => ?_⟩
    · simp only [made, Side.unknownObj, side_tf h]
      exact C90_box_aabb_at _ _
    · have : 0 < (side ident bigger free q).unknown ∧ (side ident bigger free q).unknown < 1 := by
        unfold side
        split_ifs
        · exact ⟨probability_pos _, probability_lt _⟩
        · exact ⟨h0, h1⟩
      exact ⟨not_le.2 this.2, not_le.2 this.1⟩
  · refine ⟨?_, fun w k => ?_, fun k => absurd k (by simp)⟩
    · simp only [made, Side.cellObj, side_tf h]
      exact C90_box_aabb_at _ _
    · simp only [Option.some.injEq] at k
      subst k
      simp only [made, Side.cellObj, CellObj.Occupied, CellObj.Free, side_thr]
      exact ⟨probability_le, not_le.2 (probability_pos _)⟩

/-! ### C103 -/

open Mgr in
/-- C103, collision: in every reachable state of the manager, a query with an octree calls the callback for pairs of a
registered object that is not free and a cell of the octree that is not known to be free, each pair at most once, until the
callback says stop. The pairs are the same for all callbacks. Among them are all with a common point of the known box of the
object and the cell, and in each of them the two meet up to the tolerance. The object given for a cell represents it. -/
theorem C103_collide.{v} {cs : List (MgrCall ℝ O)} {r : Reg ℝ O} (h : History cs [] r) (hv : ∀ e ∈ r, e.2.Valid) (hq : Query ident q) :
    ∃ m, (Mgr.empty : Mgr ℝ O).run cs = some m ∧ ∃ (calls : List ((O × AABB ℝ) × (Path × Option ℝ))) (g : Path × Option ℝ → CellObj),
      calls.Nodup ∧
      (∀ x ∈ calls, x.1 ∈ r ∧ free x.1.1 = false ∧ Cell q.tree x.2 ∧ Meets q x.1.2 x.2.1) ∧
      (∀ o ∈ r, free o.1 = false → ∀ c, Cell q.tree c → (∃ p, p ∈ o.2.pts ∧ p ∈ q.tree.cellAt q.X c.1) → (o, c) ∈ calls) ∧
      (∀ c, Represents q c (g c)) ∧
      ∀ (σ : Type v) (cb : CB σ (Item O)) (s : σ), collideOct ident bigger free cb q m s =
        some (runUntil cb s (calls.map fun x => (.inl x.1.1, .inr (g x.2)))).1 := by
  obtain ⟨m, h1, h2⟩ := inv_empty.run h
  refine ⟨m, h1, ?_⟩
  have hp := h2.perm
  have hn := h2.n
  have he := h2.enc
  unfold collideOct
  cases hr : m.root with
  | none =>
    rw [hr] at hp hn
    have : r = [] := hp.symm.eq_nil
    subst this
    exact ⟨[], made (side ident bigger free q) q.tree.bv, by simp, by simp, by simp, made_represents hq, fun σ cb s => by simp [hn, oleaves]⟩
  | some t =>
    rw [hr] at hp hn he
    obtain ⟨ps, p1, p2, p3, p4⟩ := collideRec_calls.{v} (side_sure (bigger := bigger) (free := free) hq) q.tree.root hq.tree.fat t he
    have hsub : ∀ x ∈ ps, x.1 ∈ t.leaves ∧ free x.1.2.2 = false ∧ Cell q.tree x.2 := by
      intro x hx
      obtain ⟨k1, k2⟩ := List.mem_product.1 (p1.subset hx)
      obtain ⟨k3, k4⟩ := List.mem_filter.1 k1
      rw [side_free] at k4
      rw [side_thr] at k2
      exact ⟨k3, by simpa using k4, (cell_iff hq.tree _).1 k2⟩
    have hmem : ∀ x ∈ t.leaves, entry x ∈ r := fun x hx => hp.mem_iff.1 (List.mem_map.2 ⟨x, hx, rfl⟩)
    have hnd : (t.leaves.map fun x => x.2.2).Nodup := by
      have := (hp.map Prod.fst).nodup_iff.2 h2.nodup
      rw [List.map_map] at this
      exact this
    refine ⟨ps.map fun x => (entry x.1, x.2), made (side ident bigger free q) q.tree.bv, ?_, ?_, ?_, made_represents hq, ?_⟩
    · have hl : t.leaves.Nodup := hnd.of_map _
      have hN : ps.Nodup := by
        obtain ⟨l, l1, l2⟩ := p1
        exact l1.nodup_iff.1 (l2.nodup ((hl.filter _).product (known_nodup _ _)))
      refine List.Nodup.map_on (fun x hx y hy e => ?_) hN
      obtain ⟨e1, e2⟩ := Prod.mk.injEq .. ▸ e
      refine Prod.ext ?_ e2
      exact List.inj_on_of_nodup_map hnd (hsub x hx).1 (hsub y hy).1 (congrArg Prod.fst e1)
    · intro x hx
      obtain ⟨y, hy, rfl⟩ := List.mem_map.1 hx
      obtain ⟨k1, k2, k3⟩ := hsub y hy
      exact ⟨hmem _ k1, k2, k3, side_meets hq (hv _ (hmem _ k1)) (p2 y hy)⟩
    · intro o ho hf c hc hs
      obtain ⟨x, hx, rfl⟩ := List.mem_map.1 (hp.mem_iff.2 ho)
      refine List.mem_map.2 ⟨(x, c), p3 _ (List.mem_product.2 ⟨List.mem_filter.2 ⟨hx, ?_⟩, ?_⟩) hs, rfl⟩
      · rw [side_free]
        have hf : free x.2.2 = false := hf
        simp [hf]
      · rw [side_thr]; exact (cell_iff hq.tree c).2 hc
    · intro σ cb s
      have : m.n ≠ 0 := by rw [hn]; simp [oleaves, leaves_ne_nil]
      have p4 : collideRec (side ident bigger free q) cb q.tree.root q.tree.bv t s = _ := p4 σ cb s
      rw [if_neg this, Option.map_some, p4, List.map_map]
      rfl

/-- The object a distance query makes for a cell. -/
noncomputable def cellBox (q : OctObj) (p : Path) : CellObj := ⟨ConstructBox.aabbAt (cellOf q.tree.bv p) q.X, 1, 1⟩

theorem cellBox_pts (q : OctObj) (p : Path) : BoxPts (cellBox q p).box = q.tree.cellAt q.X p ∧ (cellBox q p).Occupied ∧ ¬ (cellBox q p).Free :=
  ⟨C90_box_aabb_at _ _, le_refl (1 : ℝ), by simp [cellBox, CellObj.Free]⟩

open Mgr in
/-- C103, distance: in every reachable state of the manager, for a callback that keeps the minimum of `d`, the final bound is
the least distance of a registered object and an occupied cell of the octree, or the initial bound if there is none that is
smaller. The distance of an object and a cell has to be at least that of a point of the known box and a point of the cell. -/
theorem C103_distance {σ : Type*} {cs : List (MgrCall ℝ O)} {r : Reg ℝ O} (h : History cs [] r) (hq : Query ident q) (hroot : q.tree.root.here = true)
    (big : ℝ) (d : Item O → Item O → ℝ) (hd : ∀ e ∈ r, ∀ p, q.tree.Occupied p → ∃ x ∈ e.2.pts, ∃ y ∈ q.tree.cellAt q.X p, x.dist y ≤ d (.inl e.1) (.inr (cellBox q p)))
    (cb : DCB σ ℝ (Item O)) (P : σ → ℝ → Prop)
    (hcb : Minimizes cb P d fun a b => ∃ e ∈ r, ∃ p, q.tree.Occupied p ∧ a = .inl e.1 ∧ b = .inr (cellBox q p)) (s : σ) (hP : P s big) :
    ∃ m, (Mgr.empty : Mgr ℝ O).run cs = some m ∧ ∃ res, distanceOct ident bigger free big cb q m s = some res ∧ P res.1 res.2.1 ∧
      (∀ e ∈ r, ∀ p, q.tree.Occupied p → res.2.1 ≤ d (.inl e.1) (.inr (cellBox q p))) ∧ res.2.1 ≤ big ∧
      (res.2.1 = big ∨ ∃ e ∈ r, ∃ p, q.tree.Occupied p ∧ res.2.1 = d (.inl e.1) (.inr (cellBox q p))) := by
  obtain ⟨m, h1, h2⟩ := inv_empty.run h
  refine ⟨m, h1, ?_⟩
  have hp := h2.perm
  have hn := h2.n
  have he := h2.enc
  unfold distanceOct
  cases hr : m.root with
  | none =>
    rw [hr] at hp hn
    have : r = [] := hp.symm.eq_nil
    subst this
    exact ⟨(s, big, false), by simp [hn, oleaves], hP, by simp, le_rfl, Or.inl rfl⟩
  | some t =>
    rw [hr] at hp hn he
    have hsz : m.n ≠ 0 := by rw [hn]; simp [oleaves, leaves_ne_nil]
    have hmem : ∀ x ∈ t.leaves, entry x ∈ r := fun x hx => hp.mem_iff.1 (List.mem_map.2 ⟨x, hx, rfl⟩)
    have hocc : ∀ p, p ∈ occupied q.tree.thr q.tree.root ↔ q.tree.Occupied p := fun p => occupied_iff hq.tree.consistent
    have hit : ∀ x : (ℕ × AABB ℝ × O) × Path, ditems (side ident bigger free q) q.tree.bv x = (.inl x.1.2.2, .inr (cellBox q x.2)) := by
      intro x; simp only [ditems, Side.distObj, side_tf hq, cellBox]
    have hni : cb.NonInc P := fun s md k a b => by
      obtain ⟨k0, k1, -⟩ := hcb s md k a b
      exact ⟨k0, by rw [k1]; exact min_le_left _ _⟩
    have hcov := distRec_covers (side_around (bigger := bigger) (free := free) hq) hni q.tree.root (lb := fun x => d (.inl x.1.2.2) (.inr (cellBox q x.2))) hq.tree.fat t he (by
      intro x hx
      obtain ⟨k1, k2⟩ := List.mem_product.1 hx
      rw [side_thr] at k2
      obtain ⟨a, ha, b, hb, hab⟩ := hd _ (hmem _ k1) x.2 ((hocc _).1 k2)
      exact ⟨a, ha, b, by rw [side_tf hq]; exact hb, hab⟩)
    rw [side_thr] at hcov
    have htr : cb.Tracks P d ((t.leaves.product (occupied q.tree.thr q.tree.root)).map (ditems (side ident bigger free q) q.tree.bv)) := by
      intro s md k a b
      obtain ⟨k0, k1, k2⟩ := hcb s md k a b
      refine ⟨k0, k1, fun hs p hp' => ?_⟩
      obtain ⟨x, hx, rfl⟩ := List.mem_map.1 hp'
      obtain ⟨x1, x2⟩ := List.mem_product.1 hx
      rw [hit]
      exact k2 hs _ _ ⟨_, hmem _ x1, x.2, (hocc _).1 x2, rfl, rfl⟩
    have hmin := hcov.minimum htr (by intro x _; rw [hit]) hP
    refine ⟨_, by rw [if_neg hsz, if_pos hroot, Option.map_some], hcov.inv hni hP, ?_, ?_, ?_⟩
    · intro e he' p hpo
      obtain ⟨x, hx, rfl⟩ := List.mem_map.1 (hp.mem_iff.2 he')
      rw [hmin]
      have := minDist_le d big ((t.leaves.product (occupied q.tree.thr q.tree.root)).map (ditems (side ident bigger free q) q.tree.bv)) (ditems (side ident bigger free q) q.tree.bv (x, p))
        (List.mem_map.2 ⟨_, List.mem_product.2 ⟨hx, (hocc p).2 hpo⟩, rfl⟩)
      rw [hit] at this
      exact this
    · rw [hmin]; exact minDist_le_big _ _ _
    · rw [hmin]
      rcases minDist_mem d big ((t.leaves.product (occupied q.tree.thr q.tree.root)).map (ditems (side ident bigger free q) q.tree.bv)) with k | ⟨y, hy, k⟩
      · exact Or.inl k
      · obtain ⟨x, hx, rfl⟩ := List.mem_map.1 hy
        obtain ⟨x1, x2⟩ := List.mem_product.1 hx
        rw [hit] at k
        exact Or.inr ⟨_, hmem _ x1, x.2, (hocc _).1 x2, k⟩

open Mgr in
/-- C103: a distance query with an octree that has no nodes yet dereferences a null pointer, in every reachable state with an
object. (A collision query with it calls the callback: `C103_collide`.) -/
theorem C103_violated_empty_octree {σ : Type*} {cs : List (MgrCall ℝ O)} {r : Reg ℝ O} (h : History cs [] r) (hr : r ≠ []) (hroot : q.tree.root = .null)
    (big : ℝ) (cb : DCB σ ℝ (Item O)) (s : σ) : ∃ m, (Mgr.empty : Mgr ℝ O).run cs = some m ∧ distanceOct ident bigger free big cb q m s = none := by
  obtain ⟨m, h1, h2⟩ := inv_empty.run h
  refine ⟨m, h1, ?_⟩
  have hn := h2.n
  have hp := h2.perm
  unfold distanceOct
  have : m.n ≠ 0 := by
    rw [hn]
    intro k
    rw [List.length_eq_zero_iff.1 k] at hp
    exact hr hp.symm.eq_nil
  rw [if_neg this, hroot]
  rfl

/-! ### An instance -/

namespace Example

/-- Two objects: the unit cube at the origin and a cube far away. -/
noncomputable def box (n : ℕ) : AABB ℝ := ⟨⟨10 * n, 0, 0⟩, ⟨10 * n + 1, 1, 1⟩⟩

/-- Some choice of heuristics. -/
noncomputable def cfg : Cfg ℝ ℕ where
  select _ _ _ := true
  bigger _ _ := true
  eqv _ _ := false
  sizeLt _ _ := true
  sizeOk _ := true
  bestAxis _ := 0
  nth _ _ l := l
  below _ _ := true
  code _ _ := 0
  sortM _ l := l
  buThreshold := 2
  topdownLevel := 0
  initLevel := 0
  incPass := 10
  nearlyBalanced _ _ := true
  junk := box 0

theorem history : History [⟨.register 0, box, cfg⟩, ⟨.register 1, box, cfg⟩] [] [(1, box 1), (0, box 0)] := by
  have hl : cfg.Lawful := ⟨fun _ _ _ => List.Perm.refl _, fun _ _ => List.Perm.refl _, fun _ => rfl, by decide⟩
  refine .cons (show (0 : ℕ) ∉ _ by simp) hl (.cons (show (1 : ℕ) ∉ _ by simp [Reg.step]) hl (.nil _))

/-- An octree of two levels with cells of side 2, of which that with the lowest coordinates and that with the highest are
leaves; only the latter is occupied. It stands turned by a quarter around the x axis. -/
noncomputable def oct : OctObj :=
  ⟨⟨.inner 1 fun i => if i = 7 then .leaf 1 else if i = 0 then .leaf (-1) else .null, 1, 2, ⟨1 / 2, -1 / 2⟩⟩, ⟨⟨⟨1, 0, 0⟩, ⟨0, 0, -1⟩, ⟨0, 1, 0⟩⟩, ⟨0, 1, 0⟩⟩, 1 / 2⟩

theorem query : Query (fun _ => false) oct := by
  refine ⟨?_, ⟨?_, by norm_num [oct]⟩, by simp⟩
  · refine M3.orthonormal_of_rows ?_
    norm_num [oct, V3.dot, M3.mul, M3.tr, M3.col, M3.one, V3.get]
  · intro i
    show (if i = 7 then Node.leaf 1 else if i = 0 then Node.leaf (-1) else Node.null).Consistent ∧ ∀ w, (if i = 7 then Node.leaf 1 else if i = 0 then Node.leaf (-1) else Node.null).logOdds = some w → w ≤ 1
    split_ifs <;> simp [Node.Consistent, Node.logOdds]

/-- The unit cube and the occupied cell touch, so the callback is called for them. -/
example : (0, box 0) ∈ [(1, box 1), (0, box 0)] ∧ Cell oct.tree ([7], some 1) ∧ oct.tree.Occupied [7] ∧
    ∃ p, p ∈ (box 0).pts ∧ p ∈ oct.tree.cellAt oct.X [7] := by
  refine ⟨by simp, Or.inl ⟨1, rfl, rfl, ?_⟩, ⟨1, rfl, ?_⟩, ⟨1 / 2, 1 / 2, 1 / 2⟩, ?_, ?_⟩
  · norm_num [oct, Thresholds.isFree]
  · norm_num [oct, Thresholds.isOccupied]
  · norm_num [box, AABB.pts]
  · refine placedAt_iff.2 ⟨⟨1 / 2, 1 / 2, 1 / 2⟩, ?_, ?_⟩
    · norm_num [oct, Tree.bv, rootBV, cell, childBV, half, AABB.pts, show Nat.testBit 7 1 = true from rfl, show Nat.testBit 7 2 = true from rfl]
    · apply V3.ext' <;> norm_num [oct, Pose.apply, M3.mulVec, V3.dot]

/-- And one of the cells the octree does not know is not known to be free. -/
example : Cell oct.tree ([3], none) := Or.inr ⟨rfl, by
  refine ⟨by norm_num [oct, Thresholds.isFree], ?_⟩
  exact trivial⟩

end Example

end OctMgr
end Fcl
