import Verif.Motion.TriCcdLeaf
import Verif.Motion.ContinuousSpec
import Verif.Motion.Lemmas
import Verif.Props.TriTest

/-!
# C113: continuous collision of meshes with the polynomial solver
-/

namespace Fcl
namespace TriCcd
open V3

/-! ### The elementary tests on features that deform -/

/-- **C113.** The search for a time always ends within twenty-five levels, for every polynomial and every check. -/
theorem C113_ends {X : Type*} (valid : ℝ → Option X) (p : Cubic ℝ) : newton valid p 25 0 1 ≠ none := solve_ends valid p

/-- **C113.** The coefficients are those of the volume spanned by the triangle and the vertex at time `t`, and by the two edges. -/
theorem C113_coefficients (s0 s1 : Tri ℝ) (p0 p1 a0 b0 c0 d0 a1 b1 c1 d1 : V3 ℝ) (t : ℝ) :
    (coeffVF s0 ⟨s1.a - s0.a, s1.b - s0.b, s1.c - s0.c⟩ p0 (p1 - p0)).eval t =
      (along p0 p1 t - (during s0 s1 t).a).dot (((during s0 s1 t).b - (during s0 s1 t).a).cross ((during s0 s1 t).c - (during s0 s1 t).a)) ∧
    (coeffEE a0 b0 c0 d0 (a1 - a0) (b1 - b0) (c1 - c0) (d1 - d0)).eval t =
      (along c0 c1 t - along a0 a1 t).dot ((along b0 b1 t - along a0 a1 t).cross (along d0 d1 t - along c0 c1 t)) :=
  ⟨coeffVF_eval _ _ _ _ _, coeffEE_eval _ _ _ _ _ _ _ _ _⟩

/-- **C113.** If the test of a vertex against a triangle finds nothing although the volume is not negligible, then at no time at which the
vertex is in the plane of the triangle does it stay over the triangle for a ten-millionth of the motion. -/
theorem C113_vertex_no {s0 s1 : Tri ℝ} {p0 p1 : V3 ℝ} (h : intersectVF s0 p0 s1 p1 = none)
    (hz : allZero (coeffVF s0 ⟨s1.a - s0.a, s1.b - s0.b, s1.c - s0.c⟩ p0 (p1 - p0)) = false) {t : ℝ} (h0 : 0 ≤ t) (h1 : t ≤ 1)
    (hp : (along p0 p1 t - (during s0 s1 t).a).dot (during s0 s1 t).nor = 0) :
    ∃ s, t ≤ s ∧ s ≤ 1 ∧ s - t < 1 / 10 ^ 7 ∧ ¬Over (during s0 s1 s) (along p0 p1 s) := by
  unfold intersectVF at h
  simp only [hz, Bool.false_eq_true, if_false] at h
  have hn := finish_none (fun l r x hs => (solve_some hs).2.imp_right fun h => h.1) h
  have hev : (coeffVF s0 ⟨s1.a - s0.a, s1.b - s0.b, s1.c - s0.c⟩ p0 (p1 - p0)).eval t = 0 := by
    rw [coeffVF_eval]
    have e : (during s0 s1 t).nor = ((during s0 s1 t).b - (during s0 s1 t).a).cross ((during s0 s1 t).c - (during s0 s1 t).a) := by
      simp only [Tri.nor, Tri.e1, Tri.e2, cross]; v3
    rw [e] at hp
    exact hp
  obtain ⟨s, a1, a2, a3, a4⟩ := solve_none hn h0 h1 hev
  refine ⟨s, a1, a2, by unfold resolution at a3; norm_num at a3 ⊢; exact a3, fun ho => ?_⟩
  have hi := inside_of_over ho
  simp only [during, along] at hi
  unfold validVF at a4
  rw [if_pos hi] at a4
  simp at a4

/-- **C113.** The same for two edges, which have to be longer than the tolerance and not nearly parallel around that time. -/
theorem C113_edge_no {a0 b0 c0 d0 a1 b1 c1 d1 : V3 ℝ} (h : intersectEE a0 b0 c0 d0 a1 b1 c1 d1 = none)
    (hz : allZero (coeffEE a0 b0 c0 d0 (a1 - a0) (b1 - b0) (c1 - c0) (d1 - d0)) = false) {t : ℝ} (h0 : 0 ≤ t) (h1 : t ≤ 1)
    (hp : (along c0 c1 t - along a0 a1 t).dot ((along b0 b1 t - along a0 a1 t).cross (along d0 d1 t - along c0 c1 t)) = 0)
    (hl : ∀ s, t ≤ s → s ≤ 1 → tiny (along b0 b1 s - along a0 a1 s) = false ∧ tiny (along d0 d1 s - along c0 c1 s) = false ∧
      1 / 100000 ≤ ((along b0 b1 s - along a0 a1 s).cross (along d0 d1 s - along c0 c1 s)).dot
        ((along b0 b1 s - along a0 a1 s).cross (along d0 d1 s - along c0 c1 s))) :
    ∃ s, t ≤ s ∧ s ≤ 1 ∧ s - t < 1 / 10 ^ 7 ∧ ¬Facing (along a0 a1 s, along b0 b1 s) (along c0 c1 s, along d0 d1 s) := by
  unfold intersectEE at h
  simp only [hz, Bool.false_eq_true, if_false] at h
  have hn := finish_none (fun l r x hs => (solve_some hs).2.imp_right fun h => h.1) h
  have hev : (coeffEE a0 b0 c0 d0 (a1 - a0) (b1 - b0) (c1 - c0) (d1 - d0)).eval t = 0 := by
    rw [coeffEE_eval]
    exact hp
  obtain ⟨s, k1, k2, k3, k4⟩ := solve_none hn h0 h1 hev
  refine ⟨s, k1, k2, by unfold resolution at k3; norm_num at k3 ⊢; exact k3, fun ho => ?_⟩
  obtain ⟨l1, l2, l3⟩ := hl s k1 k2
  unfold validEE at k4
  exact lineLine_facing ho l1 l2 l3 (Option.map_eq_none_iff.1 k4)

/-- **C113.** If the test of a vertex against a triangle finds something, it is at a time of the motion, where the vertex is then, and
within a ten-millionth of the motion from a time at which the vertex is over the triangle up to the tolerance. -/
theorem C113_vertex_yes {s0 s1 : Tri ℝ} {p0 p1 x : V3 ℝ} {t : ℝ} (h : intersectVF s0 p0 s1 p1 = some (t, x)) :
    0 ≤ t ∧ t ≤ 1 ∧ x = along p0 p1 t ∧ ∃ s, t ≤ s ∧ s ≤ 1 ∧ s - t < 1 / 10 ^ 7 ∧
      insideTriangle (during s0 s1 s).a (during s0 s1 s).b (during s0 s1 s).c (along p0 p1 s) = true := by
  unfold intersectVF at h
  simp only at h
  split_ifs at h with hz
  obtain ⟨l, r, y, hs, ht, hx⟩ := finish_some h
  obtain ⟨a1, a2, a3, a4, a5⟩ := solve_some hs
  have a4' : r - l < 1 / 10 ^ 7 := by unfold resolution at a4; norm_num at a4 ⊢; exact a4
  refine ⟨by linarith, by linarith, by rw [hx]; unfold along; v3, r, by linarith, a3, by linarith, ?_⟩
  unfold validVF at a5
  split_ifs at a5 with hi
  exact hi

/-! ### Two triangles that move without turning -/

/-- Two triangles and a relative velocity that keep clear of the tolerances of the code and of the special positions it misses. -/
structure Clear (S T : Tri ℝ) (v : V3 ℝ) : Prop where
  area1 : S.nor ≠ 0
  area2 : T.nor ≠ 0
  /-- No edge is short. -/
  long : ∀ e ∈ sides S ++ sides T, 1 / 10 ^ 5 ≤ |(e.2 - e.1).x| ∨ 1 / 10 ^ 5 ≤ |(e.2 - e.1).y| ∨ 1 / 10 ^ 5 ≤ |(e.2 - e.1).z|
  /-- No edges are parallel. -/
  skew : ∀ e ∈ sides S, ∀ f ∈ sides T, 1 / 10 ^ 5 ≤ ((e.2 - e.1).cross (f.2 - f.1)).dot ((e.2 - e.1).cross (f.2 - f.1))
  /-- The motion is along the triangles and the planes of pairs of edges, or it leaves them fast enough. -/
  fast1 : S.nor.dot v = 0 ∨ 1 / 10 ^ 7 ≤ |S.nor.dot v|
  fast2 : T.nor.dot v = 0 ∨ 1 / 10 ^ 7 ≤ |T.nor.dot v|
  fast : ∀ e ∈ sides S, ∀ f ∈ sides T, ((e.2 - e.1).cross (f.2 - f.1)).dot v = 0 ∨ 1 / 10 ^ 7 ≤ |((e.2 - e.1).cross (f.2 - f.1)).dot v|
  /-- The triangles are not parallel, or they do not move in their planes. -/
  apart : S.nor.cross T.nor ≠ 0 ∨ S.nor.dot v ≠ 0

theorem not_tiny {v : V3 ℝ} (h : 1 / 10 ^ 5 ≤ |v.x| ∨ 1 / 10 ^ 5 ≤ |v.y| ∨ 1 / 10 ^ 5 ≤ |v.z|) : tiny v = false := by
  have e : (Tri.eps : ℝ) = 1 / 10 ^ 5 := by unfold Tri.eps; norm_num
  unfold tiny
  rw [e]
  simp only [Bool.and_eq_false_iff, decide_eq_false_iff_not, not_lt]
  tauto

theorem nearZero_eq : (nearZero : ℝ) = 1 / 10 ^ 7 := by unfold nearZero; norm_num

theorem eps_eq : (Tri.eps : ℝ) = 1 / 10 ^ 5 := by unfold Tri.eps; norm_num

theorem dot_swap (n u w : V3 ℝ) : |n.dot (w - u)| = |n.dot (u - w)| := by
  rw [← abs_neg]; congr 1; simp only [dot, sub_x, sub_y, sub_z]; ring

/-- **C113.** Two triangles that are apart at the start and touch at some time of the motion are found, at a time that is not later. -/
theorem C113_pair_found_partial {S T : Tri ℝ} {u w : V3 ℝ} (hc : Clear S T (u - w)) (h0 : ¬Touch S.pts T.pts) {t : ℝ} (t0 : 0 ≤ t) (t1 : t ≤ 1)
    (ht : Touch (S.moveBy (t • u)).pts (T.moveBy (t • w)).pts) :
    ∃ τ, leafTime S (S.moveBy u) T (T.moveBy w) = some τ ∧ τ ≤ t := by
  have hcr : ∀ e ∈ sides S, ∀ f ∈ sides T, (e.2 - e.1).cross (f.2 - f.1) ≠ 0 := by
    intro e he f hf h
    have := hc.skew e he f hf
    rw [h] at this
    norm_num [dot] at this
  obtain ⟨s, s0, st, hh⟩ := first_hit hc.area1 hc.area2 hcr hc.apart h0 t0 ht
  suffices ∃ x, some (s, x) ∈ tests S (S.moveBy u) T (T.moveBy w) by
    obtain ⟨x, hx⟩ := this
    obtain ⟨τ, e, hτ⟩ := leafTime_le hx (st.trans t1)
    exact ⟨τ, e, hτ.trans st⟩
  rcases hh with ⟨q', hq', hqS, hv⟩ | ⟨q', hq', hqT, hv⟩ | ⟨e', he', f', hf', z, z1, z2, hv⟩
  · rw [moveBy_verts] at hq'
    obtain ⟨q, hq, rfl⟩ := List.mem_map.1 hq'
    rw [moveBy_nor] at hv
    obtain ⟨x, hx⟩ := VF_hit (S := S) (u := u) (w := w) (q := q) s0 (st.trans t1)
      (by rw [dot_swap, nearZero_eq]; exact hc.fast1.resolve_left hv) hqS
    exact ⟨x, mem_tests.2 (.inl ⟨q, hq, hx.symm⟩)⟩
  · rw [moveBy_verts] at hq'
    obtain ⟨q, hq, rfl⟩ := List.mem_map.1 hq'
    rw [moveBy_nor] at hv
    obtain ⟨x, hx⟩ := VF_hit (S := T) (u := w) (w := u) (q := q) s0 (st.trans t1)
      (by rw [nearZero_eq]; exact hc.fast2.resolve_left hv) hqT
    exact ⟨x, mem_tests.2 (.inr (.inl ⟨q, hq, hx.symm⟩))⟩
  · rw [moveBy_sides] at he' hf'
    obtain ⟨e, he, rfl⟩ := List.mem_map.1 he'
    obtain ⟨f, hf, rfl⟩ := List.mem_map.1 hf'
    rw [diff_move, diff_move] at hv
    refine ⟨z, mem_tests.2 (.inr (.inr ⟨e, he, f, hf, ?_⟩))⟩
    rw [EE_hit s0 (st.trans t1) (by rw [dot_swap, nearZero_eq]; exact (hc.fast e he f hf).resolve_left hv)
      (not_tiny (hc.long e (List.mem_append_left _ he))) (not_tiny (hc.long f (List.mem_append_right _ hf)))
      (by rw [eps_eq]; exact hc.skew e he f hf) z1 z2]

/-- **C113.** If two triangles are reported, then at the time reported they are almost in contact: within `2 * 10⁻⁵ / ν * L`, where `ν` is the
square of twice the area and `L` the diameter. -/
theorem C113_pair_true {S T : Tri ℝ} {u w : V3 ℝ} {τ ν L : ℝ} (h : leafTime S (S.moveBy u) T (T.moveBy w) = some τ) (hν : 0 < ν)
    (n1 : ν ≤ S.nor.dot S.nor) (n2 : ν ≤ T.nor.dot T.nor) (d1 : ∀ x ∈ S.pts, ∀ y ∈ S.pts, x.dist y ≤ L)
    (d2 : ∀ x ∈ T.pts, ∀ y ∈ T.pts, x.dist y ≤ L) :
    0 ≤ τ ∧ τ ≤ 1 ∧ ∃ x ∈ (S.moveBy (τ • u)).pts, ∃ y ∈ (T.moveBy (τ • w)).pts, x.dist y ≤ 2 * (1 / 10 ^ 5 / ν) * L := by
  have hL0 : 0 ≤ L := (dist_nonneg _ _).trans (d1 S.a (Tri.vert_mem (by simp [Tri.verts])) S.a (Tri.vert_mem (by simp [Tri.verts])))
  have key : ∀ (S : Tri ℝ) (u w q x : V3 ℝ), ν ≤ S.nor.dot S.nor → (∀ x ∈ S.pts, ∀ y ∈ S.pts, x.dist y ≤ L) →
      intersectVF S q (S.moveBy u) (q + w) = some (τ, x) →
      0 ≤ τ ∧ τ ≤ 1 ∧ ∃ x ∈ (S.moveBy (τ • u)).pts, x.dist (q + τ • w) ≤ 2 * (1 / 10 ^ 5 / ν) * L := by
    intro S u w q x hn hd h
    obtain ⟨a0, a1, a2, a3, a4, -⟩ := VF_some h
    have hne : S.nor ≠ 0 := by
      intro h
      rw [h] at hn
      have : (0 : V3 ℝ).dot 0 = 0 := by simp [dot]
      linarith
    obtain ⟨y, y1, y2⟩ := near_of_inside (S := S.moveBy (τ • u)) (L := L) (by rwa [moveBy_nor]) (by rwa [moveBy_nor]) a4 (by
      intro x hx y hy
      have := hd _ (moveBy_pts.1 hx) _ (moveBy_pts.1 hy)
      have e : x - τ • u - (y - τ • u) = x - y := by v3
      rwa [dist_eq, e, ← dist_eq] at this)
    refine ⟨a0, a1, y, y1, y2.trans ?_⟩
    rw [moveBy_nor, eps_eq]
    have := div_le_div_of_nonneg_left (by norm_num : (0 : ℝ) ≤ 1 / 10 ^ 5) hν hn
    exact mul_le_mul_of_nonneg_right (by linarith) hL0
  rcases leafTime_cases h with ⟨q, hq, x, hx⟩ | ⟨q, hq, x, hx⟩ | ⟨e, he, f, hf, x, hx⟩
  · obtain ⟨a0, a1, y, hy, hd⟩ := key S u w q x n1 d1 hx
    refine ⟨a0, a1, y, hy, _, Tri.vert_mem ?_, hd⟩
    rw [moveBy_verts]
    exact List.mem_map_of_mem hq
  · obtain ⟨a0, a1, y, hy, hd⟩ := key T w u q x n2 d2 hx
    refine ⟨a0, a1, _, Tri.vert_mem ?_, y, hy, by rwa [dist_comm]⟩
    rw [moveBy_verts]
    exact List.mem_map_of_mem hq
  · obtain ⟨a0, a1, o1, o2⟩ := EE_some hx
    refine ⟨a0, a1, x, side_pts (S := S.moveBy (τ • u)) (by rw [moveBy_sides]; exact List.mem_map_of_mem he) o1,
      x, side_pts (S := T.moveBy (τ • w)) (by rw [moveBy_sides]; exact List.mem_map_of_mem hf) o2, ?_⟩
    rw [dist_self]
    positivity

/-! ### Meshes -/

/-- All the points of a mesh. -/
def surface (g : Geom ℝ) : Set (V3 ℝ) := {x | ∃ i < g.numPrims, x ∈ g.solid i}

section
variable {V : Type*} {g1 g2 : Geom ℝ}

theorem node_fold (overlap : V → V → Bool) (k : ℕ) (l : List (BT V ℕ × BT V ℕ)) (f : Found ℝ) :
    l.foldl (fun s p => (node overlap k g1 g2).leafTest s p.1 p.2) f = (l.filterMap leafIds).foldl (fun f p => leaf g1 g2 f p.1 p.2) f := by
  induction l generalizing f with
  | nil => rfl
  | cons p l ih =>
    obtain ⟨a, b⟩ := p
    cases a <;> cases b <;> simp only [List.foldl_cons, List.filterMap_cons, leafIds, node] <;> exact ih _

/-- The answer of the leaf test on a pair. -/
noncomputable def pairTime (g1 g2 : Geom ℝ) (i j : ℕ) : Option ℝ := leafTime (prevTri g1 i) (g1.tri i) (prevTri g2 j) (g2.tri j)

theorem fold_found (l : List (ℕ × ℕ)) (f : Found ℝ) (h1 : f.toc ≤ 1) :
    let f' := l.foldl (fun f p => leaf g1 g2 f p.1 p.2) f
    f'.toc ≤ 1 ∧ (f'.pairs = [] → f = f' ∧ ∀ p ∈ l, pairTime g1 g2 p.1 p.2 = none) ∧
    (f'.toc ≠ f.toc ∨ f.pairs = [] → f'.pairs ≠ [] → f.toc = 1 ∨ f'.toc ≠ f.toc → ∃ p ∈ l, pairTime g1 g2 p.1 p.2 = some f'.toc) := by
  induction l generalizing f with
  | nil => exact ⟨h1, fun _ => ⟨rfl, by simp⟩, fun a b c => by simp at a b c; exact absurd a b⟩
  | cons p l ih =>
    simp only [List.foldl_cons]
    rcases hp : pairTime g1 g2 p.1 p.2 with _ | t
    · have e : leaf g1 g2 f p.1 p.2 = f := by
        unfold leaf
        unfold pairTime at hp
        rw [hp]; rfl
      rw [e]
      obtain ⟨a, b, c⟩ := ih f h1
      refine ⟨a, fun h => ⟨(b h).1, ?_⟩, fun x y z => ?_⟩
      · intro q hq
        rcases List.mem_cons.1 hq with rfl | hq
        · exact hp
        · exact (b h).2 q hq
      · obtain ⟨q, hq, h⟩ := c x y z
        exact ⟨q, List.mem_cons_of_mem _ hq, h⟩
    · have e : leaf g1 g2 f p.1 p.2 = ⟨f.pairs ++ [(p.1, p.2, t)], min f.toc t⟩ := by
        unfold leaf
        unfold pairTime at hp
        rw [hp]; rfl
      rw [e]
      have ht : t ≤ 1 := (leafTime_some hp).1
      obtain ⟨a, b, c⟩ := ih ⟨f.pairs ++ [(p.1, p.2, t)], min f.toc t⟩ ((min_le_left _ _).trans h1)
      refine ⟨a, fun h => ?_, fun x y z => ?_⟩
      · have := congrArg Found.pairs (b h).1
        rw [h] at this
        simp at this
      · set f' := l.foldl (fun f p => leaf g1 g2 f p.1 p.2) ⟨f.pairs ++ [(p.1, p.2, t)], min f.toc t⟩ with hf'
        by_cases hne : f'.toc = min f.toc t
        · refine ⟨p, List.mem_cons_self .., ?_⟩
          rw [hp, hne]
          congr 1
          refine (min_eq_right ?_).symm
          rcases z with z | z
          · rw [z]; exact ht
          · rw [hne] at z
            by_contra hc
            exact z (min_eq_left (not_le.1 hc).le)
        · obtain ⟨q, hq, h⟩ := c (.inl hne) y (.inr hne)
          exact ⟨q, List.mem_cons_of_mem _ hq, h⟩

/-- The traversal: what is found is the time of a pair, and if nothing is found, then every pair that touches gives nothing. -/
theorem run {overlap : V → V → Bool} {t1 t2 : BT V ℕ} {m1 m2 : ℕ} {touch : ℕ → ℕ → Prop}
    (hov : ∀ u, BT.Below u t1 → ∀ v, BT.Below v t2 → ∀ i ∈ u.prims, ∀ j ∈ v.prims, touch i j → overlap u.bv v.bv = true)
    (p1 : t1.prims.Perm (List.range m1)) (p2 : t2.prims.Perm (List.range m2)) (larger : V → V → Bool) {fuel : ℕ}
    (hf : t1.depth + t2.depth < fuel) (k : ℕ) :
    ∃ f, collisionRecurse (node overlap k g1 g2) (Trav.bvh larger) fuel t1 t2 (.start, none) = some (f, none) ∧
      (f.pairs ≠ [] → ∃ i < m1, ∃ j < m2, pairTime g1 g2 i j = some f.toc) ∧
      (f.pairs = [] → ∀ i < m1, ∀ j < m2, touch i j → pairTime g1 g2 i j = none) := by
  obtain ⟨todo, pruned, hperm, -, hpr, hrun⟩ := C33_collisionRecurse (node overlap k g1 g2) (follows_bvh larger) (a := t1) (b := t2) trivial hf
  obtain ⟨done, rest, r, F', e, hdr, hr, hrest, -⟩ := hrun .start none
  have hFn := collisionRecurse_front_none (node overlap k g1 g2) (Trav.bvh larger) fuel t1 t2 .start e
  subst hFn
  rw [node_fold] at hr
  have hfold := fold_found (g1 := g1) (g2 := g2) (done.filterMap leafIds) .start le_rfl
  simp only [← hr] at hfold
  obtain ⟨-, hb, hc⟩ := hfold
  have hids : (todo.filterMap leafIds ++ pruned.filterMap leafIds).Perm (List.range m1 ×ˢ List.range m2) := by
    rw [← List.filterMap_append]
    refine (hperm.filterMap leafIds).trans ?_
    rw [leafIds_pairs]
    exact p1.product p2
  refine ⟨r, e, fun hne => ?_, fun hnil i hi j hj ht => ?_⟩
  · obtain ⟨c, hcm, h⟩ := hc (.inr rfl) hne (.inl rfl)
    have : c ∈ List.range m1 ×ˢ List.range m2 := by
      refine hids.mem_iff.1 (List.mem_append_left _ ?_)
      rw [← hdr, List.filterMap_append]
      exact List.mem_append_left _ hcm
    obtain ⟨ha, hb⟩ := List.pair_mem_product.1 this
    exact ⟨c.1, List.mem_range.1 ha, c.2, List.mem_range.1 hb, h⟩
  · have hrn : rest = [] := by
      by_contra hne
      have := (hrest hne).2
      simp [node, hnil] at this
    rw [hrn, List.append_nil] at hdr
    obtain ⟨bv1, hl1⟩ := leaf_of_prim (p1.mem_iff.2 (List.mem_range.2 hi))
    obtain ⟨bv2, hl2⟩ := leaf_of_prim (p2.mem_iff.2 (List.mem_range.2 hj))
    have hmem : ((BT.leaf bv1 i, BT.leaf bv2 j) : BT V ℕ × BT V ℕ) ∈ todo ++ pruned :=
      hperm.mem_iff.2 (List.pair_mem_product.2 ⟨hl1, hl2⟩)
    rcases List.mem_append.1 hmem with h | h
    · refine (hb hnil).2 (i, j) ?_
      rw [hdr]
      exact List.mem_filterMap.2 ⟨_, h, rfl⟩
    · exfalso
      obtain ⟨u, v, hu, hv, hp, hd⟩ := hpr _ h
      obtain ⟨ha, hb⟩ := List.pair_mem_product.1 hp
      obtain ⟨_, i', ei, hi', -⟩ := leaves_leaf u _ ha
      obtain ⟨_, j', ej, hj', -⟩ := leaves_leaf v _ hb
      cases ei; cases ej
      simp [node, hov u hu v hv i hi' j hj' ht] at hd

variable {g : Geom ℝ}

theorem moved_tri (w : g.WF) (m : g.isMesh = true) {i : ℕ} (hi : i < g.numPrims) (v : V3 ℝ) : (moved g v).tri i = (g.tri i).moveBy v := by
  rw [Geom.numPrims, if_pos m] at hi
  rcases ht : g.tris[i] with ⟨a, b, c⟩
  obtain ⟨ha, hb, hc⟩ := w.tris _ (List.getElem_mem hi)
  rw [ht] at ha hb hc
  have e : g.tris[i]? = some (a, b, c) := by rw [List.getElem?_eq_getElem hi, ht]
  simp only [Geom.tri, moved, e, Tri.moveBy, List.getElem?_map, List.getElem?_eq_getElem ha, List.getElem?_eq_getElem hb,
    List.getElem?_eq_getElem hc, Option.map_some, Option.getD_some]

theorem moved_prims (v : V3 ℝ) : (moved g v).numPrims = g.numPrims := by simp [Geom.numPrims, Geom.isMesh, moved]

theorem moved_pair (w1 : g1.WF) (w2 : g2.WF) (m1 : g1.isMesh = true) (m2 : g2.isMesh = true) {i j : ℕ} (hi : i < g1.numPrims)
    (hj : j < g2.numPrims) (u v : V3 ℝ) :
    pairTime (moved g1 u) (moved g2 v) i j = leafTime (g1.tri i) ((g1.tri i).moveBy u) (g2.tri j) ((g2.tri j).moveBy v) := by
  unfold pairTime
  rw [moved_tri w1 m1 hi, moved_tri w2 m2 hj]
  rfl

theorem moved_at (w : g.WF) (m : g.isMesh = true) {i : ℕ} (hi : i < g.numPrims) (v : V3 ℝ) (t : ℝ) :
    (moved g v).solidAt t i = ((g.tri i).moveBy (t • v)).pts := by
  have hv : (moved g v).vertsAt t = g.verts.map (· + t • v) := by
    simp only [Geom.vertsAt, moved]
    generalize g.verts = l
    induction l with
    | nil => rfl
    | cons x l ih =>
      simp only [List.map_cons, List.zipWith_cons_cons, ih, List.cons.injEq, and_true]
      apply V3.ext' <;> simp only [add_x, add_y, add_z, smul_x, smul_y, smul_z] <;> ring
  rw [Geom.numPrims, if_pos m] at hi
  rcases ht : g.tris[i] with ⟨a, b, c⟩
  obtain ⟨ha, hb, hc⟩ := w.tris _ (List.getElem_mem hi)
  rw [ht] at ha hb hc
  have e : g.tris[i]? = some (a, b, c) := by rw [List.getElem?_eq_getElem hi, ht]
  have m' : (moved g v).isMesh = true := m
  have e' : (moved g v).tris[i]? = some (a, b, c) := e
  simp only [Geom.solidAt, hv, Geom.primIdx, m', e', if_true, Tri.pts, Tri.moveBy, Geom.tri, e, List.filterMap_cons, List.filterMap_nil,
    List.getElem?_map, List.getElem?_eq_getElem ha, List.getElem?_eq_getElem hb, List.getElem?_eq_getElem hc, Option.map_some, Option.getD_some]

theorem refit_depth (leafFit : ℕ → V) (merge : V → V → V) (t : BT V ℕ) : (t.refit leafFit merge).depth = t.depth := by
  induction t with
  | leaf => rfl
  | node bv l r ihl ihr => simp only [BT.refit, BT.depth, ihl, ihr]

theorem bodyAt_surface (w : g.WF) (m : g.isMesh = true) {tfb tfe : Pose ℝ} (hR : tfb.R = M3.one) {t : ℝ} (ht : t ≤ 1) {x : V3 ℝ} :
    x ∈ (Motion.translation tfb tfe).bodyAt (surface g) t ↔
      ∃ i < g.numPrims, x - tfb.t ∈ ((g.tri i).moveBy (t • (tfe.t - tfb.t))).pts := by
  simp only [Motion.bodyAt, Motion.translation, Motion.clip_eq ht, hR, Placed, M3.one_mulVec, surface, Set.mem_ofPred_eq]
  constructor
  · rintro ⟨p, ⟨i, hi, hp⟩, rfl⟩
    refine ⟨i, hi, moveBy_pts.2 ?_⟩
    rw [Geom.solid_eq w m hi] at hp
    convert hp using 1
    v3
  · rintro ⟨i, hi, hp⟩
    refine ⟨_, ⟨i, hi, by rw [Geom.solid_eq w m hi]; exact moveBy_pts.1 hp⟩, ?_⟩
    v3

variable {o : BVOps V ℝ} {pts : V → Set (V3 ℝ)} {t1 t2 : BT V ℕ} {tf1b tf1e tf2b tf2e : Pose ℝ} {r : CCResult}

/-- The whole function: it ends, and what its answer means for the pairs of triangles. -/
theorem polynomial_run (hs : o.Sound pts) (w1 : g1.WF) (w2 : g2.WF) (m1 : g1.isMesh = true) (m2 : g2.isMesh = true)
    (p1 : t1.prims.Perm (List.range g1.numPrims)) (p2 : t2.prims.Perm (List.range g2.numPrims))
    (larger : V → V → Bool) {fuel : ℕ} (hf : t1.depth + t2.depth < fuel) (tf1b tf1e tf2b tf2e : Pose ℝ) (r : CCResult) :
    ∃ res, polynomial o larger fuel g1 g2 t1 t2 tf1b tf1e tf2b tf2e r =
        some (res, moved g1 (tf1e.t - tf1b.t), moved g2 (tf2e.t - tf2b.t)) ∧
      (res.isCollide = true → (∃ i < g1.numPrims, ∃ j < g2.numPrims,
        leafTime (g1.tri i) ((g1.tri i).moveBy (tf1e.t - tf1b.t)) (g2.tri j) ((g2.tri j).moveBy (tf2e.t - tf2b.t)) = some res.toc) ∧
        res.tf1 = ((Motion.translation tf1b tf1e).integrate res.toc).tf ∧ res.tf2 = ((Motion.translation tf2b tf2e).integrate res.toc).tf) ∧
      (res.isCollide = false → ∀ i < g1.numPrims, ∀ j < g2.numPrims, ∀ t : ℝ, 0 ≤ t → t ≤ 1 →
        Touch ((g1.tri i).moveBy (t • (tf1e.t - tf1b.t))).pts ((g2.tri j).moveBy (t • (tf2e.t - tf2b.t))).pts →
        leafTime (g1.tri i) ((g1.tri i).moveBy (tf1e.t - tf1b.t)) (g2.tri j) ((g2.tri j).moveBy (tf2e.t - tf2b.t)) = none) := by
  set u := tf1e.t - tf1b.t with hu
  set v := tf2e.t - tf2b.t with hv
  have encl : ∀ (g : Geom ℝ) (t : BT V ℕ), Enclosing (Encloses pts g) (refitted o g t) := by
    intro g t x hx p hp
    obtain ⟨y, hy, rfl⟩ := below_refit hx
    rw [refit_prims] at hp
    exact refit_encl' (fun p _ => leafFit_encloses hs p) (fun _ _ _ => merge_encloses hs) p hp
  obtain ⟨f, e, h1, h2⟩ := run (g1 := moved g1 u) (g2 := moved g2 v) (overlap := o.overlap) (t1 := refitted o (moved g1 u) t1)
    (t2 := refitted o (moved g2 v) t2) (m1 := g1.numPrims) (m2 := g2.numPrims)
    (touch := fun i j => i < g1.numPrims ∧ j < g2.numPrims ∧ ∃ t : ℝ, 0 ≤ t ∧ t ≤ 1 ∧ Touch ((g1.tri i).moveBy (t • u)).pts ((g2.tri j).moveBy (t • v)).pts)
    (by
      rintro x hx y hy i hi j hj ⟨hi', hj', t, t0, t1, z, z1, z2⟩
      refine hs.overlap _ _ z (encl _ _ x hx i hi t t0 t1 ?_) (encl _ _ y hy j hj t t0 t1 ?_)
      · rw [moved_at w1 m1 hi']; exact z1
      · rw [moved_at w2 m2 hj']; exact z2)
    (by unfold refitted; rw [refit_prims]; exact p1) (by unfold refitted; rw [refit_prims]; exact p2) larger
    (by unfold refitted; rw [refit_depth, refit_depth]; exact hf) 1
  unfold polynomial
  simp only [← hu, ← hv, e]
  by_cases hn : f.pairs = []
  · refine ⟨⟨false, f.toc, r.tf1, r.tf2⟩, by simp [hn], by simp, fun _ i hi j hj t t0 t1 ht => ?_⟩
    rw [← moved_pair w1 w2 m1 m2 hi hj]
    exact h2 hn i hi j hj ⟨hi, hj, t, t0, t1, ht⟩
  · refine ⟨⟨true, f.toc, _, _⟩, by simp only [List.isEmpty_iff, hn, if_false]; rfl, fun _ => ⟨?_, rfl, rfl⟩, by simp⟩
    obtain ⟨i, hi, j, hj, h⟩ := h1 hn
    refine ⟨i, hi, j, hj, ?_⟩
    rw [← moved_pair w1 w2 m1 m2 hi hj]
    exact h

/-- **C113.** Continuous collision of two meshes: if they start apart, in the same pose without rotation, and touch at some time of the motion, and
all pairs of triangles keep clear of the tolerances, then a collision is reported. -/
theorem C113_mesh_found_partial (hs : o.Sound pts) (w1 : g1.WF) (w2 : g2.WF) (m1 : g1.isMesh = true) (m2 : g2.isMesh = true)
    (p1 : t1.prims.Perm (List.range g1.numPrims)) (p2 : t2.prims.Perm (List.range g2.numPrims))
    (larger : V → V → Bool) {fuel : ℕ} (hf : t1.depth + t2.depth < fuel) (r : CCResult)
    (hR1 : tf1b.R = M3.one) (hR2 : tf2b.R = M3.one) (hb : tf1b.t = tf2b.t)
    (hc : ∀ i < g1.numPrims, ∀ j < g2.numPrims, Clear (g1.tri i) (g2.tri j) (tf1e.t - tf1b.t - (tf2e.t - tf2b.t)))
    (h0 : ¬TouchAt (.translation tf1b tf1e) (.translation tf2b tf2e) (surface g1) (surface g2) 0) {t : ℝ} (t0 : 0 ≤ t) (ht1 : t ≤ 1)
    (ht : TouchAt (.translation tf1b tf1e) (.translation tf2b tf2e) (surface g1) (surface g2) t) :
    ∃ res g1' g2', polynomial o larger fuel g1 g2 t1 t2 tf1b tf1e tf2b tf2e r = some (res, g1', g2') ∧ res.isCollide = true := by
  obtain ⟨res, e, -, hno⟩ := polynomial_run hs w1 w2 m1 m2 p1 p2 larger hf tf1b tf1e tf2b tf2e r
  refine ⟨res, _, _, e, ?_⟩
  by_contra hf
  obtain ⟨z, z1, z2⟩ := ht
  obtain ⟨i, hi, z1⟩ := (bodyAt_surface w1 m1 hR1 ht1).1 z1
  obtain ⟨j, hj, z2⟩ := (bodyAt_surface w2 m2 hR2 ht1).1 z2
  rw [← hb] at z2
  have hnone := hno (by simpa using hf) i hi j hj t t0 ht1 ⟨_, z1, by rw [← hb]; exact z2⟩
  have hd : ¬Touch (g1.tri i).pts (g2.tri j).pts := by
    rintro ⟨y, y1, y2⟩
    refine h0 ⟨y + tf1b.t, (bodyAt_surface w1 m1 hR1 zero_le_one).2 ⟨i, hi, moveBy_pts.2 ?_⟩, (bodyAt_surface w2 m2 hR2 zero_le_one).2 ⟨j, hj, moveBy_pts.2 ?_⟩⟩
    · convert y1 using 1; v3
    · rw [← hb]; convert y2 using 1; v3
  obtain ⟨τ, hτ, -⟩ := C113_pair_found_partial (hc i hi j hj) hd t0 ht1 ⟨_, z1, by rw [← hb]; exact z2⟩
  rw [hnone] at hτ
  simp at hτ

/-- **C113.** If a collision is reported, then at the time reported the meshes, moved as the reported poses say, are almost in contact. -/
theorem C113_mesh_true (hs : o.Sound pts) (w1 : g1.WF) (w2 : g2.WF) (m1 : g1.isMesh = true) (m2 : g2.isMesh = true)
    (p1 : t1.prims.Perm (List.range g1.numPrims)) (p2 : t2.prims.Perm (List.range g2.numPrims))
    (larger : V → V → Bool) {fuel : ℕ} (hf : t1.depth + t2.depth < fuel) {ν L : ℝ} (hν : 0 < ν)
    (hR1 : tf1b.R = M3.one) (hR2 : tf2b.R = M3.one) (hb : tf1b.t = tf2b.t)
    (n1 : ∀ i < g1.numPrims, ν ≤ (g1.tri i).nor.dot (g1.tri i).nor) (n2 : ∀ j < g2.numPrims, ν ≤ (g2.tri j).nor.dot (g2.tri j).nor)
    (d1 : ∀ i < g1.numPrims, ∀ x ∈ g1.solid i, ∀ y ∈ g1.solid i, x.dist y ≤ L)
    (d2 : ∀ j < g2.numPrims, ∀ x ∈ g2.solid j, ∀ y ∈ g2.solid j, x.dist y ≤ L) {res : CCResult} {g1' g2' : Geom ℝ}
    (h : polynomial o larger fuel g1 g2 t1 t2 tf1b tf1e tf2b tf2e r = some (res, g1', g2')) (hc : res.isCollide = true) :
    0 ≤ res.toc ∧ res.toc ≤ 1 ∧
    res.tf1 = ((Motion.translation tf1b tf1e).integrate res.toc).tf ∧ res.tf2 = ((Motion.translation tf2b tf2e).integrate res.toc).tf ∧
    ∃ x ∈ (Motion.translation tf1b tf1e).bodyAt (surface g1) res.toc, ∃ y ∈ (Motion.translation tf2b tf2e).bodyAt (surface g2) res.toc,
      x.dist y ≤ 2 * (1 / 10 ^ 5 / ν) * L := by
  obtain ⟨res', e, hyes, -⟩ := polynomial_run hs w1 w2 m1 m2 p1 p2 larger hf tf1b tf1e tf2b tf2e r
  rw [h] at e
  simp only [Option.some.injEq, Prod.mk.injEq] at e
  obtain ⟨rfl, rfl, rfl⟩ := e
  obtain ⟨⟨i, hi, j, hj, hl⟩, q1, q2⟩ := hyes hc
  obtain ⟨a0, a1, x, hx, y, hy, hd⟩ := C113_pair_true hl hν (n1 i hi) (n2 j hj) (by have := d1 i hi; rwa [Geom.solid_eq w1 m1 hi] at this)
    (by have := d2 j hj; rwa [Geom.solid_eq w2 m2 hj] at this)
  refine ⟨a0, a1, q1, q2, x + tf1b.t, (bodyAt_surface w1 m1 hR1 a1).2 ⟨i, hi, ?_⟩, y + tf2b.t, (bodyAt_surface w2 m2 hR2 a1).2 ⟨j, hj, ?_⟩, ?_⟩
  · convert hx using 1; v3
  · convert hy using 1; v3
  · have e : x + tf1b.t - (y + tf2b.t) = x - y := by rw [hb]; v3
    rwa [dist_eq, e, ← dist_eq]

end

end TriCcd
end Fcl
