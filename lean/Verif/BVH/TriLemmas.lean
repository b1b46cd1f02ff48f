import Verif.BVH.TriTest
import Verif.BVH.MeshSpec
import Verif.Geom.SepAxis
import Verif.Ccd.DistLemmas
import Mathlib.Analysis.Convex.StdSimplex

/-!
# Facts about the triangle test
-/

namespace Fcl

/-- The points of a triangle. -/
def Tri.pts {K : Type*} [Field K] [LinearOrder K] (p : Tri K) : Set (V3 K) := {x | HullOf [p.a, p.b, p.c] x}

/-- The vertices of the triangle are not on a line. -/
def Tri.Proper {K : Type*} [Field K] (p : Tri K) : Prop := (p.b - p.a).cross (p.c - p.a) ≠ 0

namespace Tri
open V3

/-! ### The projections -/

section
variable {K : Type*} [Field K] [LinearOrder K]

theorem project6_iff (ax : V3 K) (p q : Tri K) :
    project6 ax p q = false ↔ (∀ x ∈ p.verts, ∀ y ∈ q.verts, ax.dot y < ax.dot x) ∨
      ∀ x ∈ p.verts, ∀ y ∈ q.verts, ax.dot x < ax.dot y := by
  simp only [project6, verts, List.forall_mem_cons, List.not_mem_nil, false_imp_iff, implies_true, and_true]
  split_ifs with h1 h2
  · simp only [gt_iff_lt, max_lt_iff, lt_min_iff] at h1
    simp only [true_iff]
    exact .inl (by tauto)
  · simp only [gt_iff_lt, max_lt_iff, lt_min_iff] at h2
    simp only [true_iff]
    exact .inr (by tauto)
  · simp only [gt_iff_lt, max_lt_iff, lt_min_iff] at h1 h2
    simp only [Bool.true_eq_false, false_iff, not_or]
    exact ⟨fun h => h1 (by tauto), fun h => h2 (by tauto)⟩

end

section
variable {K : Type*} [Field K] [LinearOrder K] [IsStrictOrderedRing K]

theorem pts_gt {ax : V3 K} {c : K} {p : Tri K} (h : ∀ x ∈ p.verts, c < ax.dot x) {x : V3 K} (hx : x ∈ p.pts) : c < ax.dot x := by
  have hx : HullOf [p.a, p.b, p.c] x := hx
  induction hx with
  | pt hp => exact h _ hp
  | seg t h0 h1 _ _ i1 i2 =>
    have a1 := i1 (by assumption)
    have a2 := i2 (by assumption)
    rw [dot_add, dot_smul, dot_smul]
    nlinarith [mul_nonneg h0 (sub_nonneg.2 a2.le), mul_nonneg (sub_nonneg.2 h1) (sub_nonneg.2 a1.le)]

theorem pts_lt {ax : V3 K} {c : K} {p : Tri K} (h : ∀ x ∈ p.verts, ax.dot x < c) {x : V3 K} (hx : x ∈ p.pts) : ax.dot x < c := by
  have := pts_gt (ax := -ax) (c := -c) (p := p) (fun x hx => by rw [neg_dot]; exact neg_lt_neg (h x hx)) hx
  rw [neg_dot] at this
  exact neg_lt_neg_iff.1 this

theorem pts_sep {ax : V3 K} {p q : Tri K} (h : ∀ x ∈ p.verts, ∀ y ∈ q.verts, ax.dot y < ax.dot x) {x y : V3 K}
    (hx : x ∈ p.pts) (hy : y ∈ q.pts) : ax.dot y < ax.dot x :=
  pts_gt (fun v hv => pts_lt (fun u hu => h v hv u hu) hy) hx

theorem pts_mono {l : List (V3 K)} {f : V3 K → V3 K} (hf : ∀ (t : K) p q, f ((1 - t) • p + t • q) = (1 - t) • f p + t • f q)
    {x : V3 K} (hx : HullOf l x) : HullOf (l.map f) (f x) := by
  induction hx with
  | pt hp => exact .pt (List.mem_map_of_mem hp)
  | seg t h0 h1 _ _ i1 i2 => rw [hf]; exact .seg t h0 h1 i1 i2

theorem shift_pts {p : Tri K} {v x : V3 K} : x ∈ p.pts → x - v ∈ (p.shift v).pts := fun h =>
  pts_mono (f := fun x => x - v) (fun t p q => by v3) h

/-- A direction that separates the projections: no common point. -/
theorem test_false {P Q : Tri K} (h : test P Q = false) : ¬∃ x, x ∈ P.pts ∧ x ∈ Q.pts := by
  rintro ⟨x, hp, hq⟩
  simp only [test, List.all_eq_false, Bool.not_eq_true] at h
  obtain ⟨ax, -, h⟩ := h
  have hp := shift_pts (v := P.a) hp
  have hq := shift_pts (v := P.a) hq
  rcases (project6_iff _ _ _).1 h with h | h
  · exact lt_irrefl _ (pts_sep h hp hq)
  · exact lt_irrefl _ (pts_sep (fun x hx y hy => h y hy x hx) hq hp)

end

/-! ### The edges -/

section
variable {K : Type*} [Field K] [LinearOrder K] {p : Tri K}

def edges (p : Tri K) : List (V3 K) := [p.e1, p.e2, p.e3]

theorem diff_edge {u v : V3 K} (hu : u ∈ p.verts) (hv : v ∈ p.verts) : ∃ e ∈ p.edges, ∃ k : K, v - u = k • e := by
  simp only [verts, List.mem_cons, List.not_mem_nil, or_false] at hu hv
  simp only [edges, List.mem_cons, List.not_mem_nil, or_false]
  rcases hu with rfl | rfl | rfl <;> rcases hv with rfl | rfl | rfl
  · exact ⟨_, .inl rfl, 0, by v3⟩
  · exact ⟨_, .inl rfl, 1, by simp only [e1]; v3⟩
  · exact ⟨_, .inr (.inr rfl), -1, by simp only [e3]; v3⟩
  · exact ⟨_, .inl rfl, -1, by simp only [e1]; v3⟩
  · exact ⟨_, .inl rfl, 0, by v3⟩
  · exact ⟨_, .inr (.inl rfl), 1, by simp only [e2]; v3⟩
  · exact ⟨_, .inr (.inr rfl), 1, by simp only [e3]; v3⟩
  · exact ⟨_, .inr (.inl rfl), -1, by simp only [e2]; v3⟩
  · exact ⟨_, .inl rfl, 0, by v3⟩

theorem edge_cross {u v : V3 K} (hu : u ∈ p.edges) (hv : v ∈ p.edges) : ∃ k : K, u.cross v = k • p.nor := by
  simp only [edges, List.mem_cons, List.not_mem_nil, or_false] at hu hv
  rcases hu with rfl | rfl | rfl <;> rcases hv with rfl | rfl | rfl <;>
    first
      | (refine ⟨0, ?_⟩; simp only [nor, e1, e2, e3, cross]; apply V3.ext' <;> simp <;> ring1)
      | (refine ⟨1, ?_⟩; simp only [nor, e1, e2, e3, cross]; apply V3.ext' <;> simp <;> ring1)
      | (refine ⟨-1, ?_⟩; simp only [nor, e1, e2, e3, cross]; apply V3.ext' <;> simp <;> ring1)

theorem cross_smul (k l : K) (u v : V3 K) : (k • u).cross (l • v) = (k * l) • u.cross v := by
  simp only [cross]; v3

theorem nor_eq (p : Tri K) : p.nor = (p.b - p.a).cross (p.c - p.a) := by
  simp only [nor, e1, e2, cross]; v3

/-- The directions tried, up to a factor. -/
theorem axes_normal (p q : Tri K) : p.nor ∈ axes p q ∧ q.nor ∈ axes p q := by simp [axes]

theorem axes_edges {p q : Tri K} {e f : V3 K} (he : e ∈ p.edges) (hf : f ∈ q.edges) : e.cross f ∈ axes p q := by
  simp only [edges, List.mem_cons, List.not_mem_nil, or_false] at he hf
  rcases he with rfl | rfl | rfl <;> rcases hf with rfl | rfl | rfl <;> simp [axes]

theorem axes_side1 {p q : Tri K} {e : V3 K} (he : e ∈ p.edges) : e.cross p.nor ∈ axes p q := by
  simp only [edges, List.mem_cons, List.not_mem_nil, or_false] at he
  rcases he with rfl | rfl | rfl <;> simp [axes]

theorem axes_side2 {p q : Tri K} {e : V3 K} (he : e ∈ q.edges) : e.cross q.nor ∈ axes p q := by
  simp only [edges, List.mem_cons, List.not_mem_nil, or_false] at he
  rcases he with rfl | rfl | rfl <;> simp [axes]

end

/-! ### Disjoint triangles are separated by one of the directions -/

theorem pts_convex (p : Tri ℝ) : ConvexSet p.pts := fun _ hp _ hq t h0 h1 => HullOf.seg t h0 h1 hp hq

theorem vert_mem {p : Tri ℝ} {x : V3 ℝ} (h : x ∈ p.verts) : x ∈ p.pts := HullOf.pt h

/-- Two triangles have nearest points. -/
theorem exists_isDist (P Q : Tri ℝ) : ∃ d p q, IsDist P.pts Q.pts d p q := by
  let f : Tri ℝ → (Fin 3 → ℝ) → V3 ℝ := fun T u => u 0 • T.a + u 1 • T.b + u 2 • T.c
  let F : (Fin 3 → ℝ) × (Fin 3 → ℝ) → ℝ := fun w =>
    (w.1 0 * P.a.x + w.1 1 * P.b.x + w.1 2 * P.c.x - (w.2 0 * Q.a.x + w.2 1 * Q.b.x + w.2 2 * Q.c.x)) ^ 2 +
    (w.1 0 * P.a.y + w.1 1 * P.b.y + w.1 2 * P.c.y - (w.2 0 * Q.a.y + w.2 1 * Q.b.y + w.2 2 * Q.c.y)) ^ 2 +
    (w.1 0 * P.a.z + w.1 1 * P.b.z + w.1 2 * P.c.z - (w.2 0 * Q.a.z + w.2 1 * Q.b.z + w.2 2 * Q.c.z)) ^ 2
  have hF : ∀ w, F w = (f P w.1 - f Q w.2).dot (f P w.1 - f Q w.2) := by intro w; simp [F, f, dot]; ring
  have hcont : Continuous F := by fun_prop
  have hne : (stdSimplex ℝ (Fin 3)).Nonempty := ⟨_, single_mem_stdSimplex ℝ (0 : Fin 3)⟩
  obtain ⟨w, hw, hmin⟩ := ((isCompact_stdSimplex ℝ (Fin 3)).prod (isCompact_stdSimplex ℝ (Fin 3))).exists_isMinOn
    (hne.prod hne) hcont.continuousOn
  have hf : ∀ T : Tri ℝ, ∀ u ∈ stdSimplex ℝ (Fin 3), f T u ∈ T.pts := fun T u hu => by
    have h0 := hu.1
    have h1 := hu.2
    rw [Fin.sum_univ_three] at h1
    exact Ccd.comb3 T.pts_convex (vert_mem (by simp [verts])) (vert_mem (by simp [verts])) (vert_mem (by simp [verts]))
      (h0 0) (h0 1) (h0 2) h1
  have hb : ∀ T : Tri ℝ, ∀ x ∈ T.pts, ∃ u ∈ stdSimplex ℝ (Fin 3), x = f T u := fun T x hx => by
    obtain ⟨v, w, v0, w0, vw, rfl⟩ := Ccd.hull_three hx
    refine ⟨![1 - v - w, v, w], ⟨fun i => ?_, ?_⟩, ?_⟩
    · fin_cases i
      · show 0 ≤ 1 - v - w; linarith
      · exact v0
      · exact w0
    · rw [Fin.sum_univ_three]
      show 1 - v - w + v + w = 1; ring
    · show _ = (1 - v - w) • T.a + v • T.b + w • T.c
      v3
  refine ⟨_, f P w.1, f Q w.2, hf P _ hw.1, hf Q _ hw.2, rfl, fun x hx y hy => ?_⟩
  obtain ⟨u, hu, rfl⟩ := hb P x hx
  obtain ⟨v, hv, rfl⟩ := hb Q y hy
  have := hmin (Set.mk_mem_prod hu hv)
  rw [Set.mem_ofPred_eq, hF, hF] at this
  rw [dist_eq, dist_eq]
  exact (nrm_le_iff (nrm_nonneg _)).2 (by rw [nrm_mul_self]; exact this)

/-- Disjoint triangles are separated by a direction. -/
theorem exists_direction {P Q : Tri ℝ} (h : ¬Touch P.pts Q.pts) : ∃ x : V3 ℝ, ∀ p ∈ P.verts, ∀ q ∈ Q.verts, x.dot q < x.dot p := by
  obtain ⟨d, p, q, hd⟩ := exists_isDist Q P
  have h0 : 0 < d := by
    rcases (hd.attained ▸ dist_nonneg p q : 0 ≤ d).lt_or_eq with h0 | h0
    · exact h0
    · have := dist_eq_zero (hd.attained.trans h0.symm)
      exact absurd ⟨p, this ▸ hd.right, hd.left⟩ h
  obtain ⟨-, hs⟩ := isDist_direction Q.pts_convex P.pts_convex hd h0
  refine ⟨(1 / d) • (q - p), fun a ha b hb => ?_⟩
  have := hs b (vert_mem hb) a (vert_mem ha)
  rw [dot_sub] at this
  linarith

theorem exists_min (p : Tri ℝ) (x : V3 ℝ) : ∃ u ∈ p.verts, ∀ v ∈ p.verts, x.dot u ≤ x.dot v := by
  classical
  obtain ⟨u, hu, h⟩ := Finset.exists_min_image p.verts.toFinset (fun v => x.dot v) ⟨p.a, by simp [verts]⟩
  exact ⟨u, List.mem_toFinset.1 hu, fun v hv => h v (List.mem_toFinset.2 hv)⟩

/-- The edges at the vertex span the plane. -/
theorem Proper.edges {p : Tri ℝ} (h : p.Proper) {u : V3 ℝ} (hu : u ∈ p.verts) :
    ∃ v ∈ p.verts, ∃ w ∈ p.verts, (v - u).cross (w - u) ≠ 0 := by
  simp only [verts, List.mem_cons, List.not_mem_nil, or_false] at hu
  rcases hu with rfl | rfl | rfl
  · exact ⟨p.b, by simp [verts], p.c, by simp [verts], h⟩
  · refine ⟨p.c, by simp [verts], p.a, by simp [verts], fun h0 => h ?_⟩
    rw [← h0]
    simp only [cross]; v3
  · refine ⟨p.a, by simp [verts], p.b, by simp [verts], fun h0 => h ?_⟩
    rw [← h0]
    simp only [cross]; v3

/-- A vector perpendicular to all edges at a vertex is a multiple of the normal. -/
theorem Proper.normal {p : Tri ℝ} (h : p.Proper) {u n : V3 ℝ} (hu : u ∈ p.verts) (hn : ∀ v ∈ p.verts, (v - u).dot n = 0) :
    ∃ k : ℝ, n = k • p.nor := by
  have h1 : ∀ v ∈ p.verts, ∀ w ∈ p.verts, (v - w).dot n = 0 := fun v hv w hw => by
    have a := hn v hv
    have b := hn w hw
    rw [sub_dot] at *
    linarith
  rw [nor_eq]
  exact Sep.parallel_cross h (h1 _ (by simp [verts]) _ (by simp [verts])) (h1 _ (by simp [verts]) _ (by simp [verts]))

theorem exists_axis {p q : Tri ℝ} (hp : p.Proper) (hq : q.Proper) {x : V3 ℝ}
    (hx : ∀ u ∈ p.verts, ∀ v ∈ q.verts, x.dot v < x.dot u) : ∃ ax ∈ axes p q, project6 ax p q = false := by
  obtain ⟨u, hu, hmin⟩ := exists_min p x
  obtain ⟨v, hv, hmax⟩ := exists_min q (-x)
  have hmax : ∀ y ∈ q.verts, x.dot y ≤ x.dot v := fun y hy => by
    have := hmax y hy
    rw [neg_dot, neg_dot] at this
    linarith
  let L := p.verts.map (fun y : V3 ℝ => y - u) ++ q.verts.map fun y : V3 ℝ => v - y
  have hL : ∀ a ∈ L, 0 ≤ a.dot x := by
    intro a ha
    rcases List.mem_append.1 ha with ha | ha <;> obtain ⟨y, hy, rfl⟩ := List.mem_map.1 ha
    · rw [sub_dot, dot_comm y, dot_comm u]
      have := hmin y hy
      linarith
    · rw [sub_dot, dot_comm y, dot_comm v]
      have := hmax y hy
      linarith
  have inP : ∀ y ∈ p.verts, y - u ∈ L := fun y hy => List.mem_append_left _ (List.mem_map_of_mem (f := fun y : V3 ℝ => y - u) hy)
  have inQ : ∀ y ∈ q.verts, v - y ∈ L := fun y hy => List.mem_append_right _ (List.mem_map_of_mem (f := fun y : V3 ℝ => v - y) hy)
  obtain ⟨y1, h1, y2, h2, h12⟩ := hp.edges hu
  obtain ⟨y, hy, hw, hcase⟩ := Sep.choose (w := u - v) hL (by
    rw [sub_dot, dot_comm u, dot_comm v]
    have := hx u hu v hv
    linarith) ⟨_, inP _ h1, _, inP _ h2, h12⟩
  have hkey : ∃ ax ∈ axes p q, ∃ k : ℝ, y = k • ax := by
    have rep : ∀ a ∈ L, (∃ e ∈ p.edges, ∃ k : ℝ, a = k • e) ∨ ∃ e ∈ q.edges, ∃ k : ℝ, a = k • e := by
      intro a ha
      rcases List.mem_append.1 ha with ha | ha <;> obtain ⟨y, hy, rfl⟩ := List.mem_map.1 ha
      · exact .inl (diff_edge hu hy)
      · exact .inr (diff_edge hy hv)
    rcases hcase with ⟨a, ha, b, hb, k, rfl⟩ | ⟨n, hn, a, ha, k, rfl⟩
    · rcases rep a ha with ⟨e, he, l, rfl⟩ | ⟨e, he, l, rfl⟩ <;> rcases rep b hb with ⟨f, hf, m, rfl⟩ | ⟨f, hf, m, rfl⟩
      · obtain ⟨r, hr⟩ := edge_cross he hf
        exact ⟨_, (axes_normal p q).1, k * (l * m * r), by rw [cross_smul, hr]; v3⟩
      · exact ⟨_, axes_edges he hf, k * (l * m), by rw [cross_smul]; v3⟩
      · refine ⟨_, axes_edges hf he, -(k * (l * m)), ?_⟩
        rw [cross_smul]
        simp only [cross]; v3
      · obtain ⟨r, hr⟩ := edge_cross he hf
        exact ⟨_, (axes_normal p q).2, k * (l * m * r), by rw [cross_smul, hr]; v3⟩
    · rcases rep a ha with ⟨e, he, l, rfl⟩ | ⟨e, he, l, rfl⟩
      · obtain ⟨m, rfl⟩ := hp.normal hu fun w hw => hn _ (inP w hw)
        refine ⟨_, axes_side1 he, -(k * (m * l)), ?_⟩
        rw [cross_smul]
        simp only [cross]; v3
      · obtain ⟨m, rfl⟩ := hq.normal hv fun w hw => by
          have := hn _ (inQ w hw)
          rw [sub_dot] at *
          linarith
        refine ⟨_, axes_side2 he, -(k * (m * l)), ?_⟩
        rw [cross_smul]
        simp only [cross]; v3
  obtain ⟨ax, hax, k, rfl⟩ := hkey
  refine ⟨ax, hax, (project6_iff _ _ _).2 ?_⟩
  have hsep : ∀ s ∈ p.verts, ∀ t ∈ q.verts, k * ax.dot t < k * ax.dot s := fun s hs t ht => by
    have a1 := hy _ (inP s hs)
    have a2 := hy _ (inQ t ht)
    rw [dot_comm, smul_dot, dot_sub] at a1 a2 hw
    linarith
  rcases lt_trichotomy k 0 with hk | rfl | hk
  · right
    intro s hs t ht
    have := hsep s hs t ht
    nlinarith
  · have := hsep _ hu _ hv
    simp at this
  · left
    intro s hs t ht
    have := hsep s hs t ht
    nlinarith

theorem shift_proper {p : Tri ℝ} (h : p.Proper) (v : V3 ℝ) : (p.shift v).Proper := by
  unfold Proper at *
  convert h using 2 <;> (simp only [shift]; v3)

theorem test_true {P Q : Tri ℝ} (hP : P.Proper) (hQ : Q.Proper) (h : ¬Touch P.pts Q.pts) : test P Q = false := by
  obtain ⟨x, hx⟩ := exists_direction h
  obtain ⟨ax, hax, hpr⟩ := exists_axis (shift_proper hP P.a) (shift_proper hQ P.a) (x := x) (by
    simp only [verts, shift, List.forall_mem_cons, List.not_mem_nil, false_imp_iff, implies_true, and_true, dot_sub] at hx ⊢
    simpa using hx)
  simp only [test, List.all_eq_false, Bool.not_eq_true]
  exact ⟨ax, hax, hpr⟩

/-! ### The deepest points -/

section
variable {K : Type*} [Field K] [LinearOrder K] [IsStrictOrderedRing K]

theorem step_depth (n : V3 K) (t : K) (d : Deep K) (v : V3 K) :
    (Deep.step n t d v).depth = max d.depth (-(n.dot v - t)) := by
  simp only [Deep.step]
  split_ifs <;> simp_all [max_eq_left, max_eq_right, le_of_lt]

theorem step_pts (n : V3 K) (t : K) (d : Deep K) (v : V3 K) :
    (Deep.step n t d v).pts = if d.depth < -(n.dot v - t) then [v]
      else if d.depth ≤ -(n.dot v - t) + 1 / 1000000 then d.pts ++ [v] else d.pts := by
  simp only [Deep.step, gt_iff_lt, ge_iff_le]
  split_ifs <;> first | rfl | (exfalso; simp_all; done)

theorem step_counts (n : V3 K) (t : K) (d : Deep K) (v : V3 K) :
    (Deep.step n t d v).pos = (if eps < -(n.dot v - t) then d.pos + 1 else d.pos) ∧
    (Deep.step n t d v).neg = (if eps < -(n.dot v - t) then d.neg else if -(n.dot v - t) < -eps then d.neg + 1 else d.neg) ∧
    (Deep.step n t d v).zero = (if eps < -(n.dot v - t) then d.zero else if -(n.dot v - t) < -eps then d.zero else d.zero + 1) := by
  simp only [Deep.step, gt_iff_lt, ge_iff_le]
  refine ⟨?_, ?_, ?_⟩ <;> split_ifs <;> rfl

theorem fold_deep (n : V3 K) (t : K) (l : List (V3 K)) : ∀ d : Deep K,
    let r := l.foldl (Deep.step n t) d
    d.depth ≤ r.depth ∧ (∀ v ∈ l, -(n.dot v - t) ≤ r.depth) ∧ (r.depth = d.depth ∨ ∃ v ∈ l, r.depth = -(n.dot v - t)) ∧
    (∀ x ∈ r.pts, x ∈ d.pts ∨ x ∈ l) ∧ (d.depth < r.depth ∨ d.pts ≠ [] → r.pts ≠ []) ∧
    d.pos ≤ r.pos ∧ d.neg ≤ r.neg ∧ d.zero ≤ r.zero ∧
    ∀ v ∈ l, (eps < -(n.dot v - t) → 0 < r.pos) ∧ (-(n.dot v - t) < -eps → 0 < r.neg ∨ 0 < r.pos) ∧
      (-(n.dot v - t) < -eps → ¬eps < -(n.dot v - t) → 0 < r.neg) ∧
      (¬eps < -(n.dot v - t) → ¬-(n.dot v - t) < -eps → 0 < r.zero) := by
  induction l with
  | nil => intro d; simp
  | cons v l ih =>
    intro d r
    obtain ⟨h1, h2, h3, h4, h5, h6, h7, h8, h9⟩ := ih (Deep.step n t d v)
    have e := step_depth n t d v
    obtain ⟨c1, c2, c3⟩ := step_counts n t d v
    have hp := step_pts n t d v
    change _ ≤ r.depth at h1
    refine ⟨?_, ?_, ?_, ?_, ?_, ?_, ?_, ?_, ?_⟩
    · exact (le_max_left _ _).trans (e ▸ h1)
    · rintro x (_ | ⟨_, hx⟩)
      · exact (le_max_right _ _).trans (e ▸ h1)
      · exact h2 x hx
    · rcases h3 with h3 | ⟨x, hx, h3⟩
      · rcases max_choice d.depth (-(n.dot v - t)) with hm | hm
        · exact .inl (h3.trans (e.trans hm))
        · exact .inr ⟨v, List.mem_cons_self, h3.trans (e.trans hm)⟩
      · exact .inr ⟨x, List.mem_cons_of_mem _ hx, h3⟩
    · intro x hx
      rcases h4 x hx with h | h
      · rw [hp] at h
        split_ifs at h
        · simp only [List.mem_singleton] at h
          exact .inr (h ▸ List.mem_cons_self)
        · rcases List.mem_append.1 h with h | h
          · exact .inl h
          · simp only [List.mem_singleton] at h
            exact .inr (h ▸ List.mem_cons_self)
        · exact .inl h
      · exact .inr (List.mem_cons_of_mem _ h)
    · intro h
      by_cases hv : d.depth < -(n.dot v - t)
      · exact h5 (.inr (by rw [hp, if_pos hv]; simp))
      · have e' : (Deep.step n t d v).depth = d.depth := e.trans (max_eq_left (not_lt.1 hv))
        rcases h with h | h
        · exact h5 (.inl (e' ▸ h))
        · refine h5 (.inr ?_)
          rw [hp, if_neg hv]
          split_ifs
          · simp
          · exact h
    · refine le_trans ?_ h6
      rw [c1]; split_ifs <;> omega
    · refine le_trans ?_ h7
      rw [c2]; split_ifs <;> omega
    · refine le_trans ?_ h8
      rw [c3]; split_ifs <;> omega
    · rintro x (_ | ⟨_, hx⟩)
      · refine ⟨fun h => ?_, fun h => ?_, fun h h' => ?_, fun h h' => ?_⟩
        · rw [if_pos h] at c1; exact lt_of_lt_of_le (by omega) h6
        · by_cases hq : eps < -(n.dot v - t)
          · rw [if_pos hq] at c1; exact .inr (lt_of_lt_of_le (by omega) h6)
          · rw [if_neg hq, if_pos h] at c2; exact .inl (lt_of_lt_of_le (by omega) h7)
        · rw [if_neg h', if_pos h] at c2; exact lt_of_lt_of_le (by omega) h7
        · rw [if_neg h, if_neg h'] at c3; exact lt_of_lt_of_le (by omega) h8
      · exact h9 x hx

theorem eps_pos : (0 : K) < eps := by unfold eps; positivity

/-- The deepest points of points on both sides of the plane. -/
theorem deepest_ok {big : K} (hb : 0 < big) {l : List (V3 K)} {n : V3 K} {t : K} {u v : V3 K} (hu : u ∈ l) (hv : v ∈ l)
    (h1 : n.dot u ≤ t) (h2 : t ≤ n.dot v) :
    0 ≤ (deepest big l n t).1 ∧ (∀ x ∈ l, t ≤ n.dot x + (deepest big l n t).1) ∧
      (∃ x ∈ l, t = n.dot x + (deepest big l n t).1) ∧
      (deepest big l n t).2 ≠ [] ∧ ∀ x ∈ (deepest big l n t).2, x ∈ l := by
  obtain ⟨a1, a2, a3, a4, a5, -, -, -, a9⟩ := fold_deep n t l ⟨-big, [], 0, 0, 0⟩
  obtain ⟨r, hr⟩ : ∃ r, r = l.foldl (Deep.step n t) ⟨-big, [], 0, 0, 0⟩ := ⟨_, rfl⟩
  rw [← hr] at a1 a2 a3 a4 a5 a9
  have hd : 0 ≤ r.depth := le_trans (by linarith) (a2 u hu)
  have he := eps_pos (K := K)
  have c1 : ¬r.depth < -eps := by linarith
  have c2 : ¬(r.zero = 0 ∧ (r.neg = 0 ∨ r.pos = 0)) := by
    rintro ⟨hz, hc⟩
    obtain ⟨p1, -, p3, p4⟩ := a9 u hu
    obtain ⟨q1, -, q3, q4⟩ := a9 v hv
    have hpos : 0 < r.pos := by
      by_cases h : eps < -(n.dot u - t)
      · exact p1 h
      · exact absurd (p4 h (by linarith)) (by omega)
    have hneg : 0 < r.neg := by
      by_cases h : -(n.dot v - t) < -eps
      · exact q3 h (by linarith)
      · exact absurd (q4 (by linarith) h) (by omega)
    omega
  have e : deepest big l n t = (r.depth, r.pts) := by
    simp only [deepest, ← hr, if_neg c1, if_neg c2]
  rw [e]
  refine ⟨hd, fun x hx => ?_, ?_, ?_, fun x hx => ?_⟩
  · have := a2 x hx
    show t ≤ n.dot x + r.depth
    linarith
  · rcases a3 with h | ⟨x, hx, h⟩
    · have : r.depth = -big := h
      linarith
    · refine ⟨x, hx, ?_⟩
      show t = n.dot x + r.depth
      rw [h]; ring
  · exact a5 (.inl (by show -big < r.depth; linarith))
  · rcases a4 x hx with h | h
    · cases h
    · exact h

end

end Tri
end Fcl
