import Verif.Motion.TriCcdNewton
import Verif.Motion.TriCcdContact

/-!
# Two triangles that move without turning
-/

namespace Fcl

/-- The triangle moved by a vector. -/
def Tri.moveBy {K : Type*} [Field K] (p : Tri K) (w : V3 K) : Tri K := ⟨p.a + w, p.b + w, p.c + w⟩

namespace TriCcd
open V3

theorem moveBy_nor (S : Tri ℝ) (w : V3 ℝ) : (S.moveBy w).nor = S.nor := by
  simp only [Tri.moveBy, Tri.nor, Tri.e1, Tri.e2, cross]; v3

theorem moveBy_verts (S : Tri ℝ) (w : V3 ℝ) : (S.moveBy w).verts = S.verts.map (· + w) := rfl

theorem moveBy_sides (S : Tri ℝ) (w : V3 ℝ) : sides (S.moveBy w) = (sides S).map fun e => (e.1 + w, e.2 + w) := rfl

theorem moveBy_axes (S T : Tri ℝ) (u w : V3 ℝ) : Tri.axes (S.moveBy u) (T.moveBy w) = Tri.axes S T := by
  have h : ∀ (S : Tri ℝ) (w : V3 ℝ), (S.moveBy w).e1 = S.e1 ∧ (S.moveBy w).e2 = S.e2 ∧ (S.moveBy w).e3 = S.e3 := by
    intro S w
    refine ⟨?_, ?_, ?_⟩ <;> simp only [Tri.moveBy, Tri.e1, Tri.e2, Tri.e3] <;> v3
  simp only [Tri.axes, moveBy_nor, (h S u).1, (h S u).2.1, (h S u).2.2, (h T w).1, (h T w).2.1, (h T w).2.2]

theorem moveBy_pts {S : Tri ℝ} {w x : V3 ℝ} : x ∈ (S.moveBy w).pts ↔ x - w ∈ S.pts := by
  constructor
  · intro h
    have := Tri.shift_pts (v := w) h
    have e : (S.moveBy w).shift w = S := by
      cases S
      simp only [Tri.moveBy, Tri.shift, Tri.mk.injEq]
      refine ⟨?_, ?_, ?_⟩ <;> v3
    rwa [e] at this
  · intro h
    have := Tri.shift_pts (v := -w) h
    have e : S.shift (-w) = S.moveBy w := by
      simp only [Tri.moveBy, Tri.shift, Tri.mk.injEq]
      refine ⟨?_, ?_, ?_⟩ <;> v3
    rw [e] at this
    convert this using 1
    v3

/-! ### The first contact -/

/-- How far the first triangle is beyond the second in a direction. -/
noncomputable def gap (S T : Tri ℝ) (n : V3 ℝ) : ℝ :=
  min (n.dot S.a) (min (n.dot S.b) (n.dot S.c)) - max (n.dot T.a) (max (n.dot T.b) (n.dot T.c))

theorem gap_pos {S T : Tri ℝ} {n : V3 ℝ} : 0 < gap S T n ↔ ∀ x ∈ S.verts, ∀ y ∈ T.verts, n.dot y < n.dot x := by
  unfold gap
  rw [sub_pos]
  simp only [max_lt_iff, lt_min_iff, Tri.verts, List.forall_mem_cons, List.not_mem_nil, false_imp_iff, implies_true, and_true]

theorem gap_move (S T : Tri ℝ) (n u w : V3 ℝ) (t : ℝ) : gap (S.moveBy (t • u)) (T.moveBy (t • w)) n = gap S T n + t * n.dot (u - w) := by
  have h : ∀ x y : V3 ℝ, n.dot (x + t • y) = n.dot x + t * n.dot y := fun x y => by
    simp only [dot, add_x, add_y, add_z, smul_x, smul_y, smul_z]; ring
  have h2 : n.dot (u - w) = n.dot u - n.dot w := by simp only [dot, sub_x, sub_y, sub_z]; ring
  unfold gap
  simp only [Tri.moveBy, h, min_add_add_right, max_add_add_right, h2]
  ring

theorem gap_zero {S T : Tri ℝ} {n : V3 ℝ} (h : gap S T n = 0) {x y : V3 ℝ} (hx : x ∈ S.verts) (hy : y ∈ T.verts) : n.dot y ≤ n.dot x := by
  unfold gap at h
  have h1 : max (n.dot T.a) (max (n.dot T.b) (n.dot T.c)) ≤ min (n.dot S.a) (min (n.dot S.b) (n.dot S.c)) := by linarith
  simp only [max_le_iff, le_min_iff] at h1
  simp only [Tri.verts, List.mem_cons, List.not_mem_nil, or_false] at hx hy
  rcases hx with rfl | rfl | rfl <;> rcases hy with rfl | rfl | rfl <;> tauto

/-- The directions that decide whether triangles touch. -/
noncomputable def dirs (S T : Tri ℝ) : List (V3 ℝ) := Tri.axes S T ++ (Tri.axes S T).map fun n => -n

theorem touch_iff {S T : Tri ℝ} (hS : S.nor ≠ 0) (hT : T.nor ≠ 0) : Touch S.pts T.pts ↔ ∀ n ∈ dirs S T, gap S T n ≤ 0 := by
  constructor
  · rintro ⟨z, h1, h2⟩ n -
    by_contra h
    exact lt_irrefl _ (Tri.pts_sep (gap_pos.1 (not_le.1 h)) h1 h2)
  · intro h
    by_contra hn
    obtain ⟨x, hx⟩ := Tri.exists_direction hn
    obtain ⟨ax, hax, hpr⟩ := Tri.exists_axis (by unfold Tri.Proper; rwa [← Tri.nor_eq]) (by unfold Tri.Proper; rwa [← Tri.nor_eq]) hx
    rcases (Tri.project6_iff _ _ _).1 hpr with hs | hs
    · exact absurd (gap_pos.2 hs) (not_lt.2 (h ax (by simp [dirs, hax])))
    · refine absurd ((gap_pos (S := S) (T := T) (n := -ax)).2 fun x hx y hy => ?_)
        (not_lt.2 (h (-ax) (List.mem_append_right _ (List.mem_map_of_mem hax))))
      rw [neg_dot, neg_dot]
      linarith [hs x hx y hy]

/-- At the first time at which two moving triangles touch, two of their features hit each other. -/
theorem first_hit {S T : Tri ℝ} {u w : V3 ℝ} (hS : S.nor ≠ 0) (hT : T.nor ≠ 0)
    (hcr : ∀ e ∈ sides S, ∀ f ∈ sides T, (e.2 - e.1).cross (f.2 - f.1) ≠ 0)
    (hpar : S.nor.cross T.nor ≠ 0 ∨ S.nor.dot (u - w) ≠ 0) (h0 : ¬Touch S.pts T.pts) {t1 : ℝ} (ht : 0 ≤ t1)
    (h1 : Touch (S.moveBy (t1 • u)).pts (T.moveBy (t1 • w)).pts) :
    ∃ t, 0 ≤ t ∧ t ≤ t1 ∧ Hit (S.moveBy (t • u)) (T.moveBy (t • w)) (u - w) := by
  have hd : ∀ t : ℝ, dirs (S.moveBy (t • u)) (T.moveBy (t • w)) = dirs S T := fun t => by unfold dirs; rw [moveBy_axes]
  have hn : ∀ (S : Tri ℝ) (w : V3 ℝ), S.nor ≠ 0 → (S.moveBy w).nor ≠ 0 := fun S w h => by rwa [moveBy_nor]
  rw [touch_iff (hn _ _ hS) (hn _ _ hT), hd] at h1
  rw [touch_iff hS hT] at h0
  push Not at h0
  obtain ⟨n0, hn0, hpos⟩ := h0
  obtain ⟨t, t0, tt, hall, p, hp, hp1, hp2⟩ := first_time ht ((dirs S T).map fun n => (gap S T n, n.dot (u - w)))
    ⟨_, List.mem_map_of_mem hn0, hpos⟩ (by
      intro p hp
      obtain ⟨n, hn, rfl⟩ := List.mem_map.1 hp
      have := h1 n hn
      rwa [gap_move] at this)
  refine ⟨t, t0, tt, ?_⟩
  obtain ⟨n, hn', rfl⟩ := List.mem_map.1 hp
  simp only at hp1 hp2
  have ht' : Touch (S.moveBy (t • u)).pts (T.moveBy (t • w)).pts := by
    rw [touch_iff (hn _ _ hS) (hn _ _ hT), hd]
    intro m hm
    rw [gap_move]
    exact hall _ (List.mem_map_of_mem hm)
  obtain ⟨z, z1, z2⟩ := ht'
  have hg : gap (S.moveBy (t • u)) (T.moveBy (t • w)) n = 0 := by rw [gap_move]; exact hp2
  have hle := fun x hx y hy => gap_zero (x := x) (y := y) hg hx hy
  have lower : ∀ y ∈ (T.moveBy (t • w)).verts, n.dot y ≤ n.dot z := by
    intro y hy
    by_contra hc
    have := Tri.pts_gt (ax := n) (c := n.dot z) (p := S.moveBy (t • u)) (fun x hx => (not_le.1 hc).trans_le (hle x hx y hy)) z1
    exact lt_irrefl _ this
  have upper : ∀ x ∈ (S.moveBy (t • u)).verts, n.dot z ≤ n.dot x := by
    intro x hx
    by_contra hc
    have := Tri.pts_lt (ax := n) (c := n.dot z) (p := T.moveBy (t • w)) (fun y hy => (hle x hx y hy).trans_lt (not_le.1 hc)) z2
    exact lt_irrefl _ this
  refine hit_of_touch (hn _ _ hS) (hn _ _ hT) ?_ (by rwa [moveBy_nor, moveBy_nor]) z1 z2 (fun h => ?_) upper lower
  · rw [moveBy_sides, moveBy_sides]
    intro e he f hf
    obtain ⟨e', he', rfl⟩ := List.mem_map.1 he
    obtain ⟨f', hf', rfl⟩ := List.mem_map.1 hf
    have := hcr e' he' f' hf'
    convert this using 2 <;> v3
  · rw [h, mul_zero, _root_.add_zero] at hp2
    linarith

/-! ### The elementary tests -/

theorem lineLine_hit {a b c d z : V3 ℝ} (h1 : OnSeg (a, b) z) (h2 : OnSeg (c, d) z) (t1 : tiny (b - a) = false) (t2 : tiny (d - c) = false)
    (hc : Tri.eps ≤ ((b - a).cross (d - c)).dot ((b - a).cross (d - c))) : lineLine a b c d = some (z, z) := by
  obtain ⟨k, k0, k1, e1⟩ := h1
  obtain ⟨m, m0, m1, e2⟩ := h2
  have hden : (b - a).dot (b - a) * (d - c).dot (d - c) - (d - c).dot (b - a) * (d - c).dot (b - a) =
      ((b - a).cross (d - c)).dot ((b - a).cross (d - c)) := by
    rw [lagrange]; simp only [dot]; ring
  have hpos : (0 : ℝ) < ((b - a).cross (d - c)).dot ((b - a).cross (d - c)) := lt_of_lt_of_le Tri.eps_pos hc
  have hdd : (d - c).dot (d - c) ≠ 0 := by
    intro h
    rw [← hden, h, mul_zero] at hpos
    nlinarith [mul_self_nonneg ((d - c).dot (b - a))]
  have hac : a - c = m • (d - c) - k • (b - a) := by
    have : a + k • (b - a) = c + m • (d - c) := by rw [← e1, e2]
    have x := congrArg V3.x this
    have y := congrArg V3.y this
    have z := congrArg V3.z this
    simp only [add_x, add_y, add_z, sub_x, sub_y, sub_z, smul_x, smul_y, smul_z] at x y z
    apply V3.ext' <;> simp only [sub_x, sub_y, sub_z, smul_x, smul_y, smul_z]
    · linear_combination x
    · linear_combination y
    · linear_combination z
  have hmua : ((a - c).dot (d - c) * (d - c).dot (b - a) - (a - c).dot (b - a) * (d - c).dot (d - c)) /
      ((b - a).dot (b - a) * (d - c).dot (d - c) - (d - c).dot (b - a) * (d - c).dot (b - a)) = k := by
    rw [div_eq_iff (by rw [hden]; exact hpos.ne'), hac]
    simp only [dot, sub_x, sub_y, sub_z, smul_x, smul_y, smul_z]
    ring
  have hmub : ((a - c).dot (d - c) + (d - c).dot (b - a) * k) / (d - c).dot (d - c) = m := by
    rw [div_eq_iff hdd, hac]
    simp only [dot, sub_x, sub_y, sub_z, smul_x, smul_y, smul_z]
    ring
  unfold lineLine
  simp only [t1, t2, Bool.false_eq_true, if_false]
  rw [hmua, hmub, if_neg, if_neg, if_neg]
  · simp only [Option.some.injEq, Prod.mk.injEq]
    exact ⟨e1.symm, e2.symm⟩
  · push Not; exact ⟨m0, m1⟩
  · push Not; exact ⟨k0, k1⟩
  · rw [hden, abs_of_pos hpos]; exact not_lt.2 hc

/-- Lines that are found to meet do so, if the four points are in a plane. -/
theorem lineLine_some {a b c d x y : V3 ℝ} (h : lineLine a b c d = some (x, y)) (hp : (c - a).dot ((b - a).cross (d - c)) = 0) :
    OnSeg (a, b) x ∧ OnSeg (c, d) x := by
  unfold lineLine at h
  simp only at h
  split_ifs at h with g1 g2 g3 g4 g5
  simp only [Option.some.injEq, Prod.mk.injEq] at h
  obtain ⟨rfl, rfl⟩ := h
  push Not at g4 g5
  have hden : (b - a).dot (b - a) * (d - c).dot (d - c) - (d - c).dot (b - a) * (d - c).dot (b - a) =
      ((b - a).cross (d - c)).dot ((b - a).cross (d - c)) := by
    rw [lagrange]; simp only [dot]; ring
  have hne : (b - a).dot (b - a) * (d - c).dot (d - c) - (d - c).dot (b - a) * (d - c).dot (b - a) ≠ 0 := by
    intro h
    rw [h, abs_zero] at g3
    exact g3 Tri.eps_pos
  have hdd : (d - c).dot (d - c) ≠ 0 := by
    intro h
    have h0 := dot_self_eq_zero h
    apply hne
    rw [hden, h0]
    simp [dot, cross]
  set mua := ((a - c).dot (d - c) * (d - c).dot (b - a) - (a - c).dot (b - a) * (d - c).dot (d - c)) /
      ((b - a).dot (b - a) * (d - c).dot (d - c) - (d - c).dot (b - a) * (d - c).dot (b - a)) with hmua
  rw [eq_div_iff hne] at hmua
  set mub := ((a - c).dot (d - c) + (d - c).dot (b - a) * mua) / (d - c).dot (d - c) with hmub
  rw [eq_div_iff hdd] at hmub
  refine ⟨⟨mua, g4.1, g4.2, rfl⟩, mub, g5.1, g5.2, ?_⟩
  -- the difference is orthogonal to three independent vectors
  set D := a + mua • (b - a) - (c + mub • (d - c)) with hD
  have o1 : D.dot (d - c) = 0 := by
    rw [hD]
    simp only [dot, sub_x, sub_y, sub_z, add_x, add_y, add_z, smul_x, smul_y, smul_z] at hmub ⊢
    linear_combination -hmub
  have o2 : D.dot (b - a) = 0 := by
    have key : (d - c).dot (d - c) * D.dot (b - a) = 0 := by
      rw [hD]
      simp only [dot, sub_x, sub_y, sub_z, add_x, add_y, add_z, smul_x, smul_y, smul_z] at hmub hmua ⊢
      linear_combination hmua - ((d.x - c.x) * (b.x - a.x) + (d.y - c.y) * (b.y - a.y) + (d.z - c.z) * (b.z - a.z)) * hmub
    exact (mul_eq_zero.1 key).resolve_left hdd
  have o3 : D.dot ((b - a).cross (d - c)) = 0 := by
    rw [hD]
    simp only [dot, cross, sub_x, sub_y, sub_z, add_x, add_y, add_z, smul_x, smul_y, smul_z] at hp ⊢
    linear_combination -hp
  have hz : D = 0 := by
    by_contra h
    refine h (dot_self_eq_zero ?_)
    have h1 := cross_cross_zero o2 o1
    have h2 := lagrange D ((b - a).cross (d - c)) D ((b - a).cross (d - c))
    rw [h1, zero_dot, o3, zero_mul, _root_.sub_zero] at h2
    rcases mul_eq_zero.1 h2.symm with h | h
    · exact h
    · rw [← hden] at h; exact absurd h hne
  have x := congrArg V3.x hz
  have y := congrArg V3.y hz
  have z := congrArg V3.z hz
  simp only [hD, add_x, add_y, add_z, sub_x, sub_y, sub_z, smul_x, smul_y, smul_z, zero_x, zero_y, zero_z] at x y z
  apply V3.ext' <;> simp only [add_x, add_y, add_z, sub_x, sub_y, sub_z, smul_x, smul_y, smul_z]
  · linear_combination x
  · linear_combination y
  · linear_combination z

theorem inside_of_pts {S : Tri ℝ} {p : V3 ℝ} (h : p ∈ S.pts) : insideTriangle S.a S.b S.c p = true := by
  obtain ⟨α, β, γ, ha, hb, hc, hs, rfl⟩ := Tri.pts_comb h
  have e0 := Tri.eps_pos (K := ℝ)
  set n := (S.b - S.a).cross (S.c - S.a) with hn
  have hnn := dot_self_nonneg n
  have k : α = 1 - β - γ := by linarith
  have k1 : ((S.b - (α • S.a + β • S.b + γ • S.c)).cross (S.c - (α • S.a + β • S.b + γ • S.c))).dot n = α * n.dot n := by
    rw [hn, k]; simp only [dot, cross, sub_x, sub_y, sub_z, add_x, add_y, add_z, smul_x, smul_y, smul_z]; ring
  have k2 : ((S.c - (α • S.a + β • S.b + γ • S.c)).cross (S.a - (α • S.a + β • S.b + γ • S.c))).dot n = β * n.dot n := by
    rw [hn, k]; simp only [dot, cross, sub_x, sub_y, sub_z, add_x, add_y, add_z, smul_x, smul_y, smul_z]; ring
  have k3 : ((S.a - (α • S.a + β • S.b + γ • S.c)).cross (S.b - (α • S.a + β • S.b + γ • S.c))).dot n = γ * n.dot n := by
    rw [hn, k]; simp only [dot, cross, sub_x, sub_y, sub_z, add_x, add_y, add_z, smul_x, smul_y, smul_z]; ring
  unfold insideTriangle
  simp only [← hn, k1, k2, k3]
  rw [if_neg, if_neg, if_neg]
  · linarith [mul_nonneg hc hnn]
  · linarith [mul_nonneg hb hnn]
  · linarith [mul_nonneg ha hnn]

/-- A point with weights that are not much below zero is near the triangle. -/
theorem near_of_weights {S : Tri ℝ} {α β γ δ L : ℝ} (hs : α + β + γ = 1) (ha : -δ ≤ α) (hb : -δ ≤ β) (hc : -δ ≤ γ) (hδ : 0 ≤ δ)
    (hL : ∀ x ∈ S.pts, ∀ y ∈ S.pts, x.dist y ≤ L) : ∃ x ∈ S.pts, x.dist (α • S.a + β • S.b + γ • S.c) ≤ 2 * δ * L := by
  have hL0 : 0 ≤ L := (dist_nonneg _ _).trans (hL S.a (Tri.vert_mem (by simp [Tri.verts])) S.a (Tri.vert_mem (by simp [Tri.verts])))
  -- the negative parts
  obtain ⟨a', b', c', pa, pb, pc, na, nb, nc, hr⟩ : ∃ a' b' c' : ℝ, 0 ≤ a' ∧ 0 ≤ b' ∧ 0 ≤ c' ∧ 0 ≤ α + a' ∧ 0 ≤ β + b' ∧ 0 ≤ γ + c' ∧
      a' + b' + c' ≤ 2 * δ := by
    rcases le_total 0 α with h1 | h1 <;> rcases le_total 0 β with h2 | h2 <;> rcases le_total 0 γ with h3 | h3
    · exact ⟨0, 0, 0, by linarith, by linarith, by linarith, by linarith, by linarith, by linarith, by linarith⟩
    · exact ⟨0, 0, -γ, by linarith, by linarith, by linarith, by linarith, by linarith, by linarith, by linarith⟩
    · exact ⟨0, -β, 0, by linarith, by linarith, by linarith, by linarith, by linarith, by linarith, by linarith⟩
    · exact ⟨0, -β, -γ, by linarith, by linarith, by linarith, by linarith, by linarith, by linarith, by linarith⟩
    · exact ⟨-α, 0, 0, by linarith, by linarith, by linarith, by linarith, by linarith, by linarith, by linarith⟩
    · exact ⟨-α, 0, -γ, by linarith, by linarith, by linarith, by linarith, by linarith, by linarith, by linarith⟩
    · exact ⟨-α, -β, 0, by linarith, by linarith, by linarith, by linarith, by linarith, by linarith, by linarith⟩
    · linarith
  set ρ := a' + b' + c' with hρ
  rcases (by positivity : 0 ≤ ρ).eq_or_lt with h0 | h0
  · refine ⟨α • S.a + β • S.b + γ • S.c, (hull_triangle _ _ _ _).2 ⟨α, β, γ, by linarith, by linarith, by linarith, hs, rfl⟩, ?_⟩
    rw [dist_self]; positivity
  · have hx : (1 / (1 + ρ)) • ((α + a') • S.a + (β + b') • S.b + (γ + c') • S.c) ∈ S.pts := by
      refine (hull_triangle _ _ _ _).2 ⟨(α + a') / (1 + ρ), (β + b') / (1 + ρ), (γ + c') / (1 + ρ), by positivity, by positivity, by positivity, ?_, ?_⟩
      · field_simp; linarith
      · apply V3.ext' <;> simp only [add_x, add_y, add_z, smul_x, smul_y, smul_z] <;> ring
    have hy : (1 / ρ) • (a' • S.a + b' • S.b + c' • S.c) ∈ S.pts := by
      refine (hull_triangle _ _ _ _).2 ⟨a' / ρ, b' / ρ, c' / ρ, by positivity, by positivity, by positivity, ?_, ?_⟩
      · field_simp; linarith
      · apply V3.ext' <;> simp only [add_x, add_y, add_z, smul_x, smul_y, smul_z] <;> ring
    refine ⟨_, hx, ?_⟩
    have hd := hL _ hy _ hx
    have e : (1 / (1 + ρ)) • ((α + a') • S.a + (β + b') • S.b + (γ + c') • S.c) - (α • S.a + β • S.b + γ • S.c) =
        ρ • ((1 / ρ) • (a' • S.a + b' • S.b + c' • S.c) - (1 / (1 + ρ)) • ((α + a') • S.a + (β + b') • S.b + (γ + c') • S.c)) := by
      apply V3.ext' <;> simp only [add_x, add_y, add_z, sub_x, sub_y, sub_z, smul_x, smul_y, smul_z] <;> field_simp <;> ring
    rw [dist_eq, e, nrm_smul, ← dist_eq, abs_of_pos h0]
    exact mul_le_mul hr hd (dist_nonneg _ _) (by positivity)

theorem near_of_inside {S : Tri ℝ} {p : V3 ℝ} {L : ℝ} (hS : S.nor ≠ 0) (hp : (p - S.a).dot S.nor = 0)
    (h : insideTriangle S.a S.b S.c p = true) (hL : ∀ x ∈ S.pts, ∀ y ∈ S.pts, x.dist y ≤ L) :
    ∃ x ∈ S.pts, x.dist p ≤ 2 * (Tri.eps / S.nor.dot S.nor) * L := by
  have hpos := Tri.nor_pos hS
  have hb := Tri.bary' hS hp
  have hsum : (p - S.b).dot (S.nor.cross S.e2) / S.nor.dot S.nor + (p - S.c).dot (S.nor.cross S.e3) / S.nor.dot S.nor +
      (p - S.a).dot (S.nor.cross S.e1) / S.nor.dot S.nor = 1 := by
    rw [← add_div, ← add_div, Tri.bary_sum, div_self hpos.ne']
  unfold insideTriangle at h
  simp only at h
  split_ifs at h with g1 g2 g3
  have q1 : ((S.b - p).cross (S.c - p)).dot ((S.b - S.a).cross (S.c - S.a)) = (p - S.b).dot (S.nor.cross S.e2) := by
    simp only [Tri.nor, Tri.e1, Tri.e2, dot, cross, sub_x, sub_y, sub_z]; ring
  have q2 : ((S.c - p).cross (S.a - p)).dot ((S.b - S.a).cross (S.c - S.a)) = (p - S.c).dot (S.nor.cross S.e3) := by
    simp only [Tri.nor, Tri.e1, Tri.e2, Tri.e3, dot, cross, sub_x, sub_y, sub_z]; ring
  have q3 : ((S.a - p).cross (S.b - p)).dot ((S.b - S.a).cross (S.c - S.a)) = (p - S.a).dot (S.nor.cross S.e1) := by
    simp only [Tri.nor, Tri.e1, Tri.e2, dot, cross, sub_x, sub_y, sub_z]; ring
  rw [q1] at g1
  rw [q2] at g2
  rw [q3] at g3
  rw [hb]
  refine near_of_weights hsum ?_ ?_ ?_ (div_nonneg Tri.eps_pos.le hpos.le) hL
  · rw [← neg_div]; exact div_le_div_of_nonneg_right (not_lt.1 g1) hpos.le
  · rw [← neg_div]; exact div_le_div_of_nonneg_right (not_lt.1 g2) hpos.le
  · rw [← neg_div]; exact div_le_div_of_nonneg_right (not_lt.1 g3) hpos.le

/-! ### The two tests for translations -/

theorem add_sub_self (a u : V3 ℝ) : a + u - a = u := by v3

theorem coeffVF_translate (S : Tri ℝ) (u q w : V3 ℝ) :
    coeffVF S ⟨u, u, u⟩ q w = ⟨(q - S.a).dot S.nor, S.nor.dot (w - u), 0, 0⟩ := by
  unfold coeffVF
  simp only [Tri.nor, Tri.e1, Tri.e2, Cubic.mk.injEq, dot, cross, sub_x, sub_y, sub_z, add_x, add_y, add_z]
  refine ⟨by ring, by ring, by ring, by ring⟩

theorem coeffEE_translate (a b c d u w : V3 ℝ) :
    coeffEE a b c d u u w w = ⟨(c - a).dot ((b - a).cross (d - c)), ((b - a).cross (d - c)).dot (w - u), 0, 0⟩ := by
  unfold coeffEE
  simp only [Cubic.mk.injEq, dot, cross, sub_x, sub_y, sub_z, add_x, add_y, add_z]
  refine ⟨?_, ?_, ?_, ?_⟩ <;> first | trivial | ring

theorem isZero_zero : isZero (0 : ℝ) = true := by unfold isZero nearZero; norm_num

/-- What is left of both tests when nothing deforms. -/
theorem linear_test {X Y : Type*} (valid : ℝ → Option X) (point : ℝ → X → Y) (c0 c1 : ℝ) :
    (∀ t y, (if allZero (⟨c0, c1, 0, 0⟩ : Cubic ℝ) then none else finish (solve valid ⟨c0, c1, 0, 0⟩) point) = some (t, y) →
      0 ≤ t ∧ t ≤ 1 ∧ c1 ≠ 0 ∧ c1 * t + c0 = 0 ∧ ∃ x, valid t = some x ∧ y = point t x) ∧
    ∀ t x, 0 ≤ t → t ≤ 1 → nearZero ≤ |c1| → c1 * t + c0 = 0 → valid t = some x →
      (if allZero (⟨c0, c1, 0, 0⟩ : Cubic ℝ) then none else finish (solve valid ⟨c0, c1, 0, 0⟩) point) = some (t, point t x) := by
  constructor
  · intro t y h
    split_ifs at h with hz
    by_cases hc : c1 = 0
    · by_cases h0 : c0 = 0
      · exact absurd (by simp [allZero, hc, h0, isZero_zero]) hz
      · rw [solve_constant valid rfl rfl hc h0] at h
        simp [finish] at h
    · have hs : c1 * (-c0 / c1) + c0 = 0 := by field_simp; ring
      rw [solve_linear valid (p := ⟨c0, c1, 0, 0⟩) rfl rfl hc hs] at h
      split_ifs at h with hr
      · rcases hv : valid (-c0 / c1) with _ | x
        · rw [hv] at h; simp [finish] at h
        · rw [hv] at h
          simp only [Option.map_some, finish, show (1 : ℝ) / 2 * (-c0 / c1 + -c0 / c1) = -c0 / c1 by ring] at h
          rw [if_neg (not_lt.2 hr.2)] at h
          simp only [Option.some.injEq, Prod.mk.injEq] at h
          obtain ⟨rfl, rfl⟩ := h
          exact ⟨hr.1, hr.2, hc, hs, x, hv, rfl⟩
      · simp [finish] at h
  · intro t x h0 h1 hc hs hv
    have hnz : (0 : ℝ) < nearZero := by unfold nearZero; norm_num
    have hne : c1 ≠ 0 := fun h => by rw [h, abs_zero] at hc; linarith
    have hz : allZero (⟨c0, c1, 0, 0⟩ : Cubic ℝ) = false := by
      have : isZero c1 = false := by
        unfold isZero
        simp only [Bool.and_eq_false_iff, decide_eq_false_iff_not, not_lt]
        rcases le_abs.1 hc with h | h
        · exact .inl h
        · exact .inr (by simpa using (by linarith : c1 ≤ -nearZero))
      simp [allZero, this]
    rw [hz]
    simp only [Bool.false_eq_true, if_false]
    rw [solve_linear valid (p := ⟨c0, c1, 0, 0⟩) rfl rfl hne hs, if_pos ⟨h0, h1⟩, hv]
    simp only [Option.map_some, finish, show (1 : ℝ) / 2 * (t + t) = t by ring]
    rw [if_neg (not_lt.2 h1)]

theorem intersectVF_eq (S : Tri ℝ) (u q w : V3 ℝ) : intersectVF S q (S.moveBy u) (q + w) =
    if allZero (⟨(q - S.a).dot S.nor, S.nor.dot (w - u), 0, 0⟩ : Cubic ℝ) then none
    else finish (solve (validVF S ⟨u, u, u⟩ q w) ⟨(q - S.a).dot S.nor, S.nor.dot (w - u), 0, 0⟩) fun t _ => t • w + q := by
  unfold intersectVF
  simp only [Tri.moveBy, add_sub_self, coeffVF_translate]

theorem intersectEE_eq (a b c d u w : V3 ℝ) : intersectEE a b c d (a + u) (b + u) (c + w) (d + w) =
    if allZero (⟨(c - a).dot ((b - a).cross (d - c)), ((b - a).cross (d - c)).dot (w - u), 0, 0⟩ : Cubic ℝ) then none
    else finish (solve (validEE a b c d u u w w) ⟨(c - a).dot ((b - a).cross (d - c)), ((b - a).cross (d - c)).dot (w - u), 0, 0⟩)
      fun _ x => x := by
  unfold intersectEE
  simp only [add_sub_self, coeffEE_translate]

variable {S T : Tri ℝ} {u w : V3 ℝ}

theorem plane_at (S : Tri ℝ) (u q w : V3 ℝ) (t : ℝ) :
    ((q + t • w) - (S.moveBy (t • u)).a).dot S.nor = S.nor.dot (w - u) * t + (q - S.a).dot S.nor := by
  simp only [Tri.moveBy, dot, sub_x, sub_y, sub_z, add_x, add_y, add_z, smul_x, smul_y, smul_z]; ring

theorem VF_some {q x : V3 ℝ} {t : ℝ} (h : intersectVF S q (S.moveBy u) (q + w) = some (t, x)) :
    0 ≤ t ∧ t ≤ 1 ∧ S.nor.dot (w - u) ≠ 0 ∧ ((q + t • w) - (S.moveBy (t • u)).a).dot S.nor = 0 ∧
    insideTriangle (S.moveBy (t • u)).a (S.moveBy (t • u)).b (S.moveBy (t • u)).c (q + t • w) = true ∧ x = q + t • w := by
  rw [intersectVF_eq] at h
  obtain ⟨h0, h1, h2, h3, y, h4, h5⟩ := (linear_test _ _ _ _).1 t x h
  refine ⟨h0, h1, h2, by rw [plane_at]; exact h3, ?_, by rw [h5]; v3⟩
  unfold validVF at h4
  simp only at h4
  split_ifs at h4 with hi
  exact hi

theorem VF_hit {q : V3 ℝ} {t : ℝ} (h0 : 0 ≤ t) (h1 : t ≤ 1) (hc : nearZero ≤ |S.nor.dot (w - u)|)
    (hq : q + t • w ∈ (S.moveBy (t • u)).pts) : ∃ x, intersectVF S q (S.moveBy u) (q + w) = some (t, x) := by
  refine ⟨t • w + q, ?_⟩
  rw [intersectVF_eq]
  refine (linear_test _ (fun t _ => t • w + q) _ _).2 t () h0 h1 hc ?_ ?_
  · rw [← plane_at, ← moveBy_nor S (t • u)]
    obtain ⟨α, β, γ, -, -, -, hs, e⟩ := Tri.pts_comb hq
    rw [e]
    exact (Tri.comb_weights hs).1
  · unfold validVF
    simp only
    have := inside_of_pts hq
    simp only [Tri.moveBy] at this
    rw [if_pos this]

theorem plane_at' (a b c d u w : V3 ℝ) (t : ℝ) :
    ((c + t • w) - (a + t • u)).dot ((b - a).cross (d - c)) = ((b - a).cross (d - c)).dot (w - u) * t + (c - a).dot ((b - a).cross (d - c)) := by
  simp only [dot, sub_x, sub_y, sub_z, add_x, add_y, add_z, smul_x, smul_y, smul_z]; ring

theorem diff_move (a b u : V3 ℝ) : b + u - (a + u) = b - a := by v3

theorem EE_some {a b c d x : V3 ℝ} {t : ℝ} (h : intersectEE a b c d (a + u) (b + u) (c + w) (d + w) = some (t, x)) :
    0 ≤ t ∧ t ≤ 1 ∧ OnSeg (a + t • u, b + t • u) x ∧ OnSeg (c + t • w, d + t • w) x := by
  rw [intersectEE_eq] at h
  obtain ⟨h0, h1, h2, h3, y, h4, h5⟩ := (linear_test _ _ _ _).1 t x h
  refine ⟨h0, h1, ?_⟩
  unfold validEE at h4
  rcases hl : lineLine (a + t • u) (b + t • u) (c + t • w) (d + t • w) with _ | ⟨p, p'⟩
  · rw [hl] at h4; simp at h4
  · rw [hl] at h4
    simp only [Option.map_some, Option.some.injEq] at h4
    rw [h5, ← h4]
    exact lineLine_some hl (by rw [diff_move, diff_move, plane_at']; exact h3)

theorem EE_hit {a b c d z : V3 ℝ} {t : ℝ} (h0 : 0 ≤ t) (h1 : t ≤ 1) (hc : nearZero ≤ |((b - a).cross (d - c)).dot (w - u)|)
    (t1 : tiny (b - a) = false) (t2 : tiny (d - c) = false) (hcr : Tri.eps ≤ ((b - a).cross (d - c)).dot ((b - a).cross (d - c)))
    (z1 : OnSeg (a + t • u, b + t • u) z) (z2 : OnSeg (c + t • w, d + t • w) z) :
    intersectEE a b c d (a + u) (b + u) (c + w) (d + w) = some (t, z) := by
  rw [intersectEE_eq]
  refine (linear_test _ _ _ _).2 t z h0 h1 hc ?_ ?_
  · rw [← plane_at']
    obtain ⟨k, -, -, e1⟩ := z1
    obtain ⟨m, -, -, e2⟩ := z2
    have x := congrArg V3.x (e1.symm.trans e2)
    have y := congrArg V3.y (e1.symm.trans e2)
    have z := congrArg V3.z (e1.symm.trans e2)
    simp only [add_x, add_y, add_z, sub_x, sub_y, sub_z, smul_x, smul_y, smul_z] at x y z
    simp only [dot, cross, sub_x, sub_y, sub_z, add_x, add_y, add_z, smul_x, smul_y, smul_z]
    linear_combination -((b.y - a.y) * (d.z - c.z) - (b.z - a.z) * (d.y - c.y)) * x - ((b.z - a.z) * (d.x - c.x) - (b.x - a.x) * (d.z - c.z)) * y -
      ((b.x - a.x) * (d.y - c.y) - (b.y - a.y) * (d.x - c.x)) * z
  · unfold validEE
    rw [lineLine_hit z1 z2 (by rw [diff_move]; exact t1) (by rw [diff_move]; exact t2) (by rw [diff_move, diff_move]; exact hcr)]
    rfl

end TriCcd
end Fcl
