import Verif.Geom.SphereTriangleLemmas
import Verif.Geom.Thick
import Mathlib.Tactic.NormNum

/-!
# C93: queries between a sphere and a triangle

The triangle is given by its corners in the world frame; the sphere by its radius and its pose.
-/

namespace Fcl.Prim
open V3
open Proj (closer)

/-- What the contact of the query must be: a point of the triangle in the sphere enlarged by `eps`, a unit normal from the
centre of the sphere to it, and (`depth`) what the code reports: the distance of the point from the centre minus the radius. -/
structure TriContact (eps r : ℝ) (o a b c : V3 ℝ) (k : CPoint) : Prop where
  mem : k.pos ∈ (Geo.triangle a b c).pts
  near : k.pos.dist o < r + eps
  unit : k.normal.nrm = 1
  along : k.pos = o + (k.pos.dist o) • k.normal
  depth : k.depth = k.pos.dist o - r

theorem dist_lt_iff {x o : V3 ℝ} {rho : ℝ} (h : 0 < rho) : x.dist o < rho ↔ (x - o).dot (x - o) < rho * rho := by
  rw [dist_eq, ← nrm_mul_self]
  exact ⟨fun k => mul_self_lt_mul_self (nrm_nonneg _) k, fun k => lt_of_mul_self_lt_mul_self₀ h.le k⟩

theorem area_pos' {a b c : V3 ℝ} : HasArea a b c ↔ 0 < ((b - a).cross (c - a)).dot ((b - a).cross (c - a)) := by
  rw [area_pos]
  have e : (a - b).cross (b - c) = (b - a).cross (c - a) := by
    apply V3.ext' <;> simp only [cross, sub_x, sub_y, sub_z] <;> ring
  rw [e]

/-- The last part of the function, for a contact point in the triangle. -/
theorem report_spec {eps r : ℝ} {o a b c k n : V3 ℝ} (hr : 0 < r + eps) (hm : HullOf [a, b, c] k) (hn : n.nrm = 1) {o' : Bool × Option CPoint}
    (ho : o' = if (k - o).dot (k - o) < (r + eps) * (r + eps) then
      if (k - o).dot (k - o) > 0 then (true, some ⟨(k - o).normalized, k, -(r - Real.sqrt ((k - o).dot (k - o)))⟩)
      else (true, some ⟨-n, k, -r⟩) else (false, none)) (hk : (k - o).dot (k - o) < (r + eps) * (r + eps)) :
    ∃ p, o' = (true, some p) ∧ p.pos = k ∧ TriContact eps r o a b c p := by
  rw [if_pos hk] at ho
  have hd : Real.sqrt ((k - o).dot (k - o)) = k.dist o := by rw [dist_eq]; rfl
  by_cases h : (k - o).dot (k - o) > 0
  · rw [if_pos h] at ho
    have hne : k - o ≠ 0 := fun e => by rw [e] at h; simp [dot] at h
    refine ⟨_, ho, rfl, hm, (dist_lt_iff hr).2 hk, nrm_normalized hne, ?_, by simp only [hd]; ring⟩
    simp only [dist_eq, nrm_smul_normalized]; v3
  · rw [if_neg h] at ho
    have h0 : k - o = 0 := dot_self_eq_zero (le_antisymm (not_lt.1 h) (dot_self_nonneg _))
    have hd0 : k.dist o = 0 := by rw [dist_eq, h0, nrm_zero]
    refine ⟨_, ho, rfl, hm, (dist_lt_iff hr).2 hk, by rw [nrm_neg, hn], ?_, by simp only [hd0]; ring⟩
    simp only [hd0]
    have : k = o + (k - o) := by v3
    rw [this, h0]; v3

/-- **C93.** A sphere and a triangle with area: the query reports a contact exactly if a point of the triangle is nearer to the
centre than the radius plus the machine epsilon. It then gives a point of the triangle in the enlarged sphere, and the
direction to it. -/
theorem C93_intersect {eps r : ℝ} (heps : 0 < eps) (hr : 0 ≤ r) (X : Pose ℝ) {a b c : V3 ℝ} (h : HasArea a b c) :
    ((sphereTriangleIntersect eps r X a b c).1 = true ↔ ∃ x ∈ (Geo.triangle a b c).pts, x.dist X.t < r + eps) ∧
    ((sphereTriangleIntersect eps r X a b c).1 = false → (sphereTriangleIntersect eps r X a b c).2 = none) ∧
    ((sphereTriangleIntersect eps r X a b c).1 = true →
      ∃ k, (sphereTriangleIntersect eps r X a b c).2 = some k ∧ TriContact eps r X.t a b c k) := by
  have hrho : 0 < r + eps := by linarith
  obtain ⟨N, hN⟩ : ∃ N, N = (b - a).cross (c - a) := ⟨_, rfl⟩
  obtain ⟨k, hk, e1, e2, hd⟩ := plane_spec h X.t hN rfl
  obtain ⟨z0, z1, z2, hs, hz, hin, hout⟩ := foot_spec h X.t hN hk
  have hn : (k • N).nrm = 1 := nrm_unique zero_le_one (by rw [smul_dot, dot_smul]; linarith)
  have hnn : (k • N).dot (k • N) = 1 := by rw [← nrm_mul_self, hn, one_mul]
  -- a point of the triangle is at least as far away as the plane
  have hplane : ∀ x ∈ (Geo.triangle a b c).pts, (x - X.t).dot (k • N) = -(X.t - a).dot (k • N) := by
    rintro x hx
    obtain ⟨u, v, w, -, -, -, hsum, rfl⟩ := (hull_triangle _ _ _ _).1 hx
    have : u = 1 - v - w := by linarith
    rw [this, hN]
    simp only [dot, cross, sub_x, sub_y, sub_z, smul_x, smul_y, smul_z, add_x, add_y, add_z]; ring
  have hle : ∀ x ∈ (Geo.triangle a b c).pts, x.dist X.t < r + eps → (X.t - a).dot (k • N) < r + eps := by
    intro x hx hxr
    have := V3.unit_dot_le (v := X.t - x) hn
    rw [← dist_eq, V3.dist_comm] at this
    have e := hplane x hx
    have e' : (k • N).dot (X.t - x) = -(x - X.t).dot (k • N) := by simp only [dot, sub_x, sub_y, sub_z, smul_x, smul_y, smul_z]; ring
    rw [e', e] at this
    linarith
  rw [sphereTriangleIntersect]
  simp only [← hN, e1, e2]
  rw [sphereTriangleFrom]
  simp only
  by_cases hc : (X.t - a).dot (k • N) < r + eps
  · rw [if_pos hc]
    by_cases hp : ProjectInTriangle a b c (k • N) X.t
    · rw [if_pos hp]
      obtain ⟨g0, g1, g2⟩ := hin hp
      have hm : HullOf [a, b, c] (X.t - (X.t - a).dot (k • N) • (k • N)) := by
        rw [← hz]; exact (hull_triangle _ _ _ _).2 ⟨z0, z1, z2, g0, g1, g2, hs, rfl⟩
      have hq : (X.t - (X.t - a).dot (k • N) • (k • N) - X.t).dot (X.t - (X.t - a).dot (k • N) • (k • N) - X.t) <
          (r + eps) * (r + eps) := by
        have : X.t - (X.t - a).dot (k • N) • (k • N) - X.t = -(((X.t - a).dot (k • N)) • (k • N)) := by v3
        rw [this, neg_dot, dot_neg, neg_neg, smul_dot ((X.t - a).dot (k • N)), dot_smul ((X.t - a).dot (k • N)), hnn, mul_one]
        exact mul_self_lt_mul_self hd hc
      obtain ⟨p, ho, hpos, ht⟩ := report_spec hrho hm hn rfl hq
      simp only [ho]
      refine ⟨⟨fun _ => ⟨_, ht.mem, ht.near⟩, fun _ => trivial⟩, fun h => (by cases h), fun _ => ⟨p, rfl, ht⟩⟩
    · rw [if_neg hp]
      rcases he : edgeContact (r + eps) a b c X.t with _ | q
      · simp only
        refine ⟨⟨fun h => (by cases h), ?_⟩, fun _ => trivial, fun h => by cases h⟩
        rintro ⟨x, hx, hxr⟩
        exfalso
        obtain ⟨u, v, w, u0, v0, w0, hsum, hx'⟩ := (hull_triangle _ _ _ _).1 hx
        have hclose := fun t h0 h1 => closer x X.t (k • N) (k := -(X.t - a).dot (k • N)) (t := t)
          (by rw [hplane x hx, hnn, mul_one]) h0 h1
        have hfoot : X.t + (-(X.t - a).dot (k • N)) • (k • N) = z0 • a + z1 • b + z2 • c := by rw [hz]; v3
        rw [hfoot] at hclose
        have hsq := (dist_lt_iff hrho).1 hxr
        suffices ∃ t : ℝ, 0 ≤ t ∧ t ≤ 1 ∧ 0 ≤ (1 - t) * u + t * z0 ∧ 0 ≤ (1 - t) * v + t * z1 ∧ 0 ≤ (1 - t) * w + t * z2 ∧
            ((1 - t) * u + t * z0 = 0 ∨ (1 - t) * v + t * z1 = 0 ∨ (1 - t) * w + t * z2 = 0) by
          obtain ⟨t, h0, h1, y0, y1, y2, hy⟩ := this
          have hh := (hclose t h0 h1).trans_lt hsq
          have e : (1 - t) • x + t • (z0 • a + z1 • b + z2 • c) =
              ((1 - t) * u + t * z0) • a + ((1 - t) * v + t * z1) • b + ((1 - t) * w + t * z2) • c := by rw [hx']; v3
          rw [e] at hh
          obtain ⟨q, hq⟩ := edgeContact_isSome y0 y1 y2 (by linear_combination (1 - t) * hsum + t * hs) hy hh
          rw [he] at hq; cases hq
        by_cases hneg : z0 < 0 ∨ z1 < 0 ∨ z2 < 0
        · obtain ⟨t, h0, h1, j, hj, -, hj0, hall⟩ := Proj.exit 3 (fun i => if i = 0 then u else if i = 1 then v else w)
            (fun i => if i = 0 then z0 else if i = 1 then z1 else z2)
            (fun i hi => by split_ifs <;> assumption)
            (by
              rcases hneg with h | h | h
              · exact ⟨0, by norm_num, by simpa using h⟩
              · exact ⟨1, by norm_num, by simpa using h⟩
              · exact ⟨2, by norm_num, by simpa using h⟩)
          have a0 := hall 0 (by norm_num)
          have a1 := hall 1 (by norm_num)
          have a2 := hall 2 (by norm_num)
          norm_num at a0 a1 a2
          refine ⟨t, h0, h1, a0, a1, a2, ?_⟩
          interval_cases j
          · left; simpa using hj0
          · right; left; simpa using hj0
          · right; right; simpa using hj0
        · push Not at hneg
          obtain ⟨g0, g1, g2⟩ := hneg
          refine ⟨1, zero_le_one, le_rfl, by linarith, by linarith, by linarith, ?_⟩
          rcases hout hp with h | h | h
          · left; linarith
          · right; left; linarith
          · right; right; linarith
      · obtain ⟨hm, hq⟩ := edgeContact_mem he
        obtain ⟨p, ho, hpos, ht⟩ := report_spec hrho hm hn rfl hq
        simp only [ho]
        refine ⟨⟨fun _ => ⟨_, ht.mem, ht.near⟩, fun _ => trivial⟩, fun h => (by cases h), fun _ => ⟨p, rfl, ht⟩⟩
  · rw [if_neg hc]
    simp only
    exact ⟨⟨fun h => (by cases h), fun ⟨x, hx, hxr⟩ => absurd (hle x hx hxr) hc⟩, fun _ => trivial, fun h => by cases h⟩

/-- **C93.** The contact of a sphere and a triangle that have a common point is reported; and one that is reported is one up to
a gap smaller than the machine epsilon. -/
theorem C93_detects {eps r : ℝ} (heps : 0 < eps) (hr : 0 ≤ r) {X : Pose ℝ} (hX : X.Rigid) {a b c : V3 ℝ} (h : HasArea a b c) :
    (Touch (Placed X.R X.t (Geo.sphere r).pts) (Geo.triangle a b c).pts → (sphereTriangleIntersect eps r X a b c).1 = true) ∧
    ((sphereTriangleIntersect eps r X a b c).1 = true →
      ∃ p ∈ Placed X.R X.t (Geo.sphere r).pts, ∃ q ∈ (Geo.triangle a b c).pts, p.dist q < eps) := by
  have hA : Placed X.R X.t (Geo.sphere r).pts = Thick {X.t} r := placed_ball hX hr
  rw [hA, (C93_intersect heps hr X h).1]
  constructor
  · rintro ⟨p, ⟨x, rfl, hp⟩, hq⟩
    exact ⟨p, hq, by linarith⟩
  · rintro ⟨x, hx, hxr⟩
    obtain hl | hl := le_or_gt (x.dist X.t) r
    · exact ⟨x, ⟨X.t, rfl, hl⟩, x, hx, by rw [V3.dist_self]; exact heps⟩
    · obtain ⟨p, h1, h2⟩ := between (a := X.t) (b := x) (r1 := r) (r2 := x.dist X.t - r) hr (by linarith)
        (by rw [V3.dist_comm]; linarith)
      exact ⟨p, ⟨X.t, rfl, h1⟩, x, hx, by linarith⟩

/-- **C93.** If the point of the plane of the triangle nearest to the centre is inside the triangle, the contact point is the
point of the triangle deepest in the sphere. -/
theorem C93_deepest {eps r : ℝ} {X : Pose ℝ} {a b c : V3 ℝ} (h : HasArea a b c) {u v w : ℝ}
    (hu : 0 < u) (hv : 0 < v) (hw : 0 < w) (hs : u + v + w = 1) {y : V3 ℝ} (hy : y = u • a + v • b + w • c)
    (h1 : (y - X.t).dot (b - a) = 0) (h2 : (y - X.t).dot (c - a) = 0) (hr : y.dist X.t < r + eps) :
    ∃ k, (sphereTriangleIntersect eps r X a b c) = (true, some k) ∧ k.pos = y ∧
      ∀ x ∈ (Geo.triangle a b c).pts, k.pos.dist X.t ≤ x.dist X.t := by
  have hrho : 0 < r + eps := (V3.dist_nonneg _ _).trans_lt hr
  obtain ⟨N, hN⟩ : ∃ N, N = (b - a).cross (c - a) := ⟨_, rfl⟩
  obtain ⟨k, hk, e1, e2, hd⟩ := plane_spec h X.t hN rfl
  obtain ⟨z0, z1, z2, hz1, hz, hin, hout⟩ := foot_spec h X.t hN hk
  have hn : (k • N).nrm = 1 := nrm_unique zero_le_one (by rw [smul_dot, dot_smul]; linarith)
  have hnn : (k • N).dot (k • N) = 1 := by rw [← nrm_mul_self, hn, one_mul]
  -- the coordinates of the foot are the given ones
  obtain ⟨f, hf⟩ : ∃ f, f = z0 • a + z1 • b + z2 • c := ⟨_, rfl⟩
  have hfb : (f - X.t).dot (b - a) = 0 := by
    rw [hf, hz]
    have : X.t - (X.t - a).dot (k • N) • (k • N) - X.t = (-((X.t - a).dot (k • N) * k)) • N := by v3
    rw [this, smul_dot, hN]
    have : ((b - a).cross (c - a)).dot (b - a) = 0 := by simp only [dot, cross]; ring
    rw [this, mul_zero]
  have hfc : (f - X.t).dot (c - a) = 0 := by
    rw [hf, hz]
    have : X.t - (X.t - a).dot (k • N) • (k • N) - X.t = (-((X.t - a).dot (k • N) * k)) • N := by v3
    rw [this, smul_dot, hN]
    have : ((b - a).cross (c - a)).dot (c - a) = 0 := by simp only [dot, cross]; ring
    rw [this, mul_zero]
  have hyf : y - f = (v - z1) • (b - a) + (w - z2) • (c - a) := by
    have e1 : u = 1 - v - w := by linarith
    have e2 : z0 = 1 - z1 - z2 := by linarith
    rw [hy, hf, e1, e2]; v3
  have hsame : y - f = 0 := by
    refine dot_self_eq_zero ?_
    have : (y - f).dot (y - f) = (v - z1) * ((y - X.t).dot (b - a) - (f - X.t).dot (b - a)) +
        (w - z2) * ((y - X.t).dot (c - a) - (f - X.t).dot (c - a)) := by
      conv_lhs => rw [hyf]
      have : y - f = (y - X.t) - (f - X.t) := by v3
      have e : ((v - z1) • (b - a) + (w - z2) • (c - a)).dot (y - f) = (v - z1) * (y - f).dot (b - a) + (w - z2) * (y - f).dot (c - a) := by
        simp only [dot, add_x, add_y, add_z, smul_x, smul_y, smul_z]; ring
      rw [← hyf] at e ⊢
      rw [e, this]; simp only [sub_dot]
    rw [this, h1, h2, hfb, hfc]; ring
  have hyf' : y = f := by
    have : y = f + (y - f) := by v3
    rw [this, hsame]; v3
  -- so they are positive
  have hcoef : (v - z1) • (b - a) + (w - z2) • (c - a) = 0 := by rw [← hyf]; exact hsame
  have hA := area_pos'.1 h
  have hv1 : v - z1 = 0 := by
    have e : ((v - z1) • (b - a) + (w - z2) • (c - a)).cross (c - a) = (v - z1) • ((b - a).cross (c - a)) := by
      apply V3.ext' <;> simp only [cross, add_x, add_y, add_z, smul_x, smul_y, smul_z] <;> ring
    rw [hcoef] at e
    have e' : (v - z1) * ((b - a).cross (c - a)).dot ((b - a).cross (c - a)) = 0 := by
      rw [← smul_dot, ← e]; simp [dot, cross]
    exact (mul_eq_zero.1 e').resolve_right hA.ne'
  have hw1 : w - z2 = 0 := by
    have e : (b - a).cross ((v - z1) • (b - a) + (w - z2) • (c - a)) = (w - z2) • ((b - a).cross (c - a)) := by
      apply V3.ext' <;> simp only [cross, add_x, add_y, add_z, smul_x, smul_y, smul_z] <;> ring
    rw [hcoef] at e
    have e' : (w - z2) * ((b - a).cross (c - a)).dot ((b - a).cross (c - a)) = 0 := by
      rw [← smul_dot, ← e]; simp [dot, cross]
    exact (mul_eq_zero.1 e').resolve_right hA.ne'
  have hp : ProjectInTriangle a b c (k • N) X.t := by
    by_contra hc
    rcases hout hc with h | h | h <;> linarith
  have hpt : X.t - (X.t - a).dot (k • N) • (k • N) = y := by rw [← hz, ← hf, hyf']
  have hq : (y - X.t).dot (y - X.t) = (X.t - a).dot (k • N) * (X.t - a).dot (k • N) := by
    have : y - X.t = -(((X.t - a).dot (k • N)) • (k • N)) := by rw [← hpt]; v3
    rw [this, neg_dot, dot_neg, neg_neg, smul_dot ((X.t - a).dot (k • N)), dot_smul ((X.t - a).dot (k • N)), hnn, mul_one]
  have hc : (X.t - a).dot (k • N) < r + eps := by
    have := (dist_lt_iff hrho).1 hr
    rw [hq] at this
    exact lt_of_mul_self_lt_mul_self₀ hrho.le this
  rw [sphereTriangleIntersect]
  simp only [← hN, e1, e2]
  rw [sphereTriangleFrom]
  simp only
  rw [if_pos hc, if_pos hp, hpt]
  have hm : HullOf [a, b, c] y := (hull_triangle _ _ _ _).2 ⟨u, v, w, hu.le, hv.le, hw.le, hs, hy⟩
  obtain ⟨p, ho, hpos, ht⟩ := report_spec hrho hm hn rfl ((dist_lt_iff hrho).1 hr)
  refine ⟨p, ho, hpos, ?_⟩
  intro x hx
  obtain ⟨u', v', w', -, -, -, hs', hx'⟩ := (hull_triangle _ _ _ _).1 hx
  rw [hpos, dist_eq, dist_eq, nrm_le_iff (nrm_nonneg _), nrm_mul_self]
  have e : x - X.t = (y - X.t) + ((v' - v) • (b - a) + (w' - w) • (c - a)) := by
    have e1 : u = 1 - v - w := by linarith
    have e2 : u' = 1 - v' - w' := by linarith
    rw [hx', hy, e1, e2]; v3
  obtain ⟨g, hg⟩ : ∃ g, g = (v' - v) • (b - a) + (w' - w) • (c - a) := ⟨_, rfl⟩
  have hg0 : (y - X.t).dot g = 0 := by
    rw [hg, dot_add, dot_smul, dot_smul, h1, h2]; ring
  rw [e, ← hg]
  have : ((y - X.t) + g).dot ((y - X.t) + g) = (y - X.t).dot (y - X.t) + 2 * (y - X.t).dot g + g.dot g := by
    simp only [dot, add_x, add_y, add_z]; ring
  rw [this, hg0]
  have := dot_self_nonneg g
  linarith

/-! ### Distance -/

/-- What a distance query must do, when its points are `f p` and `g q` in the world frame. -/
structure TriDist (A B : Set (V3 ℝ)) (f g : V3 ℝ → V3 ℝ) (o : TriOut) : Prop where
  ret : o.ret = true ↔ ¬ Touch A B
  apart : o.ret = true → ∃ d p q, o.dist = some d ∧ o.pts = some (p, q) ∧ 0 < d ∧ IsDist A B d (f p) (g q)

theorem ball_tri {r : ℝ} (hr : 0 ≤ r) {o y : V3 ℝ} {a b c : V3 ℝ} (hy : HullOf [a, b, c] y)
    (hle : ∀ x, HullOf [a, b, c] x → (y - o).dot (y - o) ≤ (x - o).dot (x - o)) :
    (Touch (Thick {o} r) (Geo.triangle a b c).pts ↔ (y - o).dot (y - o) ≤ r * r) ∧
    ((y - o).dot (y - o) > r * r → 0 < Real.sqrt ((y - o).dot (y - o)) - r ∧
      IsDist (Thick {o} r) (Geo.triangle a b c).pts (Real.sqrt ((y - o).dot (y - o)) - r) (o - r • (o - y).normalized) y) := by
  have hd : Real.sqrt ((y - o).dot (y - o)) = y.dist o := by rw [dist_eq]; rfl
  have hD : IsDist {o} (Geo.triangle a b c).pts (y.dist o) o y := by
    refine ⟨rfl, hy, V3.dist_comm _ _, ?_⟩
    rintro _ rfl x hx
    rw [V3.dist_comm _ x, dist_eq, dist_eq, nrm_le_iff (nrm_nonneg _), nrm_mul_self]
    exact hle x hx
  have hsq : y.dist o ≤ r ↔ (y - o).dot (y - o) ≤ r * r := by rw [dist_eq, nrm_le_iff hr]
  constructor
  · rw [← hsq]
    have := thick_touch hD hr le_rfl
    rwa [thick_zero, add_zero] at this
  · intro h
    have hlt : r < y.dist o := by
      by_contra h'
      exact absurd (hsq.1 (not_lt.1 h')) (not_le.2 h)
    have k := thick_dist hD hr le_rfl (by rw [add_zero]; exact hlt)
    rw [thick_zero] at k
    have hp : 0 < y.dist o := hr.trans_lt hlt
    have hn : (o - y).nrm = y.dist o := by rw [V3.dist_comm, dist_eq]
    have e1 : o + (r / y.dist o) • (y - o) = o - r • (o - y).normalized := by
      rw [normalized, hn, if_neg hp.ne']
      apply V3.ext' <;> simp <;> field_simp <;> ring
    have e2 : y - ((0 : ℝ) / y.dist o) • (y - o) = y := by rw [zero_div]; v3
    rw [e1, e2, sub_zero] at k
    rw [hd]
    exact ⟨by linarith, k⟩

/-- The nearest point by the seven regions. -/
theorem triSqr_nearest {a b c : V3 ℝ} (h : HasArea a b c) (o : V3 ℝ) : ∃ y, HullOf [a, b, c] y ∧
    (∀ x, HullOf [a, b, c] x → (y - o).dot (y - o) ≤ (x - o).dot (x - o)) ∧
    (triSqr ((b - a).dot (b - a)) ((b - a).dot (c - a)) ((c - a).dot (c - a)) ((a - o).dot (b - a)) ((a - o).dot (c - a))
      ((a - o).dot (a - o))).2.2 = (y - o).dot (y - o) := by
  have hA := area_pos'.1 h
  have hl : ((b - a).cross (c - a)).dot ((b - a).cross (c - a)) =
      (b - a).dot (b - a) * (c - a).dot (c - a) - (b - a).dot (c - a) * (b - a).dot (c - a) := by
    simp only [dot, cross]; ring
  rw [hl] at hA
  have h0 : 0 < (b - a).dot (b - a) := by
    refine lt_of_le_of_ne (dot_self_nonneg _) fun e => ?_
    rw [← e] at hA; nlinarith [mul_self_nonneg ((b - a).dot (c - a))]
  have h1 : 0 < (c - a).dot (c - a) := by
    refine lt_of_le_of_ne (dot_self_nonneg _) fun e => ?_
    rw [← e] at hA; nlinarith [mul_self_nonneg ((b - a).dot (c - a))]
  obtain ⟨s0, t0, st, hv, hm⟩ := triSqr_min ((a - o).dot (b - a)) ((a - o).dot (c - a)) ((a - o).dot (a - o)) h0 h1 hA
  generalize triSqr ((b - a).dot (b - a)) ((b - a).dot (c - a)) ((c - a).dot (c - a)) ((a - o).dot (b - a)) ((a - o).dot (c - a))
      ((a - o).dot (a - o)) = q at *
  have hq : ∀ s t : ℝ, quad ((b - a).dot (b - a)) ((b - a).dot (c - a)) ((c - a).dot (c - a)) ((a - o).dot (b - a))
      ((a - o).dot (c - a)) ((a - o).dot (a - o)) s t =
      ((1 - s - t) • a + s • b + t • c - o).dot ((1 - s - t) • a + s • b + t • c - o) := by
    intro s t
    simp only [quad, dot, add_x, add_y, add_z, sub_x, sub_y, sub_z, smul_x, smul_y, smul_z]; ring
  refine ⟨(1 - q.1 - q.2.1) • a + q.1 • b + q.2.1 • c, (hull_triangle _ _ _ _).2
    ⟨_, _, _, by linarith, s0, t0, by ring, rfl⟩, ?_, by rw [hv, hq]⟩
  intro x hx
  obtain ⟨u, v, w, hu, hv', hw, hs, rfl⟩ := (hull_triangle _ _ _ _).1 hx
  rw [← hq, ← hv]
  have e : u = 1 - v - w := by linarith
  rw [e, ← hq]
  exact hm v w hv' hw (by linarith)

/-- **C93.** The distance query without points: exact for triangles with area; it gives -1 for a contact. -/
theorem C93_distance {r : ℝ} (hr : 0 ≤ r) {X : Pose ℝ} (hX : X.Rigid) {a b c : V3 ℝ} (h : HasArea a b c) (A B : Set (V3 ℝ))
    (hA : A = Placed X.R X.t (Geo.sphere r).pts) (hB : B = (Geo.triangle a b c).pts) :
    ((sphereTriangleDist r X a b c).ret = true ↔ ¬ Touch A B) ∧
    ((sphereTriangleDist r X a b c).ret = false → (sphereTriangleDist r X a b c).dist = some (-1)) ∧
    ((sphereTriangleDist r X a b c).ret = true →
      ∃ d p q, (sphereTriangleDist r X a b c).dist = some d ∧ 0 < d ∧ IsDist A B d p q) := by
  have hA' : A = Thick {X.t} r := by rw [hA]; exact placed_ball hX hr
  subst hA' hB
  obtain ⟨y, hy, hle, he⟩ := triSqr_nearest h X.t
  obtain ⟨k1, k2⟩ := ball_tri hr hy hle
  rw [sphereTriangleDist]
  simp only [he]
  rw [if_neg (not_lt.2 (dot_self_nonneg _)), k1]
  split
  · rename_i hc
    obtain ⟨p1, p2⟩ := k2 hc
    exact ⟨by simpa using hc, fun h => (by cases h), fun _ => ⟨_, _, _, rfl, p1, p2⟩⟩
  · rename_i hc
    push Not at hc
    exact ⟨by simpa using hc, fun _ => rfl, fun h => by cases h⟩

/-- **C93.** The distance query with points: exact for triangles with area. The point of the sphere is in the frame of the
sphere, the point of the triangle in the world frame. For a contact nothing is written. -/
theorem C93_points {r : ℝ} (hr : 0 ≤ r) {X : Pose ℝ} (hX : X.Rigid) {a b c : V3 ℝ} (h : HasArea a b c) :
    TriDist (Placed X.R X.t (Geo.sphere r).pts) (Geo.triangle a b c).pts X.apply id (sphereTrianglePts r X a b c) := by
  have hA : Placed X.R X.t (Geo.sphere r).pts = Thick {X.t} r := placed_ball hX hr
  rw [hA]
  obtain ⟨l0, l1, l2, ls, lv, ln, -⟩ := Proj.triangle_spec X.t (area_pos.1 h)
  have hy : HullOf [a, b, c] ((Proj.triangle a b c X.t).par 0 • a + (Proj.triangle a b c X.t).par 1 • b +
      (Proj.triangle a b c X.t).par 2 • c) := (hull_triangle _ _ _ _).2 ⟨_, _, _, l0, l1, l2, ls, rfl⟩
  obtain ⟨k1, k2⟩ := ball_tri hr (o := X.t) hy (by
    intro x hx
    obtain ⟨u, v, w, hu, hv', hw, hs, rfl⟩ := (hull_triangle _ _ _ _).1 hx
    rw [← lv]; exact ln u v w hu hv' hw hs)
  rw [← lv] at k1 k2
  rw [sphereTrianglePts]
  simp only
  split
  · rename_i hc
    obtain ⟨p1, p2⟩ := k2 hc
    refine ⟨by rw [k1]; simpa using hc, fun _ => ⟨_, _, _, rfl, rfl, p1, ?_⟩⟩
    rw [Pose.apply_inv hX]; exact p2
  · rename_i hc
    push Not at hc
    exact ⟨by rw [k1]; simpa using hc, fun h => by cases h⟩

theorem area_apply {X : Pose ℝ} (hX : X.Rigid) {a b c : V3 ℝ} (h : HasArea a b c) :
    HasArea (X.apply a) (X.apply b) (X.apply c) := by
  rw [area_pos'] at h ⊢
  have e : ∀ u v : V3 ℝ, (u.cross v).dot (u.cross v) = u.dot u * v.dot v - u.dot v * u.dot v := fun u v => by
    simp only [dot, cross]; ring
  rw [e] at h ⊢
  rw [Pose.apply_sub, Pose.apply_sub, M3.Orthonormal.dot hX, M3.Orthonormal.dot hX, M3.Orthonormal.dot hX]
  exact h

theorem triangle_placed (X : Pose ℝ) (a b c : V3 ℝ) :
    Placed X.R X.t (Geo.triangle a b c).pts = (Geo.triangle (X.apply a) (X.apply b) (X.apply c)).pts := by
  ext q
  constructor
  · rintro ⟨p, hp, rfl⟩
    obtain ⟨u, v, w, hu, hv, hw, hs, rfl⟩ := (hull_triangle _ _ _ _).1 hp
    refine (hull_triangle _ _ _ _).2 ⟨u, v, w, hu, hv, hw, hs, ?_⟩
    have e : u = 1 - v - w := by linarith
    subst e
    simp only [Pose.apply]
    apply V3.ext' <;> simp [M3.mulVec, dot] <;> ring
  · intro hq
    obtain ⟨u, v, w, hu, hv, hw, hs, rfl⟩ := (hull_triangle _ _ _ _).1 hq
    refine ⟨u • a + v • b + w • c, (hull_triangle _ _ _ _).2 ⟨u, v, w, hu, hv, hw, hs, rfl⟩, ?_⟩
    have e : u = 1 - v - w := by linarith
    subst e
    simp only [Pose.apply]
    apply V3.ext' <;> simp [M3.mulVec, dot] <;> ring

/-- **C93.** The same for a triangle given in the frame of a mesh: here each point is in the frame of its object. -/
theorem C93_posed {r : ℝ} (hr : 0 ≤ r) {X1 X2 : Pose ℝ} (hX1 : X1.Rigid) (hX2 : X2.Rigid) {a b c : V3 ℝ}
    (h : HasArea a b c) : TriDist (Placed X1.R X1.t (Geo.sphere r).pts) (Placed X2.R X2.t (Geo.triangle a b c).pts) X1.apply
      X2.apply (sphereTrianglePosed r X1 a b c X2) := by
  have k := C93_points hr hX1 (area_apply hX2 h)
  rw [triangle_placed]
  refine ⟨k.ret, fun ht => ?_⟩
  obtain ⟨d, p, q, e1, e2, h0, h1⟩ := k.apart ht
  refine ⟨d, p, X2.inv.apply q, e1, ?_, h0, ?_⟩
  · simp only [sphereTrianglePosed, e2, Option.map_some]
  · rw [Pose.apply_inv hX2]; exact h1

/-! ### A triangle and three spheres -/

/-- A right triangle with legs of length 10. -/
def exA : V3 ℝ := ⟨0, 0, 0⟩
def exB : V3 ℝ := ⟨10, 0, 0⟩
def exC : V3 ℝ := ⟨0, 10, 0⟩

theorem exArea : HasArea exA exB exC := by
  intro h
  have := congrArg V3.z h
  norm_num [exA, exB, exC, cross] at this

/-- The sphere of radius 1 about (2, 2, 1/2) meets the triangle inside. -/
theorem C93_instance (eps : ℝ) (he : 0 < eps) :
    ∃ k, sphereTriangleIntersect eps 1 ⟨M3.one, ⟨2, 2, 1 / 2⟩⟩ exA exB exC = (true, some k) ∧ k.pos = ⟨2, 2, 0⟩ ∧
      ∀ x ∈ (Geo.triangle exA exB exC).pts, k.pos.dist ⟨2, 2, 1 / 2⟩ ≤ x.dist ⟨2, 2, 1 / 2⟩ := by
  refine C93_deepest (X := ⟨M3.one, ⟨2, 2, 1 / 2⟩⟩) exArea (u := 3 / 5) (v := 1 / 5) (w := 1 / 5) (by norm_num) (by norm_num)
    (by norm_num) (by norm_num) ?_ ?_ ?_ ?_
  · apply V3.ext' <;> norm_num [exA, exB, exC]
  · norm_num [exA, exB, exC, dot]
  · norm_num [exA, exB, exC, dot]
  · rw [dist_lt_iff (by linarith)]
    norm_num [dot]; nlinarith

/-- The sphere of radius 1 about (2, 2, 3) is two units away from the triangle. -/
theorem C93_distance_instance : ∃ p q, (sphereTrianglePts 1 ⟨M3.one, ⟨2, 2, 3⟩⟩ exA exB exC).dist = some 2 ∧
    (sphereTrianglePts 1 ⟨M3.one, ⟨2, 2, 3⟩⟩ exA exB exC).pts = some (p, q) ∧
    IsDist (Placed M3.one ⟨2, 2, 3⟩ (Geo.sphere 1).pts) (Geo.triangle exA exB exC).pts 2 (p + ⟨2, 2, 3⟩) q := by
  have hX : (⟨M3.one, ⟨2, 2, 3⟩⟩ : Pose ℝ).Rigid := M3.orthonormal_one
  have k := C93_points (r := 1) zero_le_one hX exArea
  have hy : HullOf [exA, exB, exC] ⟨2, 2, 0⟩ := (hull_triangle _ _ _ _).2
    ⟨3 / 5, 1 / 5, 1 / 5, by norm_num, by norm_num, by norm_num, by norm_num,
      by apply V3.ext' <;> norm_num [exA, exB, exC]⟩
  have hle : ∀ x, HullOf [exA, exB, exC] x → ((⟨2, 2, 0⟩ : V3 ℝ) - ⟨2, 2, 3⟩).dot (⟨2, 2, 0⟩ - ⟨2, 2, 3⟩) ≤
      (x - ⟨2, 2, 3⟩).dot (x - ⟨2, 2, 3⟩) := by
    intro x hx
    obtain ⟨u, v, w, -, -, -, -, rfl⟩ := (hull_triangle _ _ _ _).1 hx
    norm_num [exA, exB, exC, dot]
    nlinarith [sq_nonneg (v * 10 - 2), sq_nonneg (w * 10 - 2)]
  obtain ⟨k1, k2⟩ := ball_tri (r := 1) zero_le_one hy hle
  have e9 : ((⟨2, 2, 0⟩ : V3 ℝ) - ⟨2, 2, 3⟩).dot (⟨2, 2, 0⟩ - ⟨2, 2, 3⟩) = 3 * 3 := by norm_num [dot]
  rw [e9, Real.sqrt_mul_self (by norm_num)] at k2
  rw [e9] at k1
  have hA : Placed M3.one ⟨2, 2, 3⟩ (Geo.sphere 1).pts = Thick {⟨2, 2, 3⟩} 1 := placed_ball hX zero_le_one
  have ht : (sphereTrianglePts 1 ⟨M3.one, ⟨2, 2, 3⟩⟩ exA exB exC).ret = true := by
    rw [k.ret]
    simp only
    rw [hA, k1]; norm_num
  obtain ⟨d, p, q, e1, e2, h0, h1⟩ := k.apart ht
  have k3 := (k2 (by norm_num)).2
  have hd : d = 2 := by
    simp only at h1
    rw [hA] at h1
    have l1 := k3.least _ h1.left _ h1.right
    have l2 := h1.least _ k3.left _ k3.right
    rw [h1.attained] at l1
    rw [k3.attained] at l2
    linarith
  subst hd
  refine ⟨p, q, e1, e2, ?_⟩
  have : (⟨M3.one, ⟨2, 2, 3⟩⟩ : Pose ℝ).apply p = p + ⟨2, 2, 3⟩ := by simp only [Pose.apply, M3.one_mulVec]
  rw [← this]; exact h1

/-! ### What does not hold -/

/-- **C93, violated.** The depth has the wrong sign: whenever the query reports a contact, the depth is at most the machine
epsilon, however deep the sphere is in the triangle. -/
theorem C93_violated_depth {eps r : ℝ} (heps : 0 < eps) (hr : 0 ≤ r) (X : Pose ℝ) {a b c : V3 ℝ} (h : HasArea a b c) (k : CPoint)
    (hk : sphereTriangleIntersect eps r X a b c = (true, some k)) : k.depth < eps := by
  obtain ⟨k', e, ht⟩ := (C93_intersect heps hr X h).2.2 (by rw [hk])
  rw [hk] at e
  cases e
  rw [ht.depth]
  linarith [ht.near]

/-- **C93, violated.** The contact is not at the deepest point: for the sphere of radius 5 about (3, -1, 0) the corner at
the origin is reported, at distance √10 from the centre, though (3, 0, 0) is at distance 1: the last edge near enough wins. -/
theorem C93_violated_deepest : ∃ k, sphereTriangleIntersect (1 / 1000) 5 ⟨M3.one, ⟨3, -1, 0⟩⟩ exA exB exC = (true, some k) ∧
    k.pos = ⟨0, 0, 0⟩ ∧ (⟨3, 0, 0⟩ : V3 ℝ) ∈ (Geo.triangle exA exB exC).pts ∧
    (⟨3, 0, 0⟩ : V3 ℝ).dist ⟨3, -1, 0⟩ < k.pos.dist ⟨3, -1, 0⟩ := by
  have hN : ((exB - exA).cross (exC - exA)).normalized = ⟨0, 0, 1⟩ := by
    have e : (exB - exA).cross (exC - exA) = ⟨0, 0, 100⟩ := by apply V3.ext' <;> norm_num [exA, exB, exC, cross]
    have hn : (⟨0, 0, 100⟩ : V3 ℝ).nrm = 100 := nrm_unique (by norm_num) (by norm_num [dot])
    rw [e, normalized, hn, if_neg (by norm_num)]
    apply V3.ext' <;> norm_num
  have hd : ((⟨3, -1, 0⟩ : V3 ℝ) - exA).dot ⟨0, 0, 1⟩ = 0 := by norm_num [exA, dot]
  have hp : ¬ ProjectInTriangle exA exB exC ⟨0, 0, 1⟩ ⟨3, -1, 0⟩ := by
    norm_num [ProjectInTriangle, exA, exB, exC, cross, dot]
  have hs : segmentSqrDistance exC exA ⟨3, -1, 0⟩ = (10, ⟨0, 0, 0⟩) := by
    norm_num [segmentSqrDistance, exA, exC, dot]
    apply V3.ext' <;> norm_num
  refine ⟨⟨(⟨0, 0, 0⟩ - ⟨3, -1, 0⟩ : V3 ℝ).normalized, ⟨0, 0, 0⟩, -(5 - Real.sqrt 10)⟩, ?_, rfl, ?_, ?_⟩
  · rw [sphereTriangleIntersect]
    simp only [hN, hd, lt_irrefl, if_false]
    rw [sphereTriangleFrom]
    simp only
    rw [if_pos (by norm_num), if_neg hp, edgeContact]
    simp only [hs]
    rw [if_pos (by norm_num)]
    simp only
    have e10 : ((⟨0, 0, 0⟩ : V3 ℝ) - ⟨3, -1, 0⟩).dot (⟨0, 0, 0⟩ - ⟨3, -1, 0⟩) = 10 := by norm_num [dot]
    rw [e10, if_pos (by norm_num), if_pos (by norm_num)]
  · exact (hull_triangle _ _ _ _).2 ⟨7 / 10, 3 / 10, 0, by norm_num, by norm_num, le_rfl, by norm_num,
      by apply V3.ext' <;> norm_num [exA, exB, exC]⟩
  · rw [dist_eq, dist_eq]
    have e1 : ((⟨3, 0, 0⟩ : V3 ℝ) - ⟨3, -1, 0⟩).nrm = 1 := nrm_unique zero_le_one (by norm_num [dot])
    rw [e1]
    by_contra h
    push Not at h
    rw [nrm_le_iff zero_le_one] at h
    norm_num [dot] at h

/-- **C93, violated.** A triangle without area is reported to collide with every sphere, wherever it is, with the centre of
the sphere as contact point. -/
theorem C93_violated_flat {eps r : ℝ} (heps : 0 < eps) (hr : 0 ≤ r) (X : Pose ℝ) {a b c : V3 ℝ} (h : ¬ HasArea a b c) :
    ∃ k, sphereTriangleIntersect eps r X a b c = (true, some k) ∧ k.pos = X.t ∧ k.normal = 0 := by
  have h0 : (b - a).cross (c - a) = 0 := by by_contra h'; exact h h'
  have hz : ((0 : V3 ℝ)).normalized = 0 := by rw [normalized, if_pos nrm_zero]
  have hd : ∀ v : V3 ℝ, v.dot 0 = 0 := fun v => by simp [dot]
  have hp : ProjectInTriangle a b c 0 X.t := by
    right; simp [cross, dot]
  rw [sphereTriangleIntersect]
  simp only [h0, hz, hd, lt_irrefl, if_false]
  rw [sphereTriangleFrom]
  simp only
  rw [if_pos (by linarith), if_pos hp]
  have e : X.t - (0 : ℝ) • (0 : V3 ℝ) = X.t := by v3
  have e' : (X.t - X.t : V3 ℝ).dot (X.t - X.t) = 0 := by simp [dot]
  simp only [e, e']
  rw [if_pos (by positivity), if_neg (lt_irrefl _)]
  exact ⟨_, rfl, rfl, by v3⟩

/-- **C93, violated.** For a contact the distance query with points does not write the distance. -/
theorem C93_violated_contact {r : ℝ} (hr : 0 ≤ r) {X : Pose ℝ} (hX : X.Rigid) {a b c : V3 ℝ} (h : HasArea a b c)
    (ht : Touch (Placed X.R X.t (Geo.sphere r).pts) (Geo.triangle a b c).pts) :
    sphereTrianglePts r X a b c = ⟨false, none, none⟩ := by
  have k := (C93_points hr hX h).ret
  have hf : (sphereTrianglePts r X a b c).ret = false := by
    by_contra h'
    exact k.1 (by simpa using h') ht
  rw [sphereTrianglePts] at hf ⊢
  simp only at hf ⊢
  split at hf
  · cases hf
  · rename_i hc
    rw [if_neg hc]

/-- **C93, violated.** For a triangle without area that query finds no distance, wherever the sphere is. -/
theorem C93_violated_flat_distance {r : ℝ} (X : Pose ℝ) {a b c : V3 ℝ} (h : ¬ HasArea a b c) :
    sphereTrianglePts r X a b c = ⟨false, none, none⟩ := by
  have := (C73_degenerate a b c c X.t).2.1 h
  rw [sphereTrianglePts]
  simp only
  rw [if_neg (by nlinarith [mul_self_nonneg r])]

end Fcl.Prim
