import Verif.Geom.Primitive
import Verif.Geom.Thick
import Mathlib.Tactic.NormNum

/-!
# C40, C41, C42, C63: queries between a sphere and another shape
-/

namespace Fcl
open Prim

/-! ### C40: two spheres -/

/-- **C40.** Two spheres: the answer is exact, the depth is the penetration depth, the normal separates unless the centres
coincide, and the contact point is in both spheres unless both radii are zero. -/
theorem C40_intersect (r1 r2 : ℝ) (h1 : 0 ≤ r1) (h2 : 0 ≤ r2) (X1 X2 : Pose ℝ) (hX1 : X1.Rigid) (hX2 : X2.Rigid)
    (contacts : Option (List CPoint)) (A B : Set (V3 ℝ)) (hA : A = Placed X1.R X1.t (Geo.sphere r1).pts)
    (hB : B = Placed X2.R X2.t (Geo.sphere r2).pts) :
    HitSpec A B contacts (sphereSphereIntersect r1 X1 r2 X2 contacts) fun k =>
      k.depth = r1 + r2 - X1.t.dist X2.t ∧ IsDepth A B k.depth ∧
      (X1.t ≠ X2.t → SeparatesAlong A B k.normal k.depth) ∧ (0 < r1 + r2 → k.pos ∈ A ∧ k.pos ∈ B) := by
  have hA' : A = Thick {X1.t} r1 := by rw [hA]; exact placed_ball hX1 h1
  have hB' : B = Thick {X2.t} r2 := by rw [hB]; exact placed_ball hX2 h2
  clear hA hB
  subst hA' hB'
  have hd := isDist_points X1.t X2.t
  have hl : (X2.t - X1.t).nrm = X1.t.dist X2.t := by rw [← V3.dist_eq, V3.dist_comm]
  rw [sphereSphereIntersect]
  simp only [hl]
  split
  · rename_i h
    refine ⟨?_, fun _ => rfl, fun h => h, fun h => by cases h⟩
    rw [thick_touch hd h1 h2]
    simp only [Bool.false_eq_true, false_iff, not_le]
    exact h
  · rename_i h
    push Not at h
    refine ⟨?_, fun h => (by cases h), fun h => by rw [h]; rfl, ?_⟩
    · rw [thick_touch hd h1 h2]; simpa using h
    rintro - l rfl
    refine ⟨_, rfl, rfl, ?_, ?_, ?_⟩
    · by_cases hc : X1.t.dist X2.t = 0
      · refine isDepth_of (n := ⟨1, 0, 0⟩) (by linarith) (thick_separates ?_ ?_) (thick_keep hd h1 h2)
        · exact V3.nrm_unique zero_le_one (by simp [V3.dot])
        · rintro _ rfl _ rfl
          rw [hc, V3.dist_eq_zero hc, V3.sub_self]
          simp [V3.dot]
      · obtain ⟨k1, k2⟩ := isDist_direction (convex_point _) (convex_point _) hd
          (lt_of_le_of_ne (V3.dist_nonneg _ _) (Ne.symm hc))
        exact isDepth_of (by linarith) (thick_separates k1 k2) (thick_keep hd h1 h2)
    · intro hc
      have hp : 0 < X1.t.dist X2.t := lt_of_le_of_ne (V3.dist_nonneg _ _) fun h => hc (V3.dist_eq_zero h.symm)
      obtain ⟨k1, k2⟩ := isDist_direction (convex_point _) (convex_point _) hd hp
      simp only [hp, gt_iff_lt, if_true]
      exact thick_separates k1 k2
    · intro hr
      constructor
      · refine ⟨_, rfl, ?_⟩
        have e : X1.t + (1 / (r1 + r2)) • (r1 • (X2.t - X1.t)) - X1.t = (r1 / (r1 + r2)) • (X2.t - X1.t) := by v3
        rw [V3.dist_eq, e, V3.nrm_smul, hl, abs_of_nonneg (by positivity), div_mul_eq_mul_div, div_le_iff₀ hr]
        nlinarith
      · refine ⟨_, rfl, ?_⟩
        have e : X1.t + (1 / (r1 + r2)) • (r1 • (X2.t - X1.t)) - X2.t = (-(r2 / (r1 + r2))) • (X2.t - X1.t) := by
          apply V3.ext' <;> simp <;> field_simp <;> ring
        rw [V3.dist_eq, e, V3.nrm_smul, hl, abs_neg, abs_of_nonneg (by positivity), div_mul_eq_mul_div, div_le_iff₀ hr]
        nlinarith

/-- **C40.** Two spheres: the distance query is exact. -/
theorem C40_distance (r1 r2 : ℝ) (h1 : 0 ≤ r1) (h2 : 0 ≤ r2) (X1 X2 : Pose ℝ) (hX1 : X1.Rigid) (hX2 : X2.Rigid) :
    DistSpec (Placed X1.R X1.t (Geo.sphere r1).pts) (Placed X2.R X2.t (Geo.sphere r2).pts)
      (sphereSphereDistance r1 X1 r2 X2) := by
  have hA : Placed X1.R X1.t (Geo.sphere r1).pts = Thick {X1.t} r1 := placed_ball hX1 h1
  have hB : Placed X2.R X2.t (Geo.sphere r2).pts = Thick {X2.t} r2 := placed_ball hX2 h2
  rw [hA, hB]
  have hd := isDist_points X1.t X2.t
  rw [sphereSphereDistance]
  simp only [← V3.dist_eq]
  split
  · rename_i h
    refine ⟨?_, fun _ => ⟨by simp only; linarith, _, _, rfl, ?_⟩, fun h => by cases h⟩
    · rw [thick_touch hd h1 h2]; simpa using h
    · have := thick_dist hd h1 h2 h
      have e1 : X1.t - (r1 / X1.t.dist X2.t) • (X1.t - X2.t) = X1.t + (r1 / X1.t.dist X2.t) • (X2.t - X1.t) := by v3
      have e2 : X2.t + (r2 / X1.t.dist X2.t) • (X1.t - X2.t) = X2.t - (r2 / X1.t.dist X2.t) • (X2.t - X1.t) := by v3
      rw [e1, e2, ← sub_sub]
      exact this
  · rename_i h
    push Not at h
    refine ⟨?_, fun h => (by cases h), fun _ => ⟨rfl, rfl⟩⟩
    rw [thick_touch hd h1 h2]
    simpa using h

/-! ### Segments -/

/-- The segment from `a` to `b`. -/
def SegOf (a b : V3 ℝ) : Set (V3 ℝ) := {x | ∃ t : ℝ, 0 ≤ t ∧ t ≤ 1 ∧ x = a + t • (b - a)}

theorem segOf_convex (a b : V3 ℝ) : ConvexSet (SegOf a b) := by
  rintro _ ⟨s, hs0, hs1, rfl⟩ _ ⟨u, hu0, hu1, rfl⟩ t h0 h1
  refine ⟨(1 - t) * s + t * u, by nlinarith, by nlinarith, ?_⟩
  v3

theorem dist_le_of_sq {p q r : V3 ℝ} (h : (p - q).dot (p - q) ≤ (p - r).dot (p - r)) : p.dist q ≤ p.dist r := by
  rw [V3.dist_eq, V3.dist_eq]
  exact Real.sqrt_le_sqrt h

theorem closestOnSegment_isDist (p a b : V3 ℝ) :
    IsDist {p} (SegOf a b) (p.dist (closestOnSegment p a b)) p (closestOnSegment p a b) := by
  have exp : ∀ t : ℝ, (p - (a + t • (b - a))).dot (p - (a + t • (b - a))) =
      (p - a).dot (p - a) - 2 * t * (p - a).dot (b - a) + t * t * (b - a).dot (b - a) := by
    intro t
    simp only [V3.dot, V3.sub_x, V3.sub_y, V3.sub_z, V3.add_x, V3.add_y, V3.add_z, V3.smul_x, V3.smul_y, V3.smul_z]; ring
  have hc2 := V3.dot_self_nonneg (b - a)
  have e0 : a = a + (0 : ℝ) • (b - a) := by v3
  have e1 : b = a + (1 : ℝ) • (b - a) := by v3
  suffices h : ∃ t : ℝ, 0 ≤ t ∧ t ≤ 1 ∧ closestOnSegment p a b = a + t • (b - a) ∧
      ∀ u : ℝ, 0 ≤ u → u ≤ 1 → 0 ≤ (u - t) * ((u + t) * (b - a).dot (b - a) - 2 * (p - a).dot (b - a)) by
    obtain ⟨t, h0, h1, h2, h3⟩ := h
    refine ⟨rfl, ⟨t, h0, h1, h2⟩, rfl, ?_⟩
    rintro _ rfl _ ⟨u, hu0, hu1, rfl⟩
    refine dist_le_of_sq ?_
    rw [h2, exp, exp]
    have := h3 u hu0 hu1
    nlinarith
  rw [closestOnSegment]
  generalize (b - a).dot (b - a) = c2 at *
  generalize (p - a).dot (b - a) = c1 at *
  split
  · rename_i h
    exact ⟨0, le_refl _, zero_le_one, e0, fun u h0 h1 => by rw [sub_zero, add_zero]; exact mul_nonneg h0 (by nlinarith)⟩
  · rename_i h
    push Not at h
    split
    · rename_i h'
      refine ⟨1, zero_le_one, le_refl _, e1, fun u h0 h1 => ?_⟩
      exact mul_nonneg_of_nonpos_of_nonpos (by linarith) (by nlinarith)
    · rename_i h'
      push Not at h'
      have hp : 0 < c2 := by linarith
      refine ⟨c1 / c2, by positivity, by rw [div_le_one hp]; exact h'.le, rfl, fun u h0 h1 => ?_⟩
      have e : (u - c1 / c2) * ((u + c1 / c2) * c2 - 2 * c1) = c2 * ((u - c1 / c2) * (u - c1 / c2)) := by
        field_simp; ring
      rw [e]
      exact mul_nonneg hp.le (mul_self_nonneg _)

/-- A capsule is a thickened segment. -/
theorem capsule_thick {r lz : ℝ} (hr : 0 ≤ r) (hl : 0 ≤ lz) :
    Shape.capsule r lz = Thick (SegOf ⟨0, 0, (1 / 2) * lz⟩ ⟨0, 0, -(1 / 2) * lz⟩) r := by
  have sq : ∀ (p : V3 ℝ) (c : ℝ), p.x * p.x + p.y * p.y + (p.z - c) * (p.z - c) ≤ r * r ↔ p.dist ⟨0, 0, c⟩ ≤ r := by
    intro p c
    rw [V3.dist_eq, V3.nrm_le_iff hr]
    simp only [V3.dot, V3.sub_x, V3.sub_y, V3.sub_z, sub_zero]
  ext p
  constructor
  · rintro ⟨c, h1, h2, h3⟩
    rcases eq_or_lt_of_le hl with h | h
    · refine ⟨⟨0, 0, c⟩, ⟨0, le_refl _, zero_le_one, ?_⟩, (sq _ _).1 h3⟩
      apply V3.ext' <;> simp <;> linarith
    · refine ⟨⟨0, 0, c⟩, ⟨1 / 2 - c / lz, ?_, ?_, ?_⟩, (sq _ _).1 h3⟩
      · rw [sub_nonneg, div_le_iff₀ h]; linarith
      · have : -(1 / 2) ≤ c / lz := by rw [le_div_iff₀ h]; linarith
        linarith
      · apply V3.ext' <;> simp
        field_simp; ring
  · rintro ⟨_, ⟨t, h0, h1, rfl⟩, h⟩
    refine ⟨(1 / 2 - t) * lz, by nlinarith, by nlinarith, (sq _ _).2 ?_⟩
    have e : (⟨0, 0, (1 / 2 - t) * lz⟩ : V3 ℝ) = ⟨0, 0, (1 / 2) * lz⟩ + t • (⟨0, 0, -(1 / 2) * lz⟩ - ⟨0, 0, (1 / 2) * lz⟩) := by
      v3
    rw [e]; exact h

/-! ### C41: sphere and capsule -/

theorem sphere_capsule_core (r1 r2 lz : ℝ) (h1 : 0 ≤ r1) (h2 : 0 ≤ r2) (hl : 0 ≤ lz) (X1 X2 : Pose ℝ) (hX1 : X1.Rigid)
    (hX2 : X2.Rigid) : ∃ (c n : V3 ℝ) (S : Set (V3 ℝ)), ConvexSet S ∧ IsDist {c} S (c.dist n) c n ∧
      Placed X1.R X1.t (Geo.sphere r1).pts = Placed X2.R X2.t (Thick {c} r1) ∧
      Placed X2.R X2.t (Geo.capsule r2 lz).pts = Placed X2.R X2.t (Thick S r2) ∧
      sphereCapsule r1 X1 r2 lz X2 = (c, n, c.dist n - r1 - r2) ∧ (∀ x ∈ S, x.x = 0) ∧
      X2.apply c = X1.t ∧ S = Shape.capsule 0 lz := by
  refine ⟨X2.inv.apply X1.t, _, _, segOf_convex _ _, closestOnSegment_isDist _ ⟨0, 0, (1 / 2) * lz⟩ ⟨0, 0, -(1 / 2) * lz⟩, ?_, ?_, ?_, ?_,
    Pose.apply_inv hX2 _, ?_⟩
  · rw [← thick_point_placed hX2]; exact placed_ball hX1 h1
  · rw [← capsule_thick h2 hl]; rfl
  · rw [sphereCapsule, V3.dist_eq]
  · rintro _ ⟨t, _, _, rfl⟩
    simp
  · rw [capsule_thick (le_refl _) hl, thick_zero]

/-- **C41.** Sphere and capsule: the answer is exact, the depth is the penetration depth, and the normal separates unless
the centre of the sphere is on the axis of the capsule. (The contact point: see `C41_violated`.) -/
theorem C41_intersect_partial (r1 r2 lz : ℝ) (h1 : 0 ≤ r1) (h2 : 0 ≤ r2) (hl : 0 ≤ lz) (X1 X2 : Pose ℝ) (hX1 : X1.Rigid)
    (hX2 : X2.Rigid) (contacts : Option (List CPoint)) (A B : Set (V3 ℝ))
    (hA : A = Placed X1.R X1.t (Geo.sphere r1).pts) (hB : B = Placed X2.R X2.t (Geo.capsule r2 lz).pts) :
    HitSpec A B contacts (sphereCapsuleIntersect r1 X1 r2 lz X2 contacts) fun k =>
      IsDepth A B k.depth ∧
      (X1.t ∉ Placed X2.R X2.t (Shape.capsule 0 lz) → SeparatesAlong A B k.normal k.depth) := by
  obtain ⟨c, n, S, hS, hd, hA', hB', ho, hx, hc1, hc2⟩ := sphere_capsule_core r1 r2 lz h1 h2 hl X1 X2 hX1 hX2
  have hcn : c.dist n = 0 → X1.t ∈ Placed X2.R X2.t (Shape.capsule 0 lz) := by
    intro h
    rw [← hc1, ← hc2, V3.dist_eq_zero h]
    exact ⟨n, hd.right, rfl⟩
  rw [hA'] at hA
  rw [hB'] at hB
  subst hA hB
  rw [sphereCapsuleIntersect]
  simp only [ho]
  have ht : Touch (Placed X2.R X2.t (Thick {c} r1)) (Placed X2.R X2.t (Thick S r2)) ↔ c.dist n ≤ r1 + r2 := by
    rw [placed_touch hX2, thick_touch hd h1 h2]
  split
  · rename_i h
    refine ⟨?_, fun _ => rfl, fun h => h, fun h => by cases h⟩
    rw [ht]
    simp only [Bool.false_eq_true, false_iff, not_le]
    linarith
  · rename_i h
    push Not at h
    refine ⟨?_, fun h => (by cases h), fun h => by rw [h]; rfl, ?_⟩
    · rw [ht]; simp only [true_iff]; linarith
    rintro - l rfl
    refine ⟨_, rfl, ?_, ?_⟩
    · simp only
      have e : -(c.dist n - r1 - r2) = r1 + r2 - c.dist n := by ring
      rw [e]
      refine placed_isDepth hX2 ?_
      by_cases hc : c.dist n = 0
      · refine isDepth_of (n := ⟨1, 0, 0⟩) (by linarith) (thick_separates ?_ ?_) (thick_keep hd h1 h2)
        · exact V3.nrm_unique zero_le_one (by simp [V3.dot])
        · rintro _ rfl y hy
          have k1 := hx y hy
          have k2 := hx n hd.right
          rw [← V3.dist_eq_zero hc] at k2
          rw [hc]
          simp [V3.dot, k1, k2]
      · obtain ⟨k1, k2⟩ := isDist_direction (convex_point _) hS hd (lt_of_le_of_ne (V3.dist_nonneg _ _) (Ne.symm hc))
        exact isDepth_of (by linarith) (thick_separates k1 k2) (thick_keep hd h1 h2)
    · intro hc
      have hp : 0 < c.dist n := lt_of_le_of_ne (V3.dist_nonneg _ _) fun h => hc (hcn h.symm)
      obtain ⟨k1, k2⟩ := isDist_direction (convex_point _) hS hd hp
      have e : -(c.dist n - r1 - r2) = r1 + r2 - c.dist n := by ring
      simp only [e]
      refine placed_separates hX2 ?_
      have e2 : -(c - n).normalized = (1 / c.dist n) • (n - c) := by
        have : (c - n).nrm ≠ 0 := by rw [← V3.dist_eq]; exact hp.ne'
        rw [V3.normalized, if_neg this, V3.dist_eq]
        v3
      rw [e2]
      exact thick_separates k1 k2

/-- **C41.** Sphere and capsule: the distance query is exact. -/
theorem C41_distance (r1 r2 lz : ℝ) (h1 : 0 ≤ r1) (h2 : 0 ≤ r2) (hl : 0 ≤ lz) (X1 X2 : Pose ℝ) (hX1 : X1.Rigid)
    (hX2 : X2.Rigid) :
    DistSpec (Placed X1.R X1.t (Geo.sphere r1).pts) (Placed X2.R X2.t (Geo.capsule r2 lz).pts)
      (sphereCapsuleDistance r1 X1 r2 lz X2) := by
  obtain ⟨c, n, S, hS, hd, hA', hB', ho, hx, hc1, hc2⟩ := sphere_capsule_core r1 r2 lz h1 h2 hl X1 X2 hX1 hX2
  rw [hA', hB', sphereCapsuleDistance]
  simp only [ho]
  have ht : Touch (Placed X2.R X2.t (Thick {c} r1)) (Placed X2.R X2.t (Thick S r2)) ↔ c.dist n ≤ r1 + r2 := by
    rw [placed_touch hX2, thick_touch hd h1 h2]
  split
  · rename_i h
    refine ⟨?_, fun h => (by cases h), fun _ => ⟨rfl, rfl⟩⟩
    rw [ht]
    simp only [Bool.false_eq_true, false_iff, not_not]
    linarith
  · rename_i h
    push Not at h
    refine ⟨?_, fun _ => ⟨h, _, _, rfl, ?_⟩, fun h => by cases h⟩
    · rw [ht]; simp only [true_iff, not_le]; linarith
    · have hp : 0 < c.dist n := by linarith
      have := placed_dist hX2 (thick_dist hd h1 h2 (by linarith))
      have hne : (c - n).nrm ≠ 0 := by rw [← V3.dist_eq]; exact hp.ne'
      have e1 : c - r1 • (c - n).normalized = c + (r1 / c.dist n) • (n - c) := by
        rw [V3.normalized, if_neg hne, V3.dist_eq]; v3
      have e2 : n + r2 • (c - n).normalized = n - (r2 / c.dist n) • (n - c) := by
        rw [V3.normalized, if_neg hne, V3.dist_eq]; v3
      rw [e1, e2]
      exact this

theorem nrm_x (a : ℝ) (h : 0 ≤ a) : (⟨a, 0, 0⟩ : V3 ℝ).nrm = a := V3.nrm_unique h (by simp [V3.dot])

/-- **C41 is violated** by the contact point: a unit sphere with centre at `(1.9, 0, 0)` and a capsule of radius 1 and
length 2 at the origin are in contact, but the reported point is not in the sphere. -/
theorem C41_violated : ∃ (X1 X2 : Pose ℝ) (k : CPoint), X1.Rigid ∧ X2.Rigid ∧
    sphereCapsuleIntersect 1 X1 1 2 X2 (some []) = (true, some [k]) ∧
    k.pos ∉ Placed X1.R X1.t (Geo.sphere (1 : ℝ)).pts := by
  have hs : sphereCapsule 1 ⟨M3.one, ⟨19 / 10, 0, 0⟩⟩ 1 2 Pose.id = (⟨19 / 10, 0, 0⟩, ⟨0, 0, 0⟩, -1 / 10) := by
    have e1 : (Pose.id : Pose ℝ).inv.apply ⟨19 / 10, 0, 0⟩ = ⟨19 / 10, 0, 0⟩ := by
      apply V3.ext' <;> simp [Pose.inv, Pose.id, Pose.apply, M3.tr, M3.one, M3.col, M3.mulVec, V3.get, V3.dot]
    have e2 : closestOnSegment (⟨19 / 10, 0, 0⟩ : V3 ℝ) ⟨0, 0, 1 / 2 * 2⟩ ⟨0, 0, -(1 / 2) * 2⟩ = ⟨0, 0, 0⟩ := by
      rw [closestOnSegment]
      norm_num [V3.dot]
      apply V3.ext' <;> simp <;> norm_num
    rw [sphereCapsule, e1, e2]
    have e3 : (⟨19 / 10, 0, 0⟩ - ⟨0, 0, 0⟩ : V3 ℝ) = ⟨19 / 10, 0, 0⟩ := by v3
    rw [e3, nrm_x _ (by norm_num)]
    norm_num
  refine ⟨⟨M3.one, ⟨19 / 10, 0, 0⟩⟩, Pose.id,
    ⟨(Pose.id : Pose ℝ).R.mulVec (-(⟨19 / 10, 0, 0⟩ - ⟨0, 0, 0⟩ : V3 ℝ).normalized),
      Pose.id.apply (⟨0, 0, 0⟩ + (-1 / 10 : ℝ) • -(⟨19 / 10, 0, 0⟩ - ⟨0, 0, 0⟩ : V3 ℝ).normalized), -(-1 / 10)⟩,
    M3.orthonormal_one, M3.orthonormal_one, ?_, ?_⟩
  · rw [sphereCapsuleIntersect]
    simp only [hs]
    rw [if_neg (by norm_num)]
    rfl
  · intro h
    rw [show (Geo.sphere (1 : ℝ)).pts = Shape.ball 1 from rfl, placed_ball (X := ⟨M3.one, ⟨19 / 10, 0, 0⟩⟩) M3.orthonormal_one zero_le_one] at h
    obtain ⟨_, rfl, h⟩ := h
    have e3 : (⟨19 / 10, 0, 0⟩ - ⟨0, 0, 0⟩ : V3 ℝ) = ⟨19 / 10, 0, 0⟩ := by v3
    have e4 : (⟨19 / 10, 0, 0⟩ : V3 ℝ).normalized = ⟨1, 0, 0⟩ := by
      rw [V3.normalized, nrm_x _ (by norm_num), if_neg (by norm_num)]
      apply V3.ext' <;> simp
    simp only [e3, e4] at h
    rw [V3.dist_eq, Pose.id_apply] at h
    have e5 : (⟨0, 0, 0⟩ + (-1 / 10 : ℝ) • -⟨1, 0, 0⟩ - ⟨19 / 10, 0, 0⟩ : V3 ℝ) = -⟨18 / 10, 0, 0⟩ := by
      apply V3.ext' <;> simp <;> norm_num
    rw [e5, V3.nrm_neg, nrm_x _ (by norm_num)] at h
    norm_num at h

/-! ### A sphere and a convex set with a known nearest point -/

/-- What the contacts of the sphere-box and the sphere-cylinder function satisfy: moving by more than the depth (and
`slack`) along the normal separates, no motion by less than the depth minus `2 * eps` separates, and if the centre is
`outside` then the depth is exactly the penetration depth. -/
structure ContactUpTo (A B : Set (V3 ℝ)) (eps slack : ℝ) (outside : Prop) (k : CPoint) : Prop where
  separates : SeparatesAlong A B k.normal (k.depth + slack)
  keep : ∀ t : V3 ℝ, t.len < k.depth - 2 * eps → Touch A (Moved B t)
  exact : outside → IsDepth A B k.depth ∧ SeparatesAlong A B k.normal k.depth

theorem contactUpTo_placed {X : Pose ℝ} (hX : X.Rigid) {A B : Set (V3 ℝ)} {eps slack : ℝ} {o : Prop} {k : CPoint}
    (h : ContactUpTo A B eps slack o k) :
    ContactUpTo (Placed X.R X.t A) (Placed X.R X.t B) eps slack o ⟨X.R.mulVec k.normal, X.apply k.pos, k.depth⟩ :=
  ⟨placed_separates hX h.1, placed_keep hX h.2, fun ho => ⟨placed_isDepth hX (h.3 ho).1, placed_separates hX (h.3 ho).2⟩⟩

/-- With `eps = 0` the depth is the penetration depth. -/
theorem ContactUpTo.isDepth {A B : Set (V3 ℝ)} {o : Prop} {k : CPoint} (h : ContactUpTo A B 0 0 o k) (hk : 0 ≤ k.depth) :
    IsDepth A B k.depth := isDepth_of hk (by simpa using h.separates) fun t ht => h.keep t (by linarith)

theorem near_touch {c n : V3 ℝ} {S : Set (V3 ℝ)} {r : ℝ} (hr : 0 ≤ r) (hd : IsDist {c} S (c.dist n) c n) :
    Touch (Thick {c} r) S ↔ (n - c).dot (n - c) ≤ r * r := by
  have := thick_touch hd hr (le_refl (0 : ℝ))
  rw [thick_zero, add_zero] at this
  rw [this, V3.dist_comm, V3.dist_eq, V3.nrm_le_iff hr]

theorem separates_mono {A B : Set (V3 ℝ)} {n : V3 ℝ} {d s : ℝ} (h : SeparatesAlong A B n d) (hs : 0 ≤ s) :
    SeparatesAlong A B n (d + s) := by
  refine ⟨h.1, fun e he => ?_⟩
  have := h.2 (s + e) (by linarith)
  rwa [← add_assoc] at this

theorem sq_nrm (a : V3 ℝ) : Real.sqrt (a.dot a) = a.nrm := rfl

/-- The contact when the centre is outside. -/
theorem outside_contact {c n : V3 ℝ} {S : Set (V3 ℝ)} (hS : ConvexSet S) {r eps : ℝ} (hr : 0 ≤ r) (he : 0 ≤ eps)
    (hd : IsDist {c} S (c.dist n) c n) (h1 : (n - c).dot (n - c) > eps * eps) (h2 : (n - c).dot (n - c) ≤ r * r)
    (o : Prop) (pos : V3 ℝ) {slack : ℝ} (hsl : 0 ≤ slack) :
    ContactUpTo (Thick {c} r) S eps slack o
      ⟨(1 / Real.sqrt ((n - c).dot (n - c))) • (n - c), pos, r - Real.sqrt ((n - c).dot (n - c))⟩ := by
  rw [sq_nrm, ← V3.dist_eq, V3.dist_comm]
  have hp : 0 < c.dist n := by
    refine lt_of_le_of_ne (V3.dist_nonneg _ _) fun h => ?_
    have := V3.dist_eq_zero h.symm
    rw [this, V3.sub_self] at h1
    simp [V3.dot] at h1
    nlinarith
  have hle : c.dist n ≤ r := by
    rw [V3.dist_comm, V3.dist_eq]; exact (V3.nrm_le_iff hr).2 h2
  obtain ⟨k1, k2⟩ := isDist_direction (convex_point _) hS hd hp
  have hs := thick_separates (r1 := r) (r2 := 0) k1 k2
  rw [thick_zero, add_zero] at hs
  have hk : ∀ t : V3 ℝ, t.len < r - c.dist n → Touch (Thick {c} r) (Moved S t) := by
    intro t ht
    have := thick_keep hd hr (le_refl (0 : ℝ)) t (by linarith)
    rwa [thick_zero] at this
  exact ⟨separates_mono hs hsl, fun t ht => hk t (by simp only at ht; linarith),
    fun _ => ⟨isDepth_of (by simp only; linarith) hs hk, hs⟩⟩

/-- The contact when the centre is inside, or hardly outside. -/
theorem inside_contact {c n u : V3 ℝ} {S : Set (V3 ℝ)} {r eps slack m D : ℝ} (hr : 0 ≤ r) (he : 0 ≤ eps)
    (hd : IsDist {c} S (c.dist n) c n) (hu : u.nrm = 1) (h1 : ∀ y ∈ S, -(m + slack) ≤ u.dot (y - c)) (hm : m ≤ D + eps)
    (hD : (0 ≤ D ∧ ∀ y : V3 ℝ, y.dist c ≤ D → y ∈ S) ∨ D ≤ 0 ∧ c.dist n ≤ eps)
    (pos : V3 ℝ) : ContactUpTo (Thick {c} r) S eps slack False ⟨u, pos, m + r⟩ := by
  refine ⟨?_, fun t ht => ?_, False.elim⟩
  · have := thick_separates (A := {c}) (B := S) (d := -(m + slack)) (r1 := r) (r2 := 0) hu (by rintro _ rfl y hy; exact h1 y hy)
    rw [thick_zero] at this
    have e : r + 0 - -(m + slack) = m + r + slack := by ring
    rwa [e] at this
  · simp only at ht
    rcases hD with ⟨h2, h3⟩ | ⟨h2, h3⟩
    · have hl : c.dist (c - t) = t.len := by
        rw [V3.len_eq, V3.dist_eq]; congr 1; v3
      obtain ⟨y, h4, h5⟩ := between (a := c) (b := c - t) (r1 := D) (r2 := r) h2 hr (by rw [hl]; linarith)
      refine ⟨y + t, ⟨c, rfl, ?_⟩, y, h3 y h4, rfl⟩
      have e : (y + t).dist c = y.dist (c - t) := by
        rw [V3.dist_eq, V3.dist_eq]; congr 1; v3
      rw [e]; exact h5
    · have := thick_keep hd hr (le_refl (0 : ℝ)) t (by linarith)
      rwa [thick_zero] at this

/-! ### C42: sphere and box -/

theorem box_convex (side : V3 ℝ) : ConvexSet (Shape.box side) := by
  rintro p ⟨⟨a1, a2⟩, ⟨a3, a4⟩, a5, a6⟩ q ⟨⟨b1, b2⟩, ⟨b3, b4⟩, b5, b6⟩ t h0 h1
  refine ⟨⟨?_, ?_⟩, ⟨?_, ?_⟩, ?_, ?_⟩ <;> simp <;> nlinarith

theorem clamp1_spec {h q : ℝ} (hh : 0 ≤ h) : (-h ≤ (clamp1 h q).1 ∧ (clamp1 h q).1 ≤ h) ∧
    (∀ y, -h ≤ y → y ≤ h → (q - (clamp1 h q).1) * (q - (clamp1 h q).1) ≤ (q - y) * (q - y)) ∧
    ((clamp1 h q).2 = false → (clamp1 h q).1 = q) ∧ ((clamp1 h q).2 = true → h < |q|) := by
  rw [clamp1]
  split
  · rename_i h1
    refine ⟨⟨by simp only; linarith, le_refl _⟩, fun y h2 h3 => by simp only; nlinarith, fun h => (by cases h), fun _ => lt_of_lt_of_le h1 (le_abs_self _)⟩
  · rename_i h1
    push Not at h1
    split
    · rename_i h2
      refine ⟨⟨le_refl _, by simp only; linarith⟩, fun y h2 h3 => by simp only; nlinarith, fun h => (by cases h),
        fun _ => lt_of_lt_of_le (by linarith) (neg_le_abs _)⟩
    · rename_i h2
      push Not at h2
      exact ⟨⟨h2, h1⟩, fun y _ _ => by simp only [sub_self, mul_zero]; exact mul_self_nonneg _, fun _ => rfl, fun h => by cases h⟩

theorem nearestInBox_isDist {side c : V3 ℝ} (hs : 0 ≤ side.x ∧ 0 ≤ side.y ∧ 0 ≤ side.z) :
    IsDist {c} (Shape.box side) (c.dist (nearestInBox side c).1) c (nearestInBox side c).1 := by
  obtain ⟨a1, a2, -, -⟩ := clamp1_spec (h := side.x / 2) (q := c.x) (by linarith [hs.1])
  obtain ⟨b1, b2, -, -⟩ := clamp1_spec (h := side.y / 2) (q := c.y) (by linarith [hs.2.1])
  obtain ⟨c1, c2, -, -⟩ := clamp1_spec (h := side.z / 2) (q := c.z) (by linarith [hs.2.2])
  refine ⟨rfl, ⟨a1, b1, c1⟩, rfl, ?_⟩
  rintro _ rfl y ⟨⟨h1, h2⟩, ⟨h3, h4⟩, h5, h6⟩
  refine dist_le_of_sq ?_
  have k1 := a2 _ h1 h2
  have k2 := b2 _ h3 h4
  have k3 := c2 _ h5 h6
  simp only [nearestInBox, V3.dot, V3.sub_x, V3.sub_y, V3.sub_z]
  linarith

theorem nearestInBox_false {side c : V3 ℝ} (hs : 0 ≤ side.x ∧ 0 ≤ side.y ∧ 0 ≤ side.z)
    (h : (nearestInBox side c).2 = false) : (nearestInBox side c).1 = c := by
  obtain ⟨-, -, a, -⟩ := clamp1_spec (h := side.x / 2) (q := c.x) (by linarith [hs.1])
  obtain ⟨-, -, b, -⟩ := clamp1_spec (h := side.y / 2) (q := c.y) (by linarith [hs.2.1])
  obtain ⟨-, -, d, -⟩ := clamp1_spec (h := side.z / 2) (q := c.z) (by linarith [hs.2.2])
  simp only [nearestInBox, Bool.or_eq_false_iff] at h
  obtain ⟨⟨h1, h2⟩, h3⟩ := h
  exact V3.ext' (a h1) (b h2) (d h3)

/-- The distance of the centre from the nearer face of one axis. -/
theorem face_eq (half c : ℝ) : (if c ≥ 0 then half - c else c + half) = half - |c| := by
  split
  · rename_i h; rw [abs_of_nonneg h]
  · rename_i h; rw [abs_of_neg (not_le.1 h)]; ring

theorem faceStep_none (eps half c : ℝ) (i : Fin 3) : faceStep eps half c i none = some (half - |c|, i) := by
  simp only [faceStep, face_eq]

theorem faceStep_some (eps half c m : ℝ) (i j : Fin 3) (he : 0 ≤ eps) :
    ∃ m' k, faceStep eps half c i (some (m, j)) = some (m', k) ∧ m' ≤ m ∧ m' ≤ half - |c| + eps ∧
      ((m' = m ∧ k = j) ∨ m' = half - |c| ∧ k = i) := by
  simp only [faceStep, face_eq]
  split
  · rename_i h
    exact ⟨_, _, rfl, by linarith, by linarith, .inr ⟨rfl, rfl⟩⟩
  · rename_i h
    exact ⟨_, _, rfl, le_refl _, not_lt.1 h, .inl ⟨rfl, rfl⟩⟩

theorem sign_nrm (a b c : ℝ) (h : a * a + b * b + c * c = 1) : (⟨a, b, c⟩ : V3 ℝ).nrm = 1 :=
  V3.nrm_unique zero_le_one (by simp only [V3.dot]; linarith)

theorem sign_face {half c y : ℝ} (h1 : -half ≤ y) (h2 : y ≤ half) :
    -(half - |c|) ≤ (if c ≥ 0 then -1 else 1) * (y - c) := by
  split
  · rename_i h; rw [abs_of_nonneg h]; linarith
  · rename_i h; rw [abs_of_neg (not_le.1 h)]; linarith

theorem sign_sq (c : ℝ) : (if c ≥ 0 then (-1 : ℝ) else 1) * (if c ≥ 0 then (-1 : ℝ) else 1) = 1 := by split <;> norm_num

/-- The contact of the sphere-box function in the frame of the box. -/
theorem box_contact {side c : V3 ℝ} (hs : 0 ≤ side.x ∧ 0 ≤ side.y ∧ 0 ≤ side.z) {r eps : ℝ} (hr : 0 ≤ r) (he : 0 ≤ eps)
    (hle : ((nearestInBox side c).1 - c).dot ((nearestInBox side c).1 - c) ≤ r * r) :
    ContactUpTo (Thick {c} r) (Shape.box side) eps 0
      (((nearestInBox side c).1 - c).dot ((nearestInBox side c).1 - c) > eps * eps)
      (sphereBoxContact eps r side c (nearestInBox side c).1 (nearestInBox side c).2) := by
  have hd := nearestInBox_isDist (c := c) hs
  have hf := nearestInBox_false (c := c) hs
  rw [sphereBoxContact]
  simp only
  split
  · rename_i h
    exact outside_contact (box_convex side) hr he hd h.2 hle _ _ (le_refl _)
  · rename_i h
    have hne : ¬ ((nearestInBox side c).1 - c).dot ((nearestInBox side c).1 - c) > eps * eps := by
      intro h'
      refine h ⟨?_, h'⟩
      by_contra hb
      rw [hf (by simpa using hb), V3.sub_self] at h'
      simp [V3.dot] at h'
      nlinarith
    rw [faceStep_none]
    obtain ⟨m1, j1, e1, a1, a2, a3⟩ := faceStep_some eps (side.y / 2) c.y (side.x / 2 - |c.x|) 1 0 he
    rw [e1]
    obtain ⟨m2, j2, e2, b1, b2, b3⟩ := faceStep_some eps (side.z / 2) c.z m1 2 j1 he
    rw [e2]
    simp only [Option.getD_some]
    have hdist : c.dist (nearestInBox side c).1 ≤ eps := by
      rw [V3.dist_comm, V3.dist_eq]; exact (V3.nrm_le_iff he).2 (not_lt.1 hne)
    -- the least face distance
    set D := min (side.x / 2 - |c.x|) (min (side.y / 2 - |c.y|) (side.z / 2 - |c.z|)) with hDdef
    have d1 : D ≤ side.x / 2 - |c.x| := min_le_left _ _
    have d2 : D ≤ side.y / 2 - |c.y| := (min_le_right _ _).trans (min_le_left _ _)
    have d3 : D ≤ side.z / 2 - |c.z| := (min_le_right _ _).trans (min_le_right _ _)
    have hm : m2 ≤ D + eps := by
      rw [← sub_le_iff_le_add]
      exact le_min (by linarith) (le_min (by linarith) (by linarith))
    have hD : (0 ≤ D ∧ ∀ y : V3 ℝ, y.dist c ≤ D → y ∈ Shape.box side) ∨ D ≤ 0 ∧ c.dist (nearestInBox side c).1 ≤ eps := by
      rcases le_total 0 D with h0 | h0
      · refine .inl ⟨h0, fun y hy => ?_⟩
        rw [V3.dist_eq, V3.nrm_le_iff h0] at hy
        simp only [V3.dot, V3.sub_x, V3.sub_y, V3.sub_z] at hy
        have k : ∀ {h x z w u : ℝ}, D ≤ h - |x| → u * u + w + z ≤ D * D → 0 ≤ w → 0 ≤ z → -h ≤ x + u ∧ x + u ≤ h := by
          intro h x z w u h1 h2 h3 h4
          have := abs_le_of_sq_le_sq (a := u) (b := D) (by nlinarith) h0
          have h5 := abs_le.1 this
          have h6 := abs_le.1 (le_refl |x|)
          constructor <;> linarith
        have k1 := k (u := y.x - c.x) d1 hy (mul_self_nonneg _) (mul_self_nonneg _)
        have k2 := k (u := y.y - c.y) (w := (y.x - c.x) * (y.x - c.x)) d2 (by linarith) (mul_self_nonneg _) (mul_self_nonneg (y.z - c.z))
        have k3 := k (u := y.z - c.z) (w := (y.x - c.x) * (y.x - c.x)) d3 (by linarith) (mul_self_nonneg _) (mul_self_nonneg (y.y - c.y))
        rw [add_sub_cancel] at k1 k2 k3
        exact ⟨k1, k2, k3⟩
      · exact .inr ⟨h0, hdist⟩
    have main : ∀ u : V3 ℝ, u.nrm = 1 → (∀ y ∈ Shape.box side, -m2 ≤ u.dot (y - c)) →
        ContactUpTo (Thick {c} r) (Shape.box side) eps 0
          (((nearestInBox side c).1 - c).dot ((nearestInBox side c).1 - c) > eps * eps)
          ⟨u, c + ((r - m2) / 2) • u, m2 + r⟩ := by
      intro u hu hy
      have := inside_contact (slack := 0) hr he hd hu (by simpa using hy) hm hD (c + ((r - m2) / 2) • u)
      exact ⟨this.1, this.2, fun h => absurd h hne⟩
    rcases b3 with ⟨rfl, rfl⟩ | ⟨rfl, rfl⟩
    · rcases a3 with ⟨rfl, rfl⟩ | ⟨rfl, rfl⟩
      · refine main _ (sign_nrm _ _ _ (by rw [sign_sq]; ring)) ?_
        rintro y ⟨h1, _, _⟩
        have := sign_face (c := c.x) h1.1 h1.2
        simpa [V3.dot] using this
      · refine main _ (sign_nrm _ _ _ (by rw [sign_sq]; ring)) ?_
        rintro y ⟨_, h1, _⟩
        have := sign_face (c := c.y) h1.1 h1.2
        simpa [V3.dot] using this
    · refine main _ (sign_nrm _ _ _ (by rw [sign_sq]; ring)) ?_
      rintro y ⟨_, _, h1⟩
      have := sign_face (c := c.z) h1.1 h1.2
      simpa [V3.dot] using this

/-- The last lines of the intersection functions. -/
theorem near_hit {X2 : Pose ℝ} (hX2 : X2.Rigid) {S : Set (V3 ℝ)} {c n : V3 ℝ} {r : ℝ} (hr : 0 ≤ r)
    (hd : IsDist {c} S (c.dist n) c n) (contacts : Option (List CPoint)) (k : CPoint) (P : CPoint → Prop)
    (hk : (n - c).dot (n - c) ≤ r * r → P ⟨X2.R.mulVec k.normal, X2.apply k.pos, k.depth⟩) :
    HitSpec (Placed X2.R X2.t (Thick {c} r)) (Placed X2.R X2.t S) contacts
      (if (n - c).dot (n - c) > r * r then (false, contacts)
        else (true, contacts.map fun l => l ++ [⟨X2.R.mulVec k.normal, X2.apply k.pos, k.depth⟩])) P := by
  have ht := near_touch hr hd
  rw [← placed_touch hX2] at ht
  split
  · rename_i h
    refine ⟨?_, fun _ => rfl, fun h => h, fun h => by cases h⟩
    rw [ht]; simpa using h
  · rename_i h
    refine ⟨?_, fun h => (by cases h), fun h => by rw [h]; rfl, ?_⟩
    · rw [ht]; simpa using h
    · rintro - l rfl
      exact ⟨_, rfl, hk (not_lt.1 h)⟩

/-- The last lines of the distance functions. -/
theorem near_distance {X2 : Pose ℝ} (hX2 : X2.Rigid) {S : Set (V3 ℝ)} {c n : V3 ℝ} {r : ℝ} (hr : 0 ≤ r)
    (hd : IsDist {c} S (c.dist n) c n) {cl : Bool} (hc : cl = false → n = c) (p : V3 ℝ)
    (hp : r < c.dist n → p = c + (r / c.dist n) • (n - c)) :
    DistSpec (Placed X2.R X2.t (Thick {c} r)) (Placed X2.R X2.t S)
      (if cl then
        if (c - n).dot (c - n) > r * r then ⟨true, Real.sqrt ((c - n).dot (c - n)) - r, some (X2.apply p, X2.apply n)⟩
        else ⟨false, -1, none⟩
      else ⟨false, -1, none⟩) := by
  have ht := near_touch hr hd
  have e : (n - c).dot (n - c) = (c - n).dot (c - n) := by
    simp only [V3.dot, V3.sub_x, V3.sub_y, V3.sub_z]; ring
  rw [← placed_touch hX2, e] at ht
  have no : ∀ h : (c - n).dot (c - n) ≤ r * r, DistSpec (Placed X2.R X2.t (Thick {c} r)) (Placed X2.R X2.t S) ⟨false, -1, none⟩ :=
    fun h => ⟨by rw [ht]; simpa using h, fun h => (by cases h), fun _ => ⟨rfl, rfl⟩⟩
  split
  · split
    · rename_i h
      rw [sq_nrm, ← V3.dist_eq]
      have hlt : r < c.dist n := by
        by_contra h'
        rw [V3.dist_eq, not_lt, V3.nrm_le_iff hr] at h'
        linarith
      refine ⟨by rw [ht]; simpa using h, fun _ => ⟨by simp only; linarith, _, _, rfl, ?_⟩, fun h => by cases h⟩
      have := placed_dist hX2 (thick_dist hd hr (le_refl (0 : ℝ)) (by linarith))
      rw [thick_zero, ← hp hlt] at this
      simp only [zero_div, sub_zero] at this
      have e2 : n - (0 : ℝ) • (n - c) = n := by v3
      rwa [e2] at this
    · rename_i h
      exact no (not_lt.1 h)
  · rename_i h
    refine no ?_
    rw [hc (by simpa using h), V3.sub_self]
    simp [V3.dot]
    exact mul_self_nonneg r

theorem outside_sq {X2 : Pose ℝ} (hX2 : X2.Rigid) {S : Set (V3 ℝ)} {c n : V3 ℝ} {eps : ℝ} (he : 0 ≤ eps)
    (hn : n ∈ S) (h : ∀ b ∈ Placed X2.R X2.t S, eps < (X2.apply c).dist b) : (n - c).dot (n - c) > eps * eps := by
  have k : eps < (X2.apply c).dist (X2.apply n) := h _ ⟨n, hn, rfl⟩
  rw [Pose.dist_apply hX2] at k
  by_contra h'
  have := (V3.nrm_le_iff he).2 (not_lt.1 h')
  rw [← V3.dist_eq, V3.dist_comm] at this
  linarith

/-- **C42.** Sphere and box: the answer is exact; moving the box along the normal by more than the depth separates; the
depth is the penetration depth up to `2 * eps`, and exactly if the centre is farther than `eps` from the box. -/
theorem C42_intersect (eps r : ℝ) (he : 0 ≤ eps) (hr : 0 ≤ r) (side : V3 ℝ) (hs : (Geo.box side).WF) (X1 X2 : Pose ℝ)
    (hX1 : X1.Rigid) (hX2 : X2.Rigid) (contacts : Option (List CPoint)) (A B : Set (V3 ℝ))
    (hA : A = Placed X1.R X1.t (Geo.sphere r).pts) (hB : B = Placed X2.R X2.t (Geo.box side).pts) :
    HitSpec A B contacts (sphereBoxIntersect eps r X1 side X2 contacts) fun k =>
      SeparatesAlong A B k.normal k.depth ∧ (∀ t : V3 ℝ, t.len < k.depth - 2 * eps → Touch A (Moved B t)) ∧
      ((∀ b ∈ B, eps < X1.t.dist b) → IsDepth A B k.depth) := by
  have hA' : A = Placed X2.R X2.t (Thick {(X2.inv.mul X1).t} r) := by
    rw [hA, Pose.inv_mul_t, ← thick_point_placed hX2]; exact placed_ball hX1 hr
  have hB' : B = Placed X2.R X2.t (Shape.box side) := hB
  have hc : X2.apply (X2.inv.mul X1).t = X1.t := by rw [Pose.inv_mul_t, Pose.apply_inv hX2]
  rw [sphereBoxIntersect, hA', hB', ← hc]
  generalize (X2.inv.mul X1).t = c at *
  have hd := nearestInBox_isDist (c := c) hs
  refine near_hit hX2 hr hd contacts _ _ fun h => ?_
  have k := contactUpTo_placed hX2 (box_contact hs hr he h)
  exact ⟨by simpa using k.separates, k.keep, fun ho => (k.exact (outside_sq hX2 he hd.right ho)).1⟩

/-- **C42.** Sphere and box: the distance query is exact. -/
theorem C42_distance (r : ℝ) (hr : 0 ≤ r) (side : V3 ℝ) (hs : (Geo.box side).WF) (X1 X2 : Pose ℝ)
    (hX1 : X1.Rigid) (hX2 : X2.Rigid) :
    DistSpec (Placed X1.R X1.t (Geo.sphere r).pts) (Placed X2.R X2.t (Geo.box side).pts)
      (sphereBoxDistance r X1 side X2) := by
  have hA : Placed X1.R X1.t (Geo.sphere r).pts = Placed X2.R X2.t (Thick {(X2.inv.mul X1).t} r) := by
    rw [Pose.inv_mul_t, ← thick_point_placed hX2]; exact placed_ball hX1 hr
  rw [hA, sphereBoxDistance]
  generalize (X2.inv.mul X1).t = c at *
  refine near_distance hX2 hr (nearestInBox_isDist (c := c) hs) (nearestInBox_false hs) _ fun h => ?_
  rw [sq_nrm, ← V3.dist_eq]
  generalize (nearestInBox side c).1 = n at *
  have hp : c.dist n ≠ 0 := by linarith [h]
  generalize c.dist n = d at *
  apply V3.ext' <;> simp <;> field_simp <;> ring

/-! ### C63: sphere and cylinder -/

theorem cylinder_convex {r lz : ℝ} : ConvexSet (Shape.cylinder r lz) := by
  rintro p ⟨a1, a2, a3⟩ q ⟨b1, b2, b3⟩ t h0 h1
  refine ⟨?_, ?_, ?_⟩
  · simp
    have k : p.x * q.x + p.y * q.y ≤ r * r := by nlinarith [mul_self_nonneg (p.x - q.x), mul_self_nonneg (p.y - q.y)]
    have := mul_nonneg h0 (sub_nonneg.2 h1)
    have h0' := mul_nonneg h0 h0
    have h1' := mul_nonneg (sub_nonneg.2 h1) (sub_nonneg.2 h1)
    nlinarith [mul_le_mul_of_nonneg_left k this, mul_le_mul_of_nonneg_left a1 h1', mul_le_mul_of_nonneg_left b1 h0']
  · simp; nlinarith
  · simp; nlinarith

theorem planar_le {a b c d r s : ℝ} (h1 : a * a + b * b ≤ r * r) (h2 : c * c + d * d ≤ s * s) (hr : 0 ≤ r) (hs : 0 ≤ s) :
    a * c + b * d ≤ r * s := by
  have k1 : (a * c + b * d) * (a * c + b * d) ≤ (r * s) * (r * s) := by
    have : (a * c + b * d) * (a * c + b * d) ≤ (a * a + b * b) * (c * c + d * d) := by
      nlinarith [mul_self_nonneg (a * d - b * c)]
    have k : (a * a + b * b) * (c * c + d * d) ≤ (r * r) * (s * s) :=
      mul_le_mul h1 h2 (by nlinarith [mul_self_nonneg c, mul_self_nonneg d]) (mul_self_nonneg r)
    nlinarith
  exact (abs_le_of_sq_le_sq' (by linarith) (mul_nonneg hr hs)).2

theorem nearestInCylinder_eq (lz radius : ℝ) (c : V3 ℝ) : nearestInCylinder lz radius c =
    if c.x * c.x + c.y * c.y > radius * radius then
      (⟨radius / Real.sqrt (c.x * c.x + c.y * c.y) * c.x, radius / Real.sqrt (c.x * c.x + c.y * c.y) * c.y,
        (clamp1 (lz / 2) c.z).1⟩, true)
    else (⟨c.x, c.y, (clamp1 (lz / 2) c.z).1⟩, (clamp1 (lz / 2) c.z).2) := by
  have : (if c.z > lz / 2 then ((lz / 2, true) : ℝ × Bool) else if c.z < -(lz / 2) then (-(lz / 2), true) else (c.z, false)) =
      clamp1 (lz / 2) c.z := rfl
  simp only [nearestInCylinder, this]

theorem nearestInCylinder_isDist {radius lz : ℝ} (hr : 0 ≤ radius) (hl : 0 ≤ lz) (c : V3 ℝ) :
    IsDist {c} (Shape.cylinder radius lz) (c.dist (nearestInCylinder lz radius c).1) c (nearestInCylinder lz radius c).1 ∧
    ((nearestInCylinder lz radius c).2 = false → (nearestInCylinder lz radius c).1 = c) := by
  obtain ⟨a1, a2, a3, -⟩ := clamp1_spec (h := lz / 2) (q := c.z) (by linarith)
  rw [nearestInCylinder_eq]
  split
  · rename_i h
    refine ⟨⟨rfl, ⟨?_, a1⟩, rfl, ?_⟩, fun h => by cases h⟩
    all_goals
      have hsq := Real.mul_self_sqrt (show 0 ≤ c.x * c.x + c.y * c.y by nlinarith [mul_self_nonneg c.x, mul_self_nonneg c.y])
      have h0 := Real.sqrt_nonneg (c.x * c.x + c.y * c.y)
      generalize Real.sqrt (c.x * c.x + c.y * c.y) = q at *
      have hq : radius < q := by nlinarith
      have hq0 : 0 < q := by linarith
    · simp only
      have e : radius / q * c.x * (radius / q * c.x) + radius / q * c.y * (radius / q * c.y) =
          (radius * radius) * (c.x * c.x + c.y * c.y) / (q * q) := by field_simp
      rw [e, ← hsq]
      field_simp
      exact le_refl _
    · rintro x hx y ⟨h1, h2, h3⟩
      rw [show x = c from hx]
      refine dist_le_of_sq ?_
      have k3 := a2 _ h2 h3
      simp only [V3.dot, V3.sub_x, V3.sub_y, V3.sub_z]
      have k1 := planar_le (a := c.x) (b := c.y) hsq.ge h1 h0 hr
      have e : ∀ z : ℝ, z - radius / q * z = (1 - radius / q) * z := fun z => by ring
      have e1 : (c.x - radius / q * c.x) * (c.x - radius / q * c.x) + (c.y - radius / q * c.y) * (c.y - radius / q * c.y) =
          (q - radius) * (q - radius) := by
        rw [e, e]
        have : (1 - radius / q) * c.x * ((1 - radius / q) * c.x) + (1 - radius / q) * c.y * ((1 - radius / q) * c.y) =
          (1 - radius / q) * (1 - radius / q) * (c.x * c.x + c.y * c.y) := by ring
        rw [this, ← hsq]
        field_simp
      have e2 : (q - radius) * (q - radius) ≤ (c.x - y.x) * (c.x - y.x) + (c.y - y.y) * (c.y - y.y) := by
        by_cases hy : 0 ≤ radius
        · have hyy : 0 ≤ y.x * y.x + y.y * y.y := by nlinarith [mul_self_nonneg y.x, mul_self_nonneg y.y]
          have k := planar_le (a := c.x) (b := c.y) (r := q) (s := Real.sqrt (y.x * y.x + y.y * y.y)) hsq.ge
            (Real.mul_self_sqrt hyy).ge h0 (Real.sqrt_nonneg _)
          have ks := Real.mul_self_sqrt hyy
          have ks0 := Real.sqrt_nonneg (y.x * y.x + y.y * y.y)
          generalize Real.sqrt (y.x * y.x + y.y * y.y) = w at *
          have : w ≤ radius := by nlinarith
          nlinarith
        · exact absurd hr hy
      linarith
  · rename_i h
    refine ⟨⟨rfl, ⟨not_lt.1 h, a1⟩, rfl, ?_⟩, fun h => by rw [a3 h]⟩
    rintro x hx y ⟨h1, h2, h3⟩
    rw [show x = c from hx]
    refine dist_le_of_sq ?_
    have k3 := a2 _ h2 h3
    simp only [V3.dot, V3.sub_x, V3.sub_y, V3.sub_z, sub_self, mul_zero, zero_add]
    nlinarith [mul_self_nonneg (c.x - y.x), mul_self_nonneg (c.y - y.y)]

/-- The contact of the sphere-cylinder function in the frame of the cylinder. -/
theorem cylinder_contact {radius lz : ℝ} (hR : 0 ≤ radius) (hl : 0 ≤ lz) {c : V3 ℝ} {r eps : ℝ} (hr : 0 ≤ r) (he : 0 ≤ eps)
    (hle : ((nearestInCylinder lz radius c).1 - c).dot ((nearestInCylinder lz radius c).1 - c) ≤ r * r) :
    ContactUpTo (Thick {c} r) (Shape.cylinder radius lz) eps eps
      (((nearestInCylinder lz radius c).1 - c).dot ((nearestInCylinder lz radius c).1 - c) > eps * eps)
      (sphereCylinderContact eps r radius lz c (nearestInCylinder lz radius c).1 (nearestInCylinder lz radius c).2) := by
  obtain ⟨hd, hf⟩ := nearestInCylinder_isDist hR hl c
  rw [sphereCylinderContact]
  simp only [face_eq]
  split
  · rename_i h
    exact outside_contact cylinder_convex hr he hd h.2 hle _ _ he
  · rename_i h
    have hne : ¬ ((nearestInCylinder lz radius c).1 - c).dot ((nearestInCylinder lz radius c).1 - c) > eps * eps := by
      intro h'
      refine h ⟨?_, h'⟩
      by_contra hb
      rw [hf (by simpa using hb), V3.sub_self] at h'
      simp [V3.dot] at h'
      nlinarith
    have hdist : c.dist (nearestInCylinder lz radius c).1 ≤ eps := by
      rw [V3.dist_comm, V3.dist_eq]; exact (V3.nrm_le_iff he).2 (not_lt.1 hne)
    clear hf h hle
    generalize (nearestInCylinder lz radius c).1 = n at *
    have hsq := Real.mul_self_sqrt (show 0 ≤ c.x * c.x + c.y * c.y by nlinarith [mul_self_nonneg c.x, mul_self_nonneg c.y])
    have hq0 := Real.sqrt_nonneg (c.x * c.x + c.y * c.y)
    generalize Real.sqrt (c.x * c.x + c.y * c.y) = q at *
    set D := min (lz / 2 - |c.z|) (radius - q) with hDdef
    have d1 : D ≤ lz / 2 - |c.z| := min_le_left _ _
    have d2 : D ≤ radius - q := min_le_right _ _
    have hD : (0 ≤ D ∧ ∀ y : V3 ℝ, y.dist c ≤ D → y ∈ Shape.cylinder radius lz) ∨ D ≤ 0 ∧ c.dist n ≤ eps := by
      rcases le_total 0 D with h0 | h0
      · refine .inl ⟨h0, fun y hy => ?_⟩
        rw [V3.dist_eq, V3.nrm_le_iff h0] at hy
        simp only [V3.dot, V3.sub_x, V3.sub_y, V3.sub_z] at hy
        refine ⟨?_, ?_⟩
        · have hxy : (y.x - c.x) * (y.x - c.x) + (y.y - c.y) * (y.y - c.y) ≤ D * D := by
            nlinarith [mul_self_nonneg (y.z - c.z)]
          have k := planar_le (a := c.x) (b := c.y) hsq.ge hxy hq0 h0
          have e : y.x * y.x + y.y * y.y = (c.x * c.x + c.y * c.y) + 2 * (c.x * (y.x - c.x) + c.y * (y.y - c.y)) +
            ((y.x - c.x) * (y.x - c.x) + (y.y - c.y) * (y.y - c.y)) := by ring
          rw [e]
          have : (q + D) * (q + D) ≤ radius * radius := mul_self_le_mul_self (by linarith) (by linarith)
          nlinarith
        · have := abs_le_of_sq_le_sq (a := y.z - c.z) (b := D)
            (by nlinarith [mul_self_nonneg (y.x - c.x), mul_self_nonneg (y.y - c.y)]) h0
          have h5 := abs_le.1 this
          have h6 := abs_le.1 (le_refl |c.z|)
          constructor <;> linarith
      · exact .inr ⟨h0, hdist⟩
    have main : ∀ (u pos : V3 ℝ) (m d : ℝ), d = m + r → m ≤ D + eps → u.nrm = 1 →
        (∀ y ∈ Shape.cylinder radius lz, -(m + eps) ≤ u.dot (y - c)) →
        ContactUpTo (Thick {c} r) (Shape.cylinder radius lz) eps eps ((n - c).dot (n - c) > eps * eps) ⟨u, pos, d⟩ := by
      intro u pos m d hd' hm hu hy
      have := inside_contact hr he hd hu hy hm hD pos
      subst hd'
      exact ⟨this.1, this.2, fun h => absurd h hne⟩
    split
    · rename_i h1
      have hm : radius - q ≤ D := le_min (by linarith) (le_refl _)
      split
      · rename_i h2
        have hq : 0 < q := by linarith
        refine main _ _ (radius - q) _ (by ring) (by linarith) (sign_nrm _ _ _ ?_) ?_
        · have : -c.x / q * (-c.x / q) + -c.y / q * (-c.y / q) + 0 * 0 = (c.x * c.x + c.y * c.y) / (q * q) := by
            field_simp; ring
          rw [this, ← hsq]
          field_simp
        · rintro y ⟨h3, _⟩
          have k := planar_le (a := c.x) (b := c.y) hsq.ge h3 hq0 hR
          simp only [V3.dot, V3.sub_x, V3.sub_y, V3.sub_z, zero_mul, add_zero]
          have e : -c.x / q * (y.x - c.x) + -c.y / q * (y.y - c.y) =
            (c.x * c.x + c.y * c.y) / q - (c.x * y.x + c.y * y.y) / q := by field_simp; ring
          rw [e, ← hsq, mul_div_assoc, div_self hq.ne', mul_one]
          have : (c.x * y.x + c.y * y.y) / q ≤ radius := by rw [div_le_iff₀ hq]; linarith
          linarith
      · rename_i h2
        refine main _ _ radius _ (by ring) (by linarith) (sign_nrm _ _ _ (by norm_num)) ?_
        rintro y ⟨h3, _⟩
        have k1 := planar_le (a := 1) (b := 0) (r := 1) (by norm_num) h3 zero_le_one hR
        have k2 := planar_le (a := -1) (b := 0) (r := 1) (by norm_num) hsq.ge zero_le_one hq0
        simp only [V3.dot, V3.sub_x, V3.sub_y, V3.sub_z, zero_mul, add_zero]
        linarith
    · rename_i h1
      refine main _ _ (lz / 2 - |c.z|) _ rfl ?_ (sign_nrm _ _ _ (by rw [sign_sq]; ring)) ?_
      · rw [← sub_le_iff_le_add]; exact le_min (by linarith) (by linarith)
      · rintro y ⟨_, h3, h4⟩
        have := sign_face (c := c.z) h3 h4
        simp only [V3.dot, V3.sub_x, V3.sub_y, V3.sub_z, zero_mul, zero_add]
        linarith

/-- **C63.** Sphere and cylinder: the answer is exact; moving the cylinder along the normal by more than the depth plus
`eps` separates; the depth is the penetration depth up to `2 * eps`, and exactly if the centre is farther than `eps` from
the cylinder. -/
theorem C63_intersect (eps r : ℝ) (he : 0 ≤ eps) (hr : 0 ≤ r) (radius lz : ℝ) (hs : (Geo.cylinder radius lz).WF)
    (X1 X2 : Pose ℝ) (hX1 : X1.Rigid) (hX2 : X2.Rigid) (contacts : Option (List CPoint)) (A B : Set (V3 ℝ))
    (hA : A = Placed X1.R X1.t (Geo.sphere r).pts) (hB : B = Placed X2.R X2.t (Geo.cylinder radius lz).pts) :
    HitSpec A B contacts (sphereCylinderIntersect eps r X1 radius lz X2 contacts) fun k =>
      SeparatesAlong A B k.normal (k.depth + eps) ∧ (∀ t : V3 ℝ, t.len < k.depth - 2 * eps → Touch A (Moved B t)) ∧
      ((∀ b ∈ B, eps < X1.t.dist b) → IsDepth A B k.depth ∧ SeparatesAlong A B k.normal k.depth) := by
  have hA' : A = Placed X2.R X2.t (Thick {(X2.inv.mul X1).t} r) := by
    rw [hA, Pose.inv_mul_t, ← thick_point_placed hX2]; exact placed_ball hX1 hr
  have hB' : B = Placed X2.R X2.t (Shape.cylinder radius lz) := hB
  have hc : X2.apply (X2.inv.mul X1).t = X1.t := by rw [Pose.inv_mul_t, Pose.apply_inv hX2]
  rw [sphereCylinderIntersect, hA', hB', ← hc]
  generalize (X2.inv.mul X1).t = c at *
  have hd := (nearestInCylinder_isDist hs.1 hs.2 c).1
  refine near_hit hX2 hr hd contacts _ _ fun h => ?_
  have k := contactUpTo_placed hX2 (cylinder_contact hs.1 hs.2 hr he h)
  exact ⟨k.separates, k.keep, fun ho => k.exact (outside_sq hX2 he hd.right ho)⟩

/-- **C63.** Sphere and cylinder: the distance query is exact. -/
theorem C63_distance (r : ℝ) (hr : 0 ≤ r) (radius lz : ℝ) (hs : (Geo.cylinder radius lz).WF) (X1 X2 : Pose ℝ)
    (hX1 : X1.Rigid) (hX2 : X2.Rigid) :
    DistSpec (Placed X1.R X1.t (Geo.sphere r).pts) (Placed X2.R X2.t (Geo.cylinder radius lz).pts)
      (sphereCylinderDistance r X1 radius lz X2) := by
  have hA : Placed X1.R X1.t (Geo.sphere r).pts = Placed X2.R X2.t (Thick {(X2.inv.mul X1).t} r) := by
    rw [Pose.inv_mul_t, ← thick_point_placed hX2]; exact placed_ball hX1 hr
  rw [hA, sphereCylinderDistance]
  generalize (X2.inv.mul X1).t = c at *
  obtain ⟨hd, hf⟩ := nearestInCylinder_isDist hs.1 hs.2 c
  refine near_distance hX2 hr hd hf _ fun h => ?_
  rw [sq_nrm, ← V3.dist_eq]
  generalize (nearestInCylinder lz radius c).1 = n at *
  have hp : c.dist n ≠ 0 := by linarith [h]
  generalize c.dist n = d at *
  apply V3.ext' <;> simp <;> field_simp <;> ring

/-! ### The hypotheses are met -/

theorem rigid_at (t : V3 ℝ) : (⟨M3.one, t⟩ : Pose ℝ).Rigid := M3.orthonormal_one

theorem placed_one (t q : V3 ℝ) (S : Set (V3 ℝ)) : q ∈ Placed M3.one t S ↔ q - t ∈ S := by
  constructor
  · rintro ⟨p, hp, rfl⟩
    have : M3.one.mulVec p + t - t = p := by
      apply V3.ext' <;> simp [M3.one, M3.mulVec, V3.dot]
    rwa [this]
  · intro h
    refine ⟨_, h, ?_⟩
    apply V3.ext' <;> simp [M3.one, M3.mulVec, V3.dot]

/-- A unit sphere at `(3/2, 0, 0)`, and a box, a cylinder, a capsule and a sphere at the origin that meet it. -/
example : (sphereBoxIntersect (1 / 1000) 1 ⟨M3.one, ⟨3 / 2, 0, 0⟩⟩ ⟨2, 2, 2⟩ ⟨M3.one, 0⟩ none).1 = true :=
  (C42_intersect (1 / 1000) 1 (by norm_num) (by norm_num) ⟨2, 2, 2⟩ (by norm_num [Geo.WF]) _ _
    (rigid_at _) (rigid_at _) none _ _ rfl rfl).ret.2
    ⟨⟨1, 0, 0⟩, (placed_one _ _ _).2 (by norm_num [Geo.pts, Shape.ball]), (placed_one _ _ _).2 (by norm_num [Geo.pts, Shape.box])⟩

example : (sphereCylinderIntersect (1 / 1000) 1 ⟨M3.one, ⟨3 / 2, 0, 0⟩⟩ 1 2 ⟨M3.one, 0⟩ none).1 = true :=
  (C63_intersect (1 / 1000) 1 (by norm_num) (by norm_num) 1 2 (by norm_num [Geo.WF]) _ _
    (rigid_at _) (rigid_at _) none _ _ rfl rfl).ret.2
    ⟨⟨1, 0, 0⟩, (placed_one _ _ _).2 (by norm_num [Geo.pts, Shape.ball]),
      (placed_one _ _ _).2 (by norm_num [Geo.pts, Shape.cylinder])⟩

example : (sphereCapsuleIntersect 1 ⟨M3.one, ⟨3 / 2, 0, 0⟩⟩ 1 2 ⟨M3.one, 0⟩ none).1 = true :=
  (C41_intersect_partial 1 1 2 (by norm_num) (by norm_num) (by norm_num) _ _
    (rigid_at _) (rigid_at _) none _ _ rfl rfl).ret.2
    ⟨⟨1, 0, 0⟩, (placed_one _ _ _).2 (by norm_num [Geo.pts, Shape.ball]),
      (placed_one _ _ _).2 ⟨0, by norm_num, by norm_num, by norm_num⟩⟩

example : (sphereSphereIntersect 1 ⟨M3.one, ⟨3 / 2, 0, 0⟩⟩ 1 ⟨M3.one, 0⟩ none).1 = true :=
  (C40_intersect 1 1 (by norm_num) (by norm_num) _ _
    (rigid_at _) (rigid_at _) none _ _ rfl rfl).ret.2
    ⟨⟨1, 0, 0⟩, (placed_one _ _ _).2 (by norm_num [Geo.pts, Shape.ball]), (placed_one _ _ _).2 (by norm_num [Geo.pts, Shape.ball])⟩

/-- A sphere at distance 1 from a box. -/
example : (sphereBoxDistance 1 ⟨M3.one, ⟨3, 0, 0⟩⟩ ⟨2, 2, 2⟩ ⟨M3.one, 0⟩).ret = true := by
  refine (C42_distance 1 (by norm_num) ⟨2, 2, 2⟩ (by norm_num [Geo.WF]) _ _ (rigid_at _) (rigid_at _)).ret.2 ?_
  rintro ⟨q, h1, h2⟩
  rw [placed_one] at h1 h2
  obtain ⟨⟨_, h2⟩, _⟩ := h2
  simp [Geo.pts, Shape.ball] at h1 h2
  nlinarith [mul_self_nonneg q.y, mul_self_nonneg q.z]

end Fcl
