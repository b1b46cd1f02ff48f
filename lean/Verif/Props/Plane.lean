import Verif.Props.Halfspace

/-!
# C70, C71, C72: collision of a shape with a plane, of two unbounded shapes, and with or without contacts
-/

namespace Fcl
open Flat
open V3
open ComputeBV (transform)

namespace Flat

/-- A shape that reaches equally far on both sides of the centre. -/
theorem central {A : Set (V3 ℝ)} (hA : ConvexSet A) {h : V3 ℝ × ℝ} (hn : h.1.dot h.1 = 1) {p q t : V3 ℝ} {E depth : ℝ}
    (hp : IsSupport A (-h.1) p) (hq : IsSupport A h.1 q) (ep : h.1.dot p = h.1.dot t - E) (eq : h.1.dot q = h.1.dot t + E)
    (hd : depth = E - |sd h t|) (h0 : 0 ≤ depth) {n pos : V3 ℝ} (hs : (0 ≤ sd h t ∧ n = -h.1) ∨ (sd h t ≤ 0 ∧ n = h.1))
    (hpos : h.1.dot pos = h.2) : PlaneContact A (PL h) ⟨n, pos, depth⟩ := by
  refine pl_contact hA hn hp hq h0 ?_ hpos
  rw [ep, eq]
  rcases hs with ⟨hs, rfl⟩ | ⟨hs, rfl⟩
  · rw [abs_of_nonneg hs] at hd
    rw [sd] at hd hs
    exact Or.inl ⟨rfl, by linarith, by linarith⟩
  · rw [abs_of_nonpos hs] at hd
    rw [sd] at hd hs
    exact Or.inr ⟨rfl, by linarith, by linarith⟩

theorem pos_cases (a : ℝ) (n : V3 ℝ) : (0 ≤ a ∧ (if a > 0 then -n else n) = -n) ∨ (a ≤ 0 ∧ (if a > 0 then -n else n) = n) := by
  by_cases h : a > 0
  · exact Or.inl ⟨h.le, if_pos h⟩
  · exact Or.inr ⟨not_lt.1 h, if_neg h⟩
theorem neg_cases (a : ℝ) (n : V3 ℝ) : (0 ≤ a ∧ (if a < 0 then n else -n) = -n) ∨ (a ≤ 0 ∧ (if a < 0 then n else -n) = n) := by
  by_cases h : a < 0
  · exact Or.inr ⟨h.le, if_pos h⟩
  · exact Or.inl ⟨not_lt.1 h, if_neg h⟩

theorem central_touch {h : V3 ℝ × ℝ} {t : V3 ℝ} {E : ℝ} (h1 : h.1.dot t - E ≤ h.2) (h2 : h.2 ≤ h.1.dot t + E) :
    0 ≤ E - |sd h t| := by
  have : |sd h t| ≤ E := abs_le.2 ⟨by rw [sd]; linarith, by rw [sd]; linarith⟩
  linarith
theorem central_miss {h : V3 ℝ × ℝ} {t : V3 ℝ} {E : ℝ} (h1 : h.2 < h.1.dot t - E ∨ h.1.dot t + E < h.2) :
    E - |sd h t| < 0 := by
  rcases h1 with h1 | h1
  · have := le_abs_self (sd h t); rw [sd] at *; linarith
  · have := neg_abs_le (sd h t); rw [sd] at *; linarith

theorem foot_mem {h : V3 ℝ × ℝ} (hu : h.1.dot h.1 = 1) (p : V3 ℝ) : h.1.dot (p - sd h p • h.1) = h.2 := by
  rw [dot_sub, dot_smul, hu, sd]; ring

end Flat

/-- **C70.** A sphere and a plane: the contact point is a common point. -/
theorem C70_sphere (r : ℝ) (hr : 0 ≤ r) (n : V3 ℝ) (d : ℝ) (hn : (Geo.plane n d).WF) (X1 X2 : Pose ℝ) (h1 : X1.Rigid)
    (h2 : X2.Rigid) (contacts : Option (List CPoint)) (A B : Set (V3 ℝ)) (hA : A = Placed X1.R X1.t (Geo.sphere r).pts)
    (hB : B = Placed X2.R X2.t (Geo.plane n d).pts) :
    HitSpec A B contacts (spherePlane r X1 n d X2 contacts) fun k => PlaneContact A B k ∧ k.pos ∈ A := by
  have hn' : n.dot n = 1 := hn
  rw [placed_plane h2 hn'] at hB
  have hu := transform_unit (d := d) h2 hn'
  unfold spherePlane
  generalize transform n d X2 = h at *
  subst hA hB
  simp only
  set Q := X1.R.tr.mulVec h.1 with hQ
  have hQ1 : Q.dot Q = 1 := tr_unit h1 hu
  have hp : IsSupport (Placed X1.R X1.t (Geo.sphere r).pts) (-h.1) (X1.apply (r • -Q)) := by
    refine support_placed ?_
    rw [tr_neg]
    exact Support.ball_support hr (by rw [neg_dot, dot_neg, neg_neg, hQ1])
  have hq : IsSupport (Placed X1.R X1.t (Geo.sphere r).pts) h.1 (X1.apply (r • Q)) :=
    support_placed (Support.ball_support hr hQ1)
  have ep : h.1.dot (X1.apply (r • -Q)) = h.1.dot X1.t - r := by rw [dot_apply, ← hQ, dot_smul, dot_neg, hQ1]; ring
  have eq : h.1.dot (X1.apply (r • Q)) = h.1.dot X1.t + r := by rw [dot_apply, ← hQ, dot_smul, hQ1]; ring
  have hcv := convex_placed (X := X1) (convex_ball (r := r) hr)
  have ecomm : -|sd h X1.t| + r = r - |sd h X1.t| := by ring
  rw [ecomm]
  apply pl_hit hcv hp hq
  · intro a b
    rw [ep] at a
    rw [eq] at b
    exact if_pos (central_touch a b)
  · intro a
    rw [ep, eq] at a
    exact if_neg (not_le.2 (central_miss a))
  · intro a b
    rw [ep] at a
    rw [eq] at b
    have h0 := central_touch a b
    refine ⟨central hcv hu hp hq ep eq rfl h0 (pos_cases _ _) (foot_mem hu _), ?_⟩
    refine ⟨(-sd h X1.t) • Q, ?_, ?_⟩
    · have h3 : |sd h X1.t| ≤ r := by linarith
      have h4 := abs_le.1 h3
      have hQ' : Q.x * Q.x + Q.y * Q.y + Q.z * Q.z = 1 := hQ1
      change _ ≤ r * r
      simp only [smul_x, smul_y, smul_z]
      have h5 : sd h X1.t * sd h X1.t ≤ r * r := by nlinarith
      refine le_trans (le_of_eq ?_) h5
      linear_combination sd h X1.t * sd h X1.t * hQ'
    · simp only
      rw [M3.mulVec_smul, hQ, M3.Orthonormal.mul_tr h1]
      v3

/-- **C70.** An ellipsoid and a plane: the contact point is a common point. -/
theorem C70_ellipsoid (s : V3 ℝ) (hs : 0 < s.x ∧ 0 < s.y ∧ 0 < s.z) (n : V3 ℝ) (d : ℝ) (hn : (Geo.plane n d).WF)
    (X1 X2 : Pose ℝ) (h1 : X1.Rigid) (h2 : X2.Rigid) (contacts : Option (List CPoint)) (A B : Set (V3 ℝ))
    (hA : A = Placed X1.R X1.t (Geo.ellipsoid s).pts) (hB : B = Placed X2.R X2.t (Geo.plane n d).pts) :
    HitSpec A B contacts (ellipsoidPlane s X1 n d X2 contacts) fun k => PlaneContact A B k ∧ k.pos ∈ A := by
  have hn' : n.dot n = 1 := hn
  rw [placed_plane h2 hn'] at hB
  have hu := transform_unit (d := d) h2 hn'
  unfold ellipsoidPlane
  rw [transform_rel h1 h2 hn']
  generalize transform n d X2 = h at *
  subst hA hB
  simp only
  set Q := X1.R.tr.mulVec h.1 with hQ
  set c := Real.sqrt (V3.dot ⟨Q.x ^ 2, Q.y ^ 2, Q.z ^ 2⟩ ⟨s.x ^ 2, s.y ^ 2, s.z ^ 2⟩) with hc
  set w : V3 ℝ := (1 / c) • ⟨s.x ^ 2 * Q.x, s.y ^ 2 * Q.y, s.z ^ 2 * Q.z⟩ with hw
  have hQu : Q.dot Q = 1 := tr_unit h1 hu
  obtain ⟨c0, hmax, cv⟩ := ellipsoid_extreme hs hQu hc
  rw [← hw] at cv hmax
  have hm := ellipsoid_extreme (s := s) (d := -Q) hs (by rw [neg_dot, dot_neg, neg_neg, hQu]) (c := c) (by
    rw [hc]; congr 1; simp only [dot, neg_x, neg_y, neg_z]; ring)
  have hneg : (1 / c) • (⟨s.x ^ 2 * (-Q).x, s.y ^ 2 * (-Q).y, s.z ^ 2 * (-Q).z⟩ : V3 ℝ) = -w := by rw [hw]; v3
  rw [hneg] at hm
  have hp : IsSupport (Placed X1.R X1.t (Geo.ellipsoid s).pts) (-h.1) (X1.apply (-w)) :=
    support_placed (by rw [tr_neg]; exact hm.2.1)
  have hq : IsSupport (Placed X1.R X1.t (Geo.ellipsoid s).pts) h.1 (X1.apply w) := support_placed hmax
  have ep : h.1.dot (X1.apply (-w)) = h.1.dot X1.t - c := by rw [dot_apply, ← hQ, dot_neg, cv]; ring
  have eq : h.1.dot (X1.apply w) = h.1.dot X1.t + c := by rw [dot_apply, ← hQ, cv]; ring
  have hcv := convex_placed (X := X1) (convex_ellipsoid s)
  have es : -(h.2 - h.1.dot X1.t) = sd h X1.t := by rw [sd]; ring
  have e1 : X1.R.mulVec (-Q) = -h.1 := by rw [M3.mulVec_neg, hQ, M3.Orthonormal.mul_tr h1]
  have e2 : X1.R.mulVec Q = h.1 := by rw [hQ, M3.Orthonormal.mul_tr h1]
  rw [es, e1, e2, cv]
  have hloc : ∀ k : ℝ, |k| ≤ 1 → k • w ∈ Shape.ellipsoid s := by
    intro k hk
    have := abs_le.1 hk
    have hh := convex_ellipsoid s (-w) hm.2.1.1 w hmax.1 ((1 + k) / 2) (by linarith) (by linarith)
    rwa [show (1 - (1 + k) / 2) • -w + ((1 + k) / 2) • w = k • w from by v3] at hh
  apply pl_hit hcv hp hq
  · intro a b
    rw [ep] at a
    rw [eq] at b
    exact if_pos (central_touch a b)
  · intro a
    rw [ep, eq] at a
    exact if_neg (not_le.2 (central_miss a))
  · intro a b
    rw [ep] at a
    rw [eq] at b
    have h0 := central_touch a b
    have habs := abs_nonneg (sd h X1.t)
    have hk : (c - |sd h X1.t|) / c - 1 = -(|sd h X1.t| / c) := by field_simp; ring
    have hk1 : |(|sd h X1.t| / c)| ≤ 1 := by
      rw [abs_of_nonneg (div_nonneg habs c0.le), div_le_one c0]; linarith
    have hpt : ∃ k : ℝ, |k| ≤ 1 ∧ h.1.dot X1.t + k * c = h.2 ∧
        (if sd h X1.t > 0 then X1.apply (((c - |sd h X1.t|) / c - 1) • w)
          else X1.apply (-(((c - |sd h X1.t|) / c - 1) • w))) = X1.apply (k • w) := by
      rw [hk]
      by_cases hpos : sd h X1.t > 0
      · rw [if_pos hpos]
        refine ⟨_, by rw [abs_neg]; exact hk1, ?_, rfl⟩
        rw [neg_mul, div_mul_cancel₀ _ c0.ne', abs_of_pos hpos, sd]; ring
      · rw [if_neg hpos]
        refine ⟨_, hk1, ?_, by congr 1; v3⟩
        rw [div_mul_cancel₀ _ c0.ne', abs_of_nonpos (not_lt.1 hpos), sd]; ring
    obtain ⟨k, k1, k2, k3⟩ := hpt
    rw [k3]
    refine ⟨central hcv hu hp hq ep eq rfl h0 (pos_cases _ _) ?_, ⟨k • w, hloc k k1, rfl⟩⟩
    rw [dot_apply, ← hQ, dot_smul, cv]; linarith

/-- **C70.** A box and a plane: the answer, the depth and the normal are exact, and the contact point is the foot on the
plane of a point of the box that is extreme up to a small multiple of the size of the box. -/
theorem C70_box (tol : ℝ) (side : V3 ℝ) (hside : (Geo.box side).WF) (n : V3 ℝ) (d : ℝ) (hn : (Geo.plane n d).WF)
    (X1 X2 : Pose ℝ) (h1 : X1.Rigid) (h2 : X2.Rigid) (contacts : Option (List CPoint)) (A B : Set (V3 ℝ))
    (hA : A = Placed X1.R X1.t (Geo.box side).pts) (hB : B = Placed X2.R X2.t (Geo.plane n d).pts) :
    HitSpec A B contacts (boxPlane tol side X1 n d X2 contacts) fun k =>
      PlaneContact A B k ∧ FootOf (Real.sqrt (2 * tol) * ((side.x + side.y + side.z) / 2)) A k := by
  have hn' : n.dot n = 1 := hn
  rw [placed_plane h2 hn'] at hB
  have hu := transform_unit (d := d) h2 hn'
  unfold boxPlane
  generalize transform n d X2 = h at *
  subst hA hB
  simp only
  have hp := box_support_world (X1 := X1) (h := h) hside
  have hq := box_support_k (X1 := X1) (h := h) hside (Or.inr rfl : (-1 : ℝ) = 1 ∨ (-1 : ℝ) = -1)
  rw [show (- -1 : ℝ) • h.1 = h.1 from by v3] at hq
  have ep := box_value (X1 := X1) (h := h) (side := side)
  have eq := box_value_k (X1 := X1) (h := h) (side := side) (-1)
  rw [show h.1.dot X1.t - -1 * boxExtent side X1 h = h.1.dot X1.t + boxExtent side X1 h from by ring] at eq
  have hcv : ConvexSet (Placed X1.R X1.t (Geo.box side).pts) := convex_placed (X := X1) (convex_box side)
  apply pl_hit hcv hp hq
  · intro a b
    rw [ep] at a
    rw [eq] at b
    exact if_neg (not_lt.2 (central_touch a b))
  · intro a
    rw [ep, eq] at a
    exact if_pos (central_miss a)
  · intro a b
    rw [ep] at a
    rw [eq] at b
    have h0 := central_touch a b
    refine ⟨central hcv hu hp hq ep eq rfl h0 (pos_cases _ _) (foot_mem hu _), ?_⟩
    by_cases hs : sd h X1.t > 0
    · rw [if_pos hs, if_pos hs]
      have hb := boxPoint_near (tol := tol) (h := h) h1 hu hside (Or.inl rfl : (1 : ℝ) = 1 ∨ (1 : ℝ) = -1)
      rw [show (-1 : ℝ) • h.1 = -h.1 from by v3] at hb
      exact ⟨_, hb.1, hb.2, sd h (boxPoint tol side X1 h 1), by v3⟩
    · rw [if_neg hs, if_neg hs]
      have hb := boxPoint_near (tol := tol) (h := h) h1 hu hside (Or.inr rfl : (-1 : ℝ) = 1 ∨ (-1 : ℝ) = -1)
      rw [show (- -1 : ℝ) • h.1 = h.1 from by v3] at hb
      exact ⟨_, hb.1, hb.2, -sd h (boxPoint tol side X1 h (-1)), by v3⟩

namespace Flat

/-- The end points of the axis and the extreme points of a capsule. -/
theorem capsule_ends {r lz : ℝ} (hr : 0 ≤ r) (hlz : 0 ≤ lz) {X1 : Pose ℝ} (h1 : X1.Rigid) {h : V3 ℝ × ℝ} (hu : h.1.dot h.1 = 1)
    {p1 p2 : V3 ℝ} (e1 : p1 = X1.apply ⟨0, 0, lz / 2⟩) (e2 : p2 = X1.apply ⟨0, 0, -(lz / 2)⟩) :
    (∃ p, IsSupport (Placed X1.R X1.t (Shape.capsule r lz)) (-h.1) p ∧ h.1.dot p - h.2 = min (sd h p1) (sd h p2) - r) ∧
    (∃ q, IsSupport (Placed X1.R X1.t (Shape.capsule r lz)) h.1 q ∧ h.1.dot q - h.2 = max (sd h p1) (sd h p2) + r) := by
  subst e1 e2
  set Q := X1.R.tr.mulVec h.1 with hQ
  have hQ1 : Q.dot Q = 1 := tr_unit h1 hu
  have hv : ∀ c, sd h (X1.apply ⟨0, 0, c⟩) = Q.z * c + h.1.dot X1.t - h.2 := by
    intro c
    rw [sd, dot_apply, ← hQ]
    have : Q.dot ⟨0, 0, c⟩ = Q.z * c := by simp [dot]
    rw [this]
  have hva : ∀ c k, h.1.dot (X1.apply (⟨0, 0, c⟩ + k • Q)) = Q.z * c + k + h.1.dot X1.t := by
    intro c k
    rw [dot_apply, ← hQ, dot_add, dot_smul, hQ1]
    have : Q.dot ⟨0, 0, c⟩ = Q.z * c := by simp [dot]
    rw [this]; ring
  have hz : Q.z * endZ lz Q.z = -(|Q.z| * (lz / 2)) := endZ_val _ _
  have hsq : ∀ c, (⟨0, 0, c⟩ + r • -Q : V3 ℝ) = ⟨0, 0, c⟩ + (-r) • Q := by intro c; v3
  have hmin : min (Q.z * (lz / 2)) (Q.z * -(lz / 2)) = -(|Q.z| * (lz / 2)) := by
    rcases le_total 0 Q.z with h | h
    · rw [abs_of_nonneg h, min_eq_right] <;> nlinarith
    · rw [abs_of_nonpos h, min_eq_left] <;> nlinarith
  have hmax : max (Q.z * (lz / 2)) (Q.z * -(lz / 2)) = |Q.z| * (lz / 2) := by
    rcases le_total 0 Q.z with h | h
    · rw [abs_of_nonneg h, max_eq_left] <;> nlinarith
    · rw [abs_of_nonpos h, max_eq_right] <;> nlinarith
  have m1 : min (sd h (X1.apply ⟨0, 0, lz / 2⟩)) (sd h (X1.apply ⟨0, 0, -(lz / 2)⟩)) =
      -(|Q.z| * (lz / 2)) + h.1.dot X1.t - h.2 := by
    rw [hv, hv, ← hmin, ← min_add_add_right, ← min_sub_sub_right]
  have m2 : max (sd h (X1.apply ⟨0, 0, lz / 2⟩)) (sd h (X1.apply ⟨0, 0, -(lz / 2)⟩)) =
      |Q.z| * (lz / 2) + h.1.dot X1.t - h.2 := by
    rw [hv, hv, ← hmax, ← max_add_add_right, ← max_sub_sub_right]
  constructor
  · refine ⟨X1.apply (⟨0, 0, endZ lz Q.z⟩ + r • -Q), support_placed ?_, ?_⟩
    · rw [tr_neg]
      refine capsule_extreme hr (by rw [neg_dot, dot_neg, neg_neg, ← hQ, hQ1]) (endZ_mem hlz _).1 (endZ_mem hlz _).2 ?_
      rw [← hQ, neg_z, abs_neg, neg_mul, endZ_val, neg_neg]
    · rw [hsq, hva, hz, m1]; ring
  · refine ⟨X1.apply (⟨0, 0, endZ lz (-Q.z)⟩ + r • Q), support_placed ?_, ?_⟩
    · refine capsule_extreme hr hQ1 (endZ_mem hlz _).1 (endZ_mem hlz _).2 ?_
      have := endZ_val lz (-Q.z)
      rw [abs_neg] at this
      linarith
    · have := endZ_val lz (-Q.z)
      rw [abs_neg] at this
      rw [hva, m2]; linarith

theorem half_ends (X : Pose ℝ) (lz : ℝ) : X.t + (1 / 2 * lz) • X.R.col 2 = X.apply ⟨0, 0, lz / 2⟩ ∧
    X.t - (1 / 2 * lz) • X.R.col 2 = X.apply ⟨0, 0, -(lz / 2)⟩ := by
  rw [show 1 / 2 * lz = lz / 2 from by ring, add_col, sub_col]
  exact ⟨rfl, rfl⟩

/-- The capsule meets the plane iff its axis does or an end point is within the radius. -/
theorem capsule_touch_iff {a b r : ℝ} (hr : 0 ≤ r) :
    (min a b - r ≤ 0 ∧ 0 ≤ max a b + r) ↔ (a * b ≤ 0 ∨ |a| ≤ r ∨ |b| ≤ r) := by
  rw [abs_le, abs_le]
  constructor
  · rintro ⟨h1, h2⟩
    by_contra hc
    push Not at hc
    obtain ⟨c1, c2, c3⟩ := hc
    rcases le_total a b with hab | hab
    · rw [min_eq_left hab] at h1
      rw [max_eq_right hab] at h2
      rcases pos_and_pos_or_neg_and_neg_of_mul_pos c1 with ⟨p1, p2⟩ | ⟨p1, p2⟩
      · linarith [c2 (by linarith)]
      · linarith [c3 (by linarith)]
    · rw [min_eq_right hab] at h1
      rw [max_eq_left hab] at h2
      rcases pos_and_pos_or_neg_and_neg_of_mul_pos c1 with ⟨p1, p2⟩ | ⟨p1, p2⟩
      · linarith [c3 (by linarith)]
      · linarith [c2 (by linarith)]
  · intro h
    have l1 := min_le_left a b
    have l2 := min_le_right a b
    have l3 := le_max_left a b
    have l4 := le_max_right a b
    rcases h with h | h | h
    · rcases mul_nonpos_iff.1 h with h | h <;> constructor <;> linarith
    · constructor <;> linarith
    · constructor <;> linarith

theorem capsulePlane0_iff {r lz : ℝ} (hw : (Geo.capsule r lz).WF) {n : V3 ℝ} {d : ℝ} (hn : n.dot n = 1) {X1 X2 : Pose ℝ}
    (h1 : X1.Rigid) (h2 : X2.Rigid) : capsulePlane0 r lz X1 n d X2 = true ↔
      Touch (Placed X1.R X1.t (Shape.capsule r lz)) (PL (transform n d X2)) := by
  have hu := transform_unit (d := d) h2 hn
  unfold capsulePlane0
  generalize transform n d X2 = h at *
  simp only
  obtain ⟨⟨p, hp, ep⟩, ⟨q, hq, eq⟩⟩ := capsule_ends hw.1 hw.2 h1 hu (half_ends X1 lz).1 (half_ends X1 lz).2
  rw [pl_touch (convex_placed (convex_capsule hw.1 lz)) hp hq]
  generalize sd h (X1.t + (1 / 2 * lz) • X1.R.col 2) = a at *
  generalize sd h (X1.t - (1 / 2 * lz) • X1.R.col 2) = b at *
  have := capsule_touch_iff (a := a) (b := b) hw.1
  have e : (h.1.dot p ≤ h.2 ∧ h.2 ≤ h.1.dot q) ↔ (min a b - r ≤ 0 ∧ 0 ≤ max a b + r) := by
    rw [← ep, ← eq]; constructor <;> rintro ⟨h1, h2⟩ <;> constructor <;> linarith
  rw [e, this]
  split_ifs with hc
  · simp [hc]
  · simp [hc]

end Flat

/-- The signed distances from the plane of the end points of the axis of a capsule. -/
noncomputable def axisEnds (lz : ℝ) (X1 : Pose ℝ) (n : V3 ℝ) (d : ℝ) (X2 : Pose ℝ) : ℝ × ℝ :=
  ((X2.R.mulVec n).dot (X1.apply ⟨0, 0, lz / 2⟩ - X2.t) - d, (X2.R.mulVec n).dot (X1.apply ⟨0, 0, -(lz / 2)⟩ - X2.t) - d)

/-- **C70 (capsules, in part).** A capsule and a plane. If no contacts are requested the answer is exact. If they are, so
is everything, unless the end points of the axis are on both sides of the plane but the product of their distances is
within the tolerance, or the first is on the plane and the second below. -/
theorem C70_capsule_partial (tol r lz : ℝ) (htol : 0 ≤ tol) (hw : (Geo.capsule r lz).WF) (n : V3 ℝ) (d : ℝ)
    (hn : (Geo.plane n d).WF) (X1 X2 : Pose ℝ) (h1 : X1.Rigid) (h2 : X2.Rigid) (contacts : Option (List CPoint))
    (he : contacts = none ∨ (axisEnds lz X1 n d X2).1 * (axisEnds lz X1 n d X2).2 < -tol ∨
      0 < (axisEnds lz X1 n d X2).1 * (axisEnds lz X1 n d X2).2 ∨
      (axisEnds lz X1 n d X2).1 ≠ 0 ∧ (axisEnds lz X1 n d X2).2 = 0 ∨
      (axisEnds lz X1 n d X2).1 = 0 ∧ 0 ≤ (axisEnds lz X1 n d X2).2) (A B : Set (V3 ℝ))
    (hA : A = Placed X1.R X1.t (Geo.capsule r lz).pts) (hB : B = Placed X2.R X2.t (Geo.plane n d).pts) :
    HitSpec A B contacts (capsulePlane tol r lz X1 n d X2 contacts) fun k => PlaneContact A B k ∧ k.pos ∈ A := by
  have hn' : n.dot n = 1 := hn
  rw [placed_plane h2 hn'] at hB
  cases contacts with
  | none =>
    subst hA hB
    exact hit_none (capsulePlane0_iff hw hn' h1 h2)
  | some l =>
  have hu := transform_unit (d := d) h2 hn'
  obtain ⟨b1, b2⟩ := half_ends X1 lz
  have ha : axisEnds lz X1 n d X2 = (sd (transform n d X2) (X1.t + (1 / 2 * lz) • X1.R.col 2),
      sd (transform n d X2) (X1.t - (1 / 2 * lz) • X1.R.col 2)) := by
    rw [axisEnds, b1, b2, transform_eq h2 hn']
    simp only [sd]
    rw [dot_sub, dot_sub]
    ext <;> simp only <;> ring
  rw [ha] at he
  unfold capsulePlane
  clear ha
  generalize transform n d X2 = h at *
  subst hA hB
  simp only at he ⊢
  obtain ⟨⟨p, hp, ep⟩, ⟨q, hq, eq⟩⟩ := capsule_ends hw.1 hw.2 h1 hu b1 b2
  have hr : 0 ≤ r := hw.1
  have hlz : 0 ≤ lz := hw.2
  have hcv : ConvexSet (Placed X1.R X1.t (Shape.capsule r lz)) := convex_placed (convex_capsule hr lz)
  set P1 := X1.t + (1 / 2 * lz) • X1.R.col 2 with hP1
  set P2 := X1.t - (1 / 2 * lz) • X1.R.col 2 with hP2
  set a := sd h P1 with hda
  set b := sd h P2 with hdb
  have hiff := capsule_touch_iff (a := a) (b := b) hr
  have hme : (h.1.dot p ≤ h.2 ∧ h.2 ≤ h.1.dot q) ↔ (min a b - r ≤ 0 ∧ 0 ≤ max a b + r) := by
    rw [← ep, ← eq]; constructor <;> rintro ⟨h1, h2⟩ <;> constructor <;> linarith
  -- points of the capsule
  have hmem : ∀ c k, -(lz / 2) ≤ c → c ≤ lz / 2 → |k| ≤ r → X1.apply ⟨0, 0, c⟩ + k • h.1 ∈ Placed X1.R X1.t (Shape.capsule r lz) := by
    intro c k c1 c2 hk
    refine ⟨⟨0, 0, c⟩ + k • X1.R.tr.mulVec h.1, ⟨c, c1, c2, ?_⟩, ?_⟩
    · have hQ1 := tr_unit h1 hu
      set Q := X1.R.tr.mulVec h.1
      have hQ' : Q.x * Q.x + Q.y * Q.y + Q.z * Q.z = 1 := hQ1
      have hk2 := abs_le.1 hk
      have h5 : k * k ≤ r * r := by nlinarith
      simp only [add_x, add_y, add_z, smul_x, smul_y, smul_z]
      refine le_trans (le_of_eq ?_) h5
      linear_combination k * k * hQ'
    · have := apply_add X1 ⟨0, 0, c⟩ (k • X1.R.tr.mulVec h.1)
      rw [M3.mulVec_smul, M3.Orthonormal.mul_tr h1] at this
      rw [← this]; rfl
  have n1 : h.1.dot P1 = h.2 + a := by rw [hda, sd]; ring
  have n2 : h.1.dot P2 = h.2 + b := by rw [hdb, sd]; ring
  by_cases hcr : a * b < -tol
  · rw [if_pos hcr]
    have hab : a * b < 0 := by linarith
    have hT : h.1.dot p ≤ h.2 ∧ h.2 ≤ h.1.dot q := hme.2 (hiff.2 (Or.inl hab.le))
    have hne : 0 < |a| + |b| := by
      have ha0 : a ≠ 0 := by rintro h; rw [h, zero_mul] at hab; exact lt_irrefl _ hab
      have := abs_pos.2 ha0
      have := abs_nonneg b
      linarith
    -- the crossing point
    have hpos : h.1.dot ((|b| / (|a| + |b|)) • P1 + (|a| / (|a| + |b|)) • P2) = h.2 := by
      rw [dot_add, dot_smul, dot_smul, n1, n2]
      have hz : |b| * a + |a| * b = 0 := by
        rcases mul_neg_iff.1 hab with ⟨p, q⟩ | ⟨p, q⟩
        · rw [abs_of_pos p, abs_of_neg q]; ring
        · rw [abs_of_neg p, abs_of_pos q]; ring
      field_simp
      linarith
    have hposA : (|b| / (|a| + |b|)) • P1 + (|a| / (|a| + |b|)) • P2 ∈ Placed X1.R X1.t (Shape.capsule r lz) := by
      have i1 := hmem (lz / 2) 0 (by linarith) le_rfl (by simpa using hr)
      have i2 := hmem (-(lz / 2)) 0 le_rfl (by linarith) (by simpa using hr)
      rw [← b1] at i1
      rw [← b2] at i2
      rw [show P1 + (0 : ℝ) • h.1 = P1 from by v3] at i1
      rw [show P2 + (0 : ℝ) • h.1 = P2 from by v3] at i2
      have := hcv _ i1 _ i2 (|a| / (|a| + |b|)) (div_nonneg (abs_nonneg _) hne.le)
        ((div_le_one hne).2 (by linarith [abs_nonneg b]))
      rwa [show 1 - |a| / (|a| + |b|) = |b| / (|a| + |b|) from by field_simp; ring] at this
    by_cases hlt : |a| < |b|
    · rw [if_pos hlt]
      apply pl_hit hcv hp hq
      · intro _ _; rfl
      · intro hc; rcases hc with hc | hc <;> linarith [hT.1, hT.2]
      · intro _ _
        refine ⟨pl_contact hcv hu hp hq (by linarith [abs_nonneg a]) ?_ hpos, hposA⟩
        rcases mul_neg_iff.1 hab with ⟨pp, qq⟩ | ⟨pp, qq⟩
        · rw [abs_of_pos pp, abs_of_neg qq] at hlt
          rw [if_neg (not_lt.2 pp.le), abs_of_pos pp]
          rw [min_eq_right (by linarith)] at ep
          rw [max_eq_left (by linarith)] at eq
          exact Or.inr ⟨rfl, by linarith, by linarith⟩
        · rw [abs_of_neg pp, abs_of_pos qq] at hlt
          rw [if_pos pp, abs_of_neg pp]
          rw [min_eq_left (by linarith)] at ep
          rw [max_eq_right (by linarith)] at eq
          exact Or.inl ⟨rfl, by linarith, by linarith⟩
    · rw [if_neg hlt]
      apply pl_hit hcv hp hq
      · intro _ _; rfl
      · intro hc; rcases hc with hc | hc <;> linarith [hT.1, hT.2]
      · intro _ _
        refine ⟨pl_contact hcv hu hp hq (by linarith [abs_nonneg b]) ?_ hpos, hposA⟩
        rcases mul_neg_iff.1 hab with ⟨pp, qq⟩ | ⟨pp, qq⟩
        · rw [abs_of_pos pp, abs_of_neg qq] at hlt
          rw [if_pos qq, abs_of_neg qq]
          rw [min_eq_right (by linarith)] at ep
          rw [max_eq_left (by linarith)] at eq
          exact Or.inl ⟨rfl, by linarith, by linarith⟩
        · rw [abs_of_neg pp, abs_of_pos qq] at hlt
          rw [if_neg (not_lt.2 qq.le), abs_of_pos qq]
          rw [min_eq_left (by linarith)] at ep
          rw [max_eq_right (by linarith)] at eq
          exact Or.inr ⟨rfl, by linarith, by linarith⟩
  · rw [if_neg hcr]
    have hsame : (0 ≤ a ∧ 0 ≤ b) ∨ (a < 0 ∧ b ≤ 0) := by
      rcases he with he | he | he | he | he
      · cases he
      · exact absurd he hcr
      · rcases pos_and_pos_or_neg_and_neg_of_mul_pos he with ⟨p1, p2⟩ | ⟨p1, p2⟩
        · exact Or.inl ⟨p1.le, p2.le⟩
        · exact Or.inr ⟨p1, p2.le⟩
      · rcases lt_or_gt_of_ne he.1 with h3 | h3
        · exact Or.inr ⟨h3, he.2.le⟩
        · exact Or.inl ⟨le_of_lt h3, he.2.ge⟩
      · exact Or.inl ⟨he.1.ge, he.2⟩
    have hclose : (h.1.dot p ≤ h.2 ∧ h.2 ≤ h.1.dot q) ↔ ¬ (|a| > r ∧ |b| > r) := by
      rw [hme, hiff]
      constructor
      · rintro (h3 | h3 | h3)
        · have h4 : a = 0 ∨ b = 0 := by
            rcases hsame with ⟨s1, s2⟩ | ⟨s1, s2⟩
            · exact mul_eq_zero.1 (le_antisymm h3 (mul_nonneg s1 s2))
            · right; nlinarith
          rintro ⟨g1, g2⟩
          rcases h4 with h4 | h4
          · rw [h4, abs_zero] at g1; linarith
          · rw [h4, abs_zero] at g2; linarith
        · rintro ⟨g1, g2⟩; linarith
        · rintro ⟨g1, g2⟩; linarith
      · intro h3
        by_contra hc
        push Not at hc
        exact h3 ⟨hc.2.1, hc.2.2⟩
    apply pl_hit hcv hp hq
    · intro x y
      exact if_neg (hclose.1 ⟨x, y⟩)
    · intro hc
      refine if_pos (not_not.1 fun hcon => ?_)
      have := hclose.2 hcon
      rcases hc with hc | hc <;> linarith [this.1, this.2]
    · intro x y
      have hnot := hclose.1 ⟨x, y⟩
      refine ⟨pl_contact hcv hu hp hq ?_ ?_ ?_, ?_⟩
      · have : min |a| |b| ≤ r := by
          by_contra hc
          push Not at hc
          exact hnot ⟨lt_of_lt_of_le hc (min_le_left _ _), lt_of_lt_of_le hc (min_le_right _ _)⟩
        linarith
      · rcases hsame with ⟨s1, s2⟩ | ⟨s1, s2⟩
        · rw [if_neg (not_lt.2 s1), abs_of_nonneg s1, abs_of_nonneg s2]
          have := min_le_max (a := a) (b := b)
          have := le_min s1 s2
          exact Or.inl ⟨rfl, by linarith, by linarith⟩
        · rw [if_pos s1, abs_of_neg s1, abs_of_nonpos s2, min_neg_neg]
          have := min_le_max (a := a) (b := b)
          have := max_le s1.le s2
          exact Or.inr ⟨rfl, by linarith, by linarith⟩
      · split_ifs with c1 c2
        · rw [dot_smul, dot_add, dot_sub, dot_sub, dot_smul, dot_smul, hu, n1, n2]; ring
        · rw [dot_sub, dot_smul, hu, n1]; ring
        · rw [dot_sub, dot_smul, hu, n2]; ring
      · simp only
        split_ifs with c1 c2
        · have := hmem 0 (-((a + b) / 2)) (by linarith) (by linarith) (by
            have h6 := abs_le.1 c1.1
            have h7 := abs_le.1 c1.2
            exact abs_le.2 ⟨by linarith, by linarith⟩)
          rw [apply_z0] at this
          rwa [show (1 / 2 : ℝ) • (P1 - b • h.1 + (P2 - a • h.1)) = X1.t + (-((a + b) / 2)) • h.1 from by
            rw [hP1, hP2]; v3]
        · have := hmem (lz / 2) (-a) (by linarith) le_rfl (by rwa [abs_neg])
          rw [← b1] at this
          rwa [show P1 - a • h.1 = P1 + (-a) • h.1 from by v3]
        · have hb : |b| ≤ r := by
            by_contra hb
            exact hnot ⟨not_le.1 c2, not_le.1 hb⟩
          have := hmem (-(lz / 2)) (-b) le_rfl (by linarith) (by rwa [abs_neg])
          rw [← b2] at this
          rwa [show P2 - b • h.1 = P2 + (-b) • h.1 from by v3]

namespace Flat

theorem cylinder_low {r lz : ℝ} (hr : 0 ≤ r) {X1 : Pose ℝ} {h : V3 ℝ × ℝ} {c : ℝ} {u : V3 ℝ} (c1 : -(lz / 2) ≤ c)
    (c2 : c ≤ lz / 2) (hc : (X1.R.tr.mulVec h.1).z * c = -(|(X1.R.tr.mulVec h.1).z| * (lz / 2))) (uz : u.z = 0)
    (ur : u.x * u.x + u.y * u.y ≤ r * r) (ud : (X1.R.tr.mulVec h.1).dot u = -(r * rho (X1.R.tr.mulVec h.1))) :
    IsSupport (Placed X1.R X1.t (Shape.cylinder r lz)) (-h.1) (X1.apply (⟨0, 0, c⟩ + u)) := by
  refine support_placed ?_
  rw [tr_neg]
  refine cylinder_extreme hr c1 c2 ur uz ?_ ?_
  · rw [neg_z, abs_neg, neg_mul, hc, neg_neg]
  · rw [neg_dot, rho_neg, ud, neg_neg]

theorem cylinder_high {r lz : ℝ} (hr : 0 ≤ r) {X1 : Pose ℝ} {h : V3 ℝ × ℝ} {c : ℝ} {u : V3 ℝ} (c1 : -(lz / 2) ≤ c)
    (c2 : c ≤ lz / 2) (hc : (X1.R.tr.mulVec h.1).z * c = -(|(X1.R.tr.mulVec h.1).z| * (lz / 2))) (uz : u.z = 0)
    (ur : u.x * u.x + u.y * u.y ≤ r * r) (ud : (X1.R.tr.mulVec h.1).dot u = -(r * rho (X1.R.tr.mulVec h.1))) :
    IsSupport (Placed X1.R X1.t (Shape.cylinder r lz)) h.1 (X1.apply (⟨0, 0, -c⟩ + -u)) := by
  refine support_placed ?_
  refine cylinder_extreme hr (by linarith) (by linarith) (by simpa using ur) (by simp [uz]) (by linarith) ?_
  rw [dot_neg, ud, neg_neg]

theorem neg_apply_sub (X : Pose ℝ) (c : ℝ) (u : V3 ℝ) : X.apply ⟨0, 0, c⟩ - X.R.mulVec u = X.apply (⟨0, 0, c⟩ + -u) := by
  rw [apply_add, M3.mulVec_neg]; v3

/-- The extreme points of a cylinder whose axis is parallel to the plane. -/
theorem cylinder_flat {r lz : ℝ} (hr : 0 ≤ r) (hlz : 0 ≤ lz) {X1 : Pose ℝ} (h1 : X1.Rigid) {h : V3 ℝ × ℝ} (hu : h.1.dot h.1 = 1)
    (hz : (X1.R.tr.mulVec h.1).z = 0) :
    ∃ p q, IsSupport (Placed X1.R X1.t (Shape.cylinder r lz)) (-h.1) p ∧
      IsSupport (Placed X1.R X1.t (Shape.cylinder r lz)) h.1 q ∧ h.1.dot p = h.1.dot X1.t - r ∧ h.1.dot q = h.1.dot X1.t + r := by
  have hQ1 : (X1.R.tr.mulVec h.1).dot (X1.R.tr.mulVec h.1) = 1 := tr_unit h1 hu
  have hrho : rho (X1.R.tr.mulVec h.1) = 1 := by
    have := unit_split hQ1
    rw [hz] at this
    nlinarith [rho_nonneg (X1.R.tr.mulVec h.1)]
  set Q := X1.R.tr.mulVec h.1 with hQ
  have hd' : Q.x * Q.x + Q.y * Q.y + Q.z * Q.z = 1 := hQ1
  have ur : (r • -Q).x * (r • -Q).x + (r • -Q).y * (r • -Q).y ≤ r * r := by
    rw [hz] at hd'
    simp only [smul_x, smul_y, neg_x, neg_y]
    refine le_of_eq ?_
    linear_combination r * r * hd'
  have ud : Q.dot (r • -Q) = -(r * rho Q) := by rw [dot_smul, dot_neg, hQ1, hrho]; ring
  have uz : (r • -Q).z = 0 := by simp [hz]
  refine ⟨_, _, cylinder_low hr (c := 0) (by linarith) (by linarith) (by rw [← hQ]; simp [hz]) uz ur ud,
    cylinder_high hr (c := 0) (by linarith) (by linarith) (by rw [← hQ]; simp [hz]) uz ur ud, ?_, ?_⟩
  · rw [col_apply h1, dot_sub, dot_smul, hu, mul_one, apply_z0]
  · rw [neg_zero, apply_add, apply_z0, dot_add, M3.mulVec_neg, M3.mulVec_smul, M3.mulVec_neg, hQ, M3.Orthonormal.mul_tr h1,
      dot_neg, dot_smul, dot_neg, hu]
    ring

end Flat

/-- **C70 (cylinders, in part).** A cylinder and a plane, with contacts: everything is exact if the axis is parallel to the
plane or not nearly so, perpendicular to it or not nearly so, and the cylinder does not just touch the plane from
above. -/
theorem C70_cylinder_partial (tol r lz : ℝ) (htol : 0 < tol) (hw : (Geo.cylinder r lz).WF) (n : V3 ℝ) (d : ℝ)
    (hn : (Geo.plane n d).WF) (X1 X2 : Pose ℝ) (h1 : X1.Rigid) (h2 : X2.Rigid)
    (hq : axisCos X1 X2 n = 0 ∨ tol ≤ |axisCos X1 X2 n|) (hq' : |axisCos X1 X2 n| = 1 ∨ tol ≤ 1 - |axisCos X1 X2 n|)
    (l : List CPoint) (A B : Set (V3 ℝ)) (hA : A = Placed X1.R X1.t (Geo.cylinder r lz).pts)
    (hB : B = Placed X2.R X2.t (Geo.plane n d).pts)
    (hbelow : Touch A B → ∃ x ∈ A, (X2.R.mulVec n).dot (x - X2.t) < d) :
    HitSpec A B (some l) (cylinderPlane tol r lz X1 n d X2 (some l)) (PlaneContact A B) := by
  have hn' : n.dot n = 1 := hn
  rw [placed_plane h2 hn'] at hB
  have hu := transform_unit (d := d) h2 hn'
  rw [axisCos_eq (d := d) h2 hn'] at hq hq'
  have hbelow' : Touch A B → ∃ x ∈ A, (transform n d X2).1.dot x < (transform n d X2).2 := by
    intro hT
    obtain ⟨x, hx, hlt⟩ := hbelow hT
    refine ⟨x, hx, ?_⟩
    rw [transform_eq h2 hn']
    rw [dot_sub] at hlt
    simp only
    linarith
  clear hbelow
  unfold cylinderPlane
  generalize transform n d X2 = h at *
  subst hA hB
  simp only
  rw [col_dot]
  obtain ⟨u, eu, uz, ur, ud⟩ := rim_exact htol hw.1 h1 hu hq'
  have hlz : 0 ≤ lz := hw.2
  have hr0 : 0 ≤ r := hw.1
  have hcv : ConvexSet (Placed X1.R X1.t (Shape.cylinder r lz)) := convex_placed (convex_cylinder hr0 lz)
  have hflat := cylinder_flat (lz := lz) hr0 hlz h1 hu
  have hlow := fun c => cylinder_low (lz := lz) (X1 := X1) (h := h) (c := c) (u := u) hr0
  have hhigh := fun c => cylinder_high (lz := lz) (X1 := X1) (h := h) (c := c) (u := u) hr0
  set Q := X1.R.tr.mulVec h.1 with hQ
  by_cases hc : |Q.z| < tol
  · rw [if_pos hc]
    have hz : Q.z = 0 := hq.resolve_right (not_le.2 hc)
    obtain ⟨p, q, hp, hq, ep, eq⟩ := hflat hz
    apply pl_hit hcv hp hq
    · intro a b
      rw [ep] at a
      rw [eq] at b
      exact if_neg (not_lt.2 (central_touch a b))
    · intro a
      rw [ep, eq] at a
      exact if_pos (central_miss a)
    · intro a b
      rw [ep] at a
      rw [eq] at b
      have h0 := central_touch a b
      exact central hcv hu hp hq ep eq rfl h0 (neg_cases _ _) (foot_mem hu _)
  · rw [if_neg hc]
    obtain ⟨b1, b2⟩ := half_ends X1 lz
    rw [b1, b2, eu, neg_apply_sub, neg_apply_sub, ← apply_add, ← apply_add]
    by_cases hpos : Q.z > 0
    · rw [if_pos hpos, if_pos hpos]
      have hp := hlow (-(lz / 2)) le_rfl (by linarith) (by rw [abs_of_pos hpos]; ring) uz ur ud
      have hq := hhigh (-(lz / 2)) le_rfl (by linarith) (by rw [abs_of_pos hpos]; ring) uz ur ud
      rw [neg_neg] at hq
      set c1 := X1.apply (⟨0, 0, lz / 2⟩ + -u)
      set c2 := X1.apply (⟨0, 0, -(lz / 2)⟩ + u)
      have hle : h.1.dot c2 ≤ h.1.dot c1 := hq.2 _ hp.1
      have hT := pl_touch hcv hp hq
      have s1 : sd h c1 = h.1.dot c1 - h.2 := rfl
      have s2 : sd h c2 = h.1.dot c2 - h.2 := rfl
      have hb : h.1.dot c2 ≤ h.2 ∧ h.2 ≤ h.1.dot c1 → sd h c2 < 0 := by
        intro hh
        obtain ⟨x, hx, hlt⟩ := hbelow' (hT.2 hh)
        have := hp.2 x hx
        rw [neg_dot, neg_dot] at this
        linarith
      by_cases ht : h.1.dot c2 ≤ h.2 ∧ h.2 ≤ h.1.dot c1
      · have i2 := hb ht
        have i1 : 0 ≤ sd h c1 := by linarith [ht.2]
        rw [if_pos (mul_nonpos_of_nonneg_of_nonpos i1 i2.le)]
        by_cases hab : |sd h c1| > |sd h c2|
        · rw [if_pos hab]
          rw [abs_of_nonneg i1, abs_of_neg i2] at hab
          apply pl_hit hcv hp hq
          · intro _ _; rfl
          · intro hcon; rcases hcon with hcon | hcon <;> linarith [ht.1, ht.2]
          · intro _ _
            rw [if_pos i2, abs_of_neg i2]
            refine pl_contact hcv hu hp hq (by linarith) (Or.inl ⟨rfl, by linarith, by linarith⟩) (foot_mem hu _)
        · rw [if_neg hab]
          rw [abs_of_nonneg i1, abs_of_neg i2] at hab
          apply pl_hit hcv hp hq
          · intro _ _; rfl
          · intro hcon; rcases hcon with hcon | hcon <;> linarith [ht.1, ht.2]
          · intro _ _
            rw [if_neg (not_lt.2 i1), abs_of_nonneg i1]
            refine pl_contact hcv hu hp hq (by linarith) (Or.inr ⟨rfl, by linarith, by linarith⟩) (foot_mem hu _)
      · have hmiss : ¬ sd h c1 * sd h c2 ≤ 0 := by
          rw [not_and_or, not_le, not_le] at ht
          rw [not_le]
          rcases ht with ht | ht
          · exact mul_pos (by linarith) (by linarith)
          · exact mul_pos_of_neg_of_neg (by linarith) (by linarith)
        rw [if_neg hmiss]
        apply pl_hit hcv hp hq (k := ⟨0, 0, 0⟩)
        · intro x y; exact absurd ⟨x, y⟩ ht
        · intro _; rfl
        · intro x y; exact absurd ⟨x, y⟩ ht
    · rw [if_neg hpos, if_neg hpos]
      have hz0 := not_lt.1 hpos
      have hp := hlow (lz / 2) (by linarith) le_rfl (by rw [abs_of_nonpos hz0]; ring) uz ur ud
      have hq := hhigh (lz / 2) (by linarith) le_rfl (by rw [abs_of_nonpos hz0]; ring) uz ur ud
      set c1 := X1.apply (⟨0, 0, lz / 2⟩ + u)
      set c2 := X1.apply (⟨0, 0, -(lz / 2)⟩ + -u)
      have hle : h.1.dot c1 ≤ h.1.dot c2 := hq.2 _ hp.1
      have hT := pl_touch hcv hp hq
      have s1 : sd h c1 = h.1.dot c1 - h.2 := rfl
      have s2 : sd h c2 = h.1.dot c2 - h.2 := rfl
      have hb : h.1.dot c1 ≤ h.2 ∧ h.2 ≤ h.1.dot c2 → sd h c1 < 0 := by
        intro hh
        obtain ⟨x, hx, hlt⟩ := hbelow' (hT.2 hh)
        have := hp.2 x hx
        rw [neg_dot, neg_dot] at this
        linarith
      by_cases ht : h.1.dot c1 ≤ h.2 ∧ h.2 ≤ h.1.dot c2
      · have i1 := hb ht
        have i2 : 0 ≤ sd h c2 := by linarith [ht.2]
        rw [if_pos (mul_nonpos_of_nonpos_of_nonneg i1.le i2)]
        by_cases hab : |sd h c1| > |sd h c2|
        · rw [if_pos hab]
          rw [abs_of_neg i1, abs_of_nonneg i2] at hab
          apply pl_hit hcv hp hq
          · intro _ _; rfl
          · intro hcon; rcases hcon with hcon | hcon <;> linarith [ht.1, ht.2]
          · intro _ _
            rw [if_neg (not_lt.2 i2), abs_of_nonneg i2]
            refine pl_contact hcv hu hp hq (by linarith) (Or.inr ⟨rfl, by linarith, by linarith⟩) (foot_mem hu _)
        · rw [if_neg hab]
          rw [abs_of_neg i1, abs_of_nonneg i2] at hab
          apply pl_hit hcv hp hq
          · intro _ _; rfl
          · intro hcon; rcases hcon with hcon | hcon <;> linarith [ht.1, ht.2]
          · intro _ _
            rw [if_pos i1, abs_of_neg i1]
            refine pl_contact hcv hu hp hq (by linarith) (Or.inl ⟨rfl, by linarith, by linarith⟩) (foot_mem hu _)
      · have hmiss : ¬ sd h c1 * sd h c2 ≤ 0 := by
          rw [not_and_or, not_le, not_le] at ht
          rw [not_le]
          rcases ht with ht | ht
          · exact mul_pos (by linarith) (by linarith)
          · exact mul_pos_of_neg_of_neg (by linarith) (by linarith)
        rw [if_neg hmiss]
        apply pl_hit hcv hp hq (k := ⟨0, 0, 0⟩)
        · intro x y; exact absurd ⟨x, y⟩ ht
        · intro _; rfl
        · intro x y; exact absurd ⟨x, y⟩ ht

/-- **C70 (cylinders).** Without contacts no collision is missed. -/
theorem C70_cylinder_bool_partial (tol r lz : ℝ) (hw : (Geo.cylinder r lz).WF) (n : V3 ℝ) (d : ℝ)
    (hn : (Geo.plane n d).WF) (X1 X2 : Pose ℝ) (h1 : X1.Rigid) (h2 : X2.Rigid)
    (hT : Touch (Placed X1.R X1.t (Geo.cylinder r lz).pts) (Placed X2.R X2.t (Geo.plane n d).pts)) :
    (cylinderPlane tol r lz X1 n d X2 none).1 = true := by
  have hn' : n.dot n = 1 := hn
  rw [placed_plane h2 hn'] at hT
  simp only [cylinderPlane, cylinderPlane0]
  generalize transform n d X2 = h at *
  obtain ⟨_, ⟨x, hx, rfl⟩, hb⟩ := hT
  rw [mem_PL] at hb
  have e : h.1.dot (X1.apply x) = (X1.R.tr.mulVec h.1).dot x + h.1.dot X1.t := dot_apply _ _ _
  rw [Pose.apply] at e
  have i1 := cylinder_le hw.1 (d := X1.R.tr.mulVec h.1) hx
  have i2 := cylinder_le hw.1 (d := -X1.R.tr.mulVec h.1) hx
  rw [neg_dot, neg_z, abs_neg, rho_neg] at i2
  set Q := X1.R.tr.mulVec h.1
  have hlz : 0 ≤ lz := hw.2
  have h3 := mul_nonneg (abs_nonneg Q.z) (show 0 ≤ lz / 2 by linarith)
  have h4 : |sd h X1.t| ≤ |Q.z| * lz + r * rho Q := by
    rw [abs_le, sd]; constructor <;> linarith
  rw [if_neg]
  rw [rho] at h4
  linarith

namespace Flat

/-- What counts as positive: all positive numbers, no negative ones. -/
structure Signs (pos : ℝ → Bool) : Prop where
  yes : ∀ x, pos x = true → 0 ≤ x
  no : ∀ x, pos x = false → x ≤ 0
  gap : ∀ x y, pos x = true → pos y = false → y < x

theorem signs_ge : Signs (fun x => decide (x ≥ 0)) where
  yes x h := of_decide_eq_true h
  no x h := (not_le.1 (of_decide_eq_false h)).le
  gap x y h h' := lt_of_lt_of_le (not_le.1 (of_decide_eq_false h')) (of_decide_eq_true h)
theorem signs_gt : Signs (fun x => decide (x > 0)) where
  yes x h := le_of_lt (of_decide_eq_true h)
  no x h := not_lt.1 (of_decide_eq_false h)
  gap x y h h' := lt_of_le_of_lt (not_lt.1 (of_decide_eq_false h')) (of_decide_eq_true h)

theorem sides_step {pos : ℝ → Bool} (hp : Signs pos) {a : ℝ × ℝ} (h1 : 0 ≤ a.1) (h2 : 0 ≤ a.2) (x : ℝ) :
    (if pos x then (if a.1 ≤ x then x else a.1, a.2) else (a.1, if a.2 ≤ -x then -x else a.2)) = (max a.1 x, max a.2 (-x)) := by
  by_cases hx : pos x = true
  · have := hp.yes x hx
    rw [if_pos hx, max_def, max_eq_left (show -x ≤ a.2 by linarith)]
  · have := hp.no x (by simpa using hx)
    rw [if_neg hx, max_eq_left (show x ≤ a.1 by linarith), max_def]

theorem sides_eq {pos : ℝ → Bool} (hp : Signs pos) (x y z : ℝ) :
    sides pos [x, y, z] = (max (max (max 0 x) y) z, max (max (max 0 (-x)) (-y)) (-z)) := by
  rw [sides, List.foldl_cons, sides_step hp le_rfl le_rfl, List.foldl_cons, sides_step hp (le_max_left _ _) (le_max_left _ _),
    List.foldl_cons, sides_step hp (le_max_of_le_left (le_max_left _ _)) (le_max_of_le_left (le_max_left _ _)), List.foldl_nil]

theorem up_ok {A : Set (V3 ℝ)} (hA : ConvexSet A) {h : V3 ℝ × ℝ} {p q : V3 ℝ} (hp : p ∈ A) (hq : q ∈ A) {a b : ℝ}
    (ea : sd h p = a) (eb : sd h q = b) (h1 : 0 ≤ a) (h2 : b ≤ 0) (h3 : b < a) :
    (1 / (-b + a)) • ((-b) • p + a • q) ∈ A ∧ h.1.dot ((1 / (-b + a)) • ((-b) • p + a • q)) = h.2 := by
  have hd : 0 < -b + a := by linarith
  constructor
  · have := hA p hp q hq (a / (-b + a)) (div_nonneg h1 hd.le) ((div_le_one hd).2 (by linarith))
    rw [show (1 - a / (-b + a)) • p + (a / (-b + a)) • q = (1 / (-b + a)) • ((-b) • p + a • q) from by
      have : 1 - a / (-b + a) = -b / (-b + a) := by field_simp; ring
      rw [this]
      apply V3.ext' <;> simp only [add_x, add_y, add_z, smul_x, smul_y, smul_z] <;> ring] at this
    exact this
  · have e1 : h.1.dot p = h.2 + a := by rw [← ea, sd]; ring
    have e2 : h.1.dot q = h.2 + b := by rw [← eb, sd]; ring
    rw [dot_smul, dot_add, dot_smul, dot_smul, e1, e2]
    field_simp
    ring

theorem dn_ok {A : Set (V3 ℝ)} (hA : ConvexSet A) {h : V3 ℝ × ℝ} {p q : V3 ℝ} (hp : p ∈ A) (hq : q ∈ A) {a b : ℝ}
    (ea : sd h p = a) (eb : sd h q = b) (h1 : a ≤ 0) (h2 : 0 ≤ b) (h3 : a < b) :
    (1 / (b - a)) • (b • p - a • q) ∈ A ∧ h.1.dot ((1 / (b - a)) • (b • p - a • q)) = h.2 := by
  have := up_ok hA hq hp eb ea h2 h1 h3
  rwa [show (1 / (-a + b)) • ((-a) • q + b • p) = (1 / (b - a)) • (b • p - a • q) from by
    rw [show -a + b = b - a from by ring]
    apply V3.ext' <;> simp only [add_x, add_y, add_z, sub_x, sub_y, sub_z, smul_x, smul_y, smul_z] <;> ring] at this

theorem mid_ok {A : Set (V3 ℝ)} (hA : ConvexSet A) {h : V3 ℝ × ℝ} {p q : V3 ℝ} (hp : p ∈ A ∧ h.1.dot p = h.2)
    (hq : q ∈ A ∧ h.1.dot q = h.2) : (1 / 2 : ℝ) • (p + q) ∈ A ∧ h.1.dot ((1 / 2 : ℝ) • (p + q)) = h.2 := by
  constructor
  · have := hA p hp.1 q hq.1 (1 / 2) (by norm_num) (by norm_num)
    rwa [show (1 - 1 / 2 : ℝ) • p + (1 / 2 : ℝ) • q = (1 / 2 : ℝ) • (p + q) from by v3] at this
  · rw [dot_smul, dot_add, hp.2, hq.2]; ring

theorem crossPoint_ok {A : Set (V3 ℝ)} (hA : ConvexSet A) {h : V3 ℝ × ℝ} {pos : ℝ → Bool} (hs : Signs pos) {c0 c1 c2 : V3 ℝ}
    (m0 : c0 ∈ A) (m1 : c1 ∈ A) (m2 : c2 ∈ A)
    (hc : ¬ ((sd h c0 ≥ 0 ∧ sd h c1 ≥ 0 ∧ sd h c2 ≥ 0) ∨ (sd h c0 ≤ 0 ∧ sd h c1 ≤ 0 ∧ sd h c2 ≤ 0))) :
    crossPoint pos c0 c1 c2 (sd h c0) (sd h c1) (sd h c2) ∈ A ∧
      h.1.dot (crossPoint pos c0 c1 c2 (sd h c0) (sd h c1) (sd h c2)) = h.2 := by
  have hy := hs.yes
  have hno := hs.no
  have hg := hs.gap
  have UP : ∀ {p q : V3 ℝ}, p ∈ A → q ∈ A → pos (sd h p) = true → pos (sd h q) = false →
      (1 / (-sd h q + sd h p)) • ((-sd h q) • p + sd h p • q) ∈ A ∧
        h.1.dot ((1 / (-sd h q + sd h p)) • ((-sd h q) • p + sd h p • q)) = h.2 :=
    fun i j a b => up_ok hA i j rfl rfl (hy _ a) (hno _ b) (hg _ _ a b)
  have DN : ∀ {p q : V3 ℝ}, p ∈ A → q ∈ A → pos (sd h p) = false → pos (sd h q) = true →
      (1 / (sd h q - sd h p)) • (sd h q • p - sd h p • q) ∈ A ∧
        h.1.dot ((1 / (sd h q - sd h p)) • (sd h q • p - sd h p • q)) = h.2 :=
    fun i j a b => dn_ok hA i j rfl rfl (hno _ a) (hy _ b) (hg _ _ b a)
  unfold crossPoint
  rcases h0 : pos (sd h c0) with _ | _ <;> rcases h1 : pos (sd h c1) with _ | _ <;> rcases h2 : pos (sd h c2) with _ | _ <;>
    simp only
  · exact absurd (Or.inr ⟨hno _ h0, hno _ h1, hno _ h2⟩) hc
  · exact mid_ok hA (DN m0 m2 h0 h2) (DN m1 m2 h1 h2)
  · exact mid_ok hA (DN m0 m1 h0 h1) (DN m2 m1 h2 h1)
  · exact mid_ok hA (UP m1 m0 h1 h0) (UP m2 m0 h2 h0)
  · exact mid_ok hA (DN m1 m0 h1 h0) (DN m2 m0 h2 h0)
  · exact mid_ok hA (UP m0 m1 h0 h1) (UP m2 m1 h2 h1)
  · exact mid_ok hA (UP m0 m2 h0 h2) (UP m1 m2 h1 h2)
  · exact absurd (Or.inl ⟨hy _ h0, hy _ h1, hy _ h2⟩) hc

/-- Depth and normal from the two values of `sides`, when the shape reaches below and above the plane. -/
theorem sides_contact {A : Set (V3 ℝ)} (hA : ConvexSet A) {h : V3 ℝ × ℝ} (hu : h.1.dot h.1 = 1) {p q : V3 ℝ}
    (hp : IsSupport A (-h.1) p) (hq : IsSupport A h.1 q) {s : ℝ × ℝ} (e1 : s.1 = h.1.dot q - h.2) (e2 : s.2 = h.2 - h.1.dot p)
    (h1 : 0 ≤ s.1) (h2 : 0 ≤ s.2) {pos : V3 ℝ} (hpos : h.1.dot pos = h.2) :
    PlaneContact A (PL h) ⟨if s.1 > s.2 then -h.1 else h.1, pos, min s.1 s.2⟩ := by
  refine pl_contact hA hu hp hq (le_min h1 h2) ?_ hpos
  by_cases hc : s.1 > s.2
  · rw [if_pos hc, min_eq_right (le_of_lt hc)]
    exact Or.inl ⟨rfl, e2, by linarith⟩
  · rw [if_neg hc, min_eq_left (not_lt.1 hc)]
    exact Or.inr ⟨rfl, e1, by linarith [not_lt.1 hc]⟩

/-- A plane that does not just touch: if it meets the set, the set has points strictly below and strictly above. -/
theorem proper {A : Set (V3 ℝ)} {n : V3 ℝ} {d : ℝ} {X2 : Pose ℝ} (h2 : X2.Rigid) (hn : n.dot n = 1) {B : Set (V3 ℝ)}
    (H : Touch A B → (∃ x ∈ A, (X2.R.mulVec n).dot (x - X2.t) < d) ∧ ∃ x ∈ A, d < (X2.R.mulVec n).dot (x - X2.t)) :
    Touch A B → (∃ x ∈ A, (transform n d X2).1.dot x < (transform n d X2).2) ∧
      ∃ x ∈ A, (transform n d X2).2 < (transform n d X2).1.dot x := by
  intro hT
  obtain ⟨⟨x, hx, h3⟩, ⟨y, hy, h4⟩⟩ := H hT
  rw [transform_eq h2 hn]
  rw [dot_sub] at h3 h4
  refine ⟨⟨x, hx, ?_⟩, ⟨y, hy, ?_⟩⟩ <;> simp only <;> linarith

theorem min3 {a b c m : ℝ} (h1 : m ≤ a) (h2 : m ≤ b) (h3 : m ≤ c) (h : m = a ∨ m = b ∨ m = c) (h0 : m ≤ 0) :
    max (max (max 0 (-a)) (-b)) (-c) = -m := by
  apply le_antisymm
  · exact max_le (max_le (max_le (by linarith) (by linarith)) (by linarith)) (by linarith)
  · rcases h with rfl | rfl | rfl
    · exact le_max_of_le_left (le_max_of_le_left (le_max_right _ _))
    · exact le_max_of_le_left (le_max_right _ _)
    · exact le_max_right _ _
theorem max3 {a b c m : ℝ} (h1 : a ≤ m) (h2 : b ≤ m) (h3 : c ≤ m) (h : m = a ∨ m = b ∨ m = c) (h0 : 0 ≤ m) :
    max (max (max 0 a) b) c = m := by
  apply le_antisymm
  · exact max_le (max_le (max_le h0 h1) h2) h3
  · rcases h with rfl | rfl | rfl
    · exact le_max_of_le_left (le_max_of_le_left (le_max_right _ _))
    · exact le_max_of_le_left (le_max_right _ _)
    · exact le_max_right _ _

/-- The three points `c0`, `c1`, `c2` decide, if the lowest and the highest point of the shape are among them. -/
theorem three_points {A : Set (V3 ℝ)} (hA : ConvexSet A) {h : V3 ℝ × ℝ} (hu : h.1.dot h.1 = 1) {pos : ℝ → Bool} (hs : Signs pos)
    {c0 c1 c2 : V3 ℝ} (m0 : c0 ∈ A) (m1 : c1 ∈ A) (m2 : c2 ∈ A) {p q : V3 ℝ} (hp : IsSupport A (-h.1) p) (hq : IsSupport A h.1 q)
    (ep : p = c0 ∨ p = c1 ∨ p = c2) (eq : q = c0 ∨ q = c1 ∨ q = c2)
    (hprop : Touch A (PL h) → (∃ x ∈ A, h.1.dot x < h.2) ∧ ∃ x ∈ A, h.2 < h.1.dot x) :
    (((sd h c0 ≥ 0 ∧ sd h c1 ≥ 0 ∧ sd h c2 ≥ 0) ∨ (sd h c0 ≤ 0 ∧ sd h c1 ≤ 0 ∧ sd h c2 ≤ 0)) ↔ ¬ Touch A (PL h)) ∧
    (Touch A (PL h) → crossPoint pos c0 c1 c2 (sd h c0) (sd h c1) (sd h c2) ∈ A ∧
      PlaneContact A (PL h) ⟨if (sides pos [sd h c0, sd h c1, sd h c2]).1 > (sides pos [sd h c0, sd h c1, sd h c2]).2
        then -h.1 else h.1, crossPoint pos c0 c1 c2 (sd h c0) (sd h c1) (sd h c2),
        min (sides pos [sd h c0, sd h c1, sd h c2]).1 (sides pos [sd h c0, sd h c1, sd h c2]).2⟩) := by
  have low : ∀ x ∈ A, sd h p ≤ sd h x := by
    intro x hx
    have := hp.2 x hx
    rw [neg_dot, neg_dot] at this
    rw [sd, sd]; linarith
  have high : ∀ x ∈ A, sd h x ≤ sd h q := by
    intro x hx
    have := hq.2 x hx
    rw [sd, sd]; linarith
  have hT := pl_touch hA hp hq
  have hT' : Touch A (PL h) ↔ sd h p ≤ 0 ∧ 0 ≤ sd h q := by
    rw [hT, sd, sd]; constructor <;> rintro ⟨i, j⟩ <;> constructor <;> linarith
  have hstrict : Touch A (PL h) → sd h p < 0 ∧ 0 < sd h q := by
    intro t
    obtain ⟨⟨x, hx, h3⟩, ⟨y, hy, h4⟩⟩ := hprop t
    have h5 := low x hx
    have h6 := high y hy
    constructor
    · refine lt_of_le_of_lt h5 ?_; rw [sd]; linarith
    · refine lt_of_lt_of_le ?_ h6; rw [sd]; linarith
  have E1 : sd h p = sd h c0 ∨ sd h p = sd h c1 ∨ sd h p = sd h c2 := by rcases ep with rfl | rfl | rfl <;> simp
  have E2 : sd h q = sd h c0 ∨ sd h q = sd h c1 ∨ sd h q = sd h c2 := by rcases eq with rfl | rfl | rfl <;> simp
  have key : ((sd h c0 ≥ 0 ∧ sd h c1 ≥ 0 ∧ sd h c2 ≥ 0) ∨ (sd h c0 ≤ 0 ∧ sd h c1 ≤ 0 ∧ sd h c2 ≤ 0)) ↔ ¬ Touch A (PL h) := by
    constructor
    · intro hc t
      obtain ⟨i, j⟩ := hstrict t
      rcases hc with ⟨a, b, c⟩ | ⟨a, b, c⟩
      · rcases E1 with e | e | e <;> linarith
      · rcases E2 with e | e | e <;> linarith
    · intro t
      rw [hT', not_and_or, not_le, not_le] at t
      have := low _ m0; have := low _ m1; have := low _ m2
      have := high _ m0; have := high _ m1; have := high _ m2
      rcases t with t | t
      · exact Or.inl ⟨by linarith, by linarith, by linarith⟩
      · exact Or.inr ⟨by linarith, by linarith, by linarith⟩
  refine ⟨key, fun t => ?_⟩
  have hcr := crossPoint_ok hA hs m0 m1 m2 (fun hc => key.1 hc t)
  obtain ⟨i, j⟩ := hstrict t
  refine ⟨hcr.1, ?_⟩
  rw [sides_eq hs, max3 (high _ m0) (high _ m1) (high _ m2) E2 j.le, min3 (low _ m0) (low _ m1) (low _ m2) E1 i.le]
  exact sides_contact hA hu hp hq (s := (sd h q, -sd h p)) (by simp only [sd]) (by simp only [sd]; ring) j.le (by simp only; linarith)
    hcr.2

end Flat

/-- **C70 (cones, in part).** A cone and a plane: everything is exact, and the contact point is on the plane, if the axis is
parallel to the plane or not nearly so, perpendicular to it or not nearly so, and the plane does not just touch the
cone. -/
theorem C70_cone_partial (tol r lz : ℝ) (htol : 0 < tol) (hw : (Geo.cone r lz).WF) (n : V3 ℝ) (d : ℝ)
    (hn : (Geo.plane n d).WF) (X1 X2 : Pose ℝ) (h1 : X1.Rigid) (h2 : X2.Rigid)
    (hq : axisCos X1 X2 n = 0 ∨ tol ≤ |axisCos X1 X2 n|) (hq' : |axisCos X1 X2 n| = 1 ∨ tol ≤ 1 - |axisCos X1 X2 n|)
    (contacts : Option (List CPoint)) (A B : Set (V3 ℝ)) (hA : A = Placed X1.R X1.t (Geo.cone r lz).pts)
    (hB : B = Placed X2.R X2.t (Geo.plane n d).pts)
    (hprop : Touch A B → (∃ x ∈ A, (X2.R.mulVec n).dot (x - X2.t) < d) ∧ ∃ x ∈ A, d < (X2.R.mulVec n).dot (x - X2.t)) :
    HitSpec A B contacts (conePlane tol r lz X1 n d X2 contacts) (PlaneContact A B) := by
  have hn' : n.dot n = 1 := hn
  rw [placed_plane h2 hn'] at hB
  have hu := transform_unit (d := d) h2 hn'
  rw [axisCos_eq (d := d) h2 hn'] at hq hq'
  have hprop' := proper (n := n) (d := d) h2 hn' hprop
  clear hprop
  unfold conePlane
  generalize transform n d X2 = h at *
  subst hA hB
  simp only
  rw [col_dot]
  obtain ⟨u, eu, uz, ur, ud⟩ := rim_exact htol hw.1 h1 hu hq'
  have hlz : 0 ≤ lz := hw.2
  have hr0 : 0 ≤ r := hw.1
  have hcv : ConvexSet (Placed X1.R X1.t (Shape.cone r lz)) := convex_placed (convex_cone hr0 lz)
  have hlow : ∀ p : V3 ℝ, p ∈ Shape.cone r lz → (X1.R.tr.mulVec h.1).dot p ≤ (X1.R.tr.mulVec h.1).z * (lz / 2) →
      (X1.R.tr.mulVec h.1).dot p ≤ -(r * rho (X1.R.tr.mulVec h.1)) - (X1.R.tr.mulVec h.1).z * (lz / 2) →
      IsSupport (Placed X1.R X1.t (Shape.cone r lz)) (-h.1) (X1.apply p) := by
    intro p hp a b
    refine support_placed ?_
    rw [tr_neg]
    refine ⟨hp, fun q hq => cone_le hr0 ?_ ?_ hq⟩
    · rw [neg_dot, neg_z]; linarith
    · rw [neg_dot, neg_z, rho_neg]; linarith
  have hhigh : ∀ p : V3 ℝ, p ∈ Shape.cone r lz → (X1.R.tr.mulVec h.1).z * (lz / 2) ≤ (X1.R.tr.mulVec h.1).dot p →
      r * rho (X1.R.tr.mulVec h.1) - (X1.R.tr.mulVec h.1).z * (lz / 2) ≤ (X1.R.tr.mulVec h.1).dot p →
      IsSupport (Placed X1.R X1.t (Shape.cone r lz)) h.1 (X1.apply p) := by
    intro p hp a b
    exact support_placed ⟨hp, fun q hq => cone_le hr0 a b hq⟩
  set Q := X1.R.tr.mulVec h.1 with hQ
  have hQ1 : Q.dot Q = 1 := tr_unit h1 hu
  have hrr := mul_nonneg hr0 (rho_nonneg Q)
  obtain ⟨b1, b2⟩ := half_ends X1 lz
  by_cases hc : |Q.z| < tol
  · rw [if_pos hc]
    have hz : Q.z = 0 := hq.resolve_right (not_le.2 hc)
    have hrho : rho Q = 1 := by
      have := unit_split hQ1
      rw [hz] at this
      nlinarith [rho_nonneg Q]
    have hd' : Q.x * Q.x + Q.y * Q.y + Q.z * Q.z = 1 := hQ1
    have hrim : ∀ k : ℝ, k * k = r * r → (⟨0, 0, -(lz / 2)⟩ + k • Q : V3 ℝ) ∈ Shape.cone r lz := by
      intro k hk
      refine cone_rim ?_ (by simp [hz])
      rw [hz] at hd'
      simp only [smul_x, smul_y]
      refine le_of_eq ?_
      linear_combination k * k * hd' + hk
    have hval : ∀ k : ℝ, Q.dot (⟨0, 0, -(lz / 2)⟩ + k • Q) = k := by
      intro k
      rw [dot_add, dot_smul, hQ1]
      have : Q.dot ⟨0, 0, -(lz / 2)⟩ = 0 := by simp [dot, hz]
      rw [this]; ring
    have hp := hlow _ (hrim (-r) (by ring)) (by rw [hval, hz]; linarith) (by rw [hval, hz, hrho]; linarith)
    have hq2 := hhigh _ (hrim r rfl) (by rw [hval, hz]; linarith) (by rw [hval, hz, hrho]; linarith)
    have ep : h.1.dot (X1.apply (⟨0, 0, -(lz / 2)⟩ + (-r) • Q)) = h.1.dot X1.t - r := by rw [dot_apply, ← hQ, hval]; ring
    have eq : h.1.dot (X1.apply (⟨0, 0, -(lz / 2)⟩ + r • Q)) = h.1.dot X1.t + r := by rw [dot_apply, ← hQ, hval]; ring
    apply pl_hit hcv hp hq2
    · intro a b
      rw [ep] at a
      rw [eq] at b
      exact if_neg (not_lt.2 (central_touch a b))
    · intro a
      rw [ep, eq] at a
      exact if_pos (central_miss a)
    · intro a b
      rw [ep] at a
      rw [eq] at b
      have h0 := central_touch a b
      refine central hcv hu hp hq2 ep eq rfl h0 (neg_cases _ _) ?_
      have hdz : h.1.dot (X1.R.col 2) = 0 := by rw [dot_comm, col_dot]; exact hz
      rw [dot_sub, dot_add, dot_sub, dot_smul, dot_smul, dot_smul, hdz, hu, sd]
      ring
  · rw [if_neg hc]
    rw [b1, b2, eu, neg_apply_sub, ← apply_add]
    have v0 : Q.dot ⟨0, 0, lz / 2⟩ = Q.z * (lz / 2) := by simp [dot]
    have vb : Q.dot ⟨0, 0, -(lz / 2)⟩ = -(Q.z * (lz / 2)) := by simp [dot]
    have v1 : Q.dot (⟨0, 0, -(lz / 2)⟩ + u) = -(r * rho Q) - Q.z * (lz / 2) := by rw [dot_add, vb, ud]; ring
    have v2 : Q.dot (⟨0, 0, -(lz / 2)⟩ + -u) = r * rho Q - Q.z * (lz / 2) := by rw [dot_add, vb, dot_neg, ud]; ring
    have m0 := cone_tip r lz
    have m1 : (⟨0, 0, -(lz / 2)⟩ + u : V3 ℝ) ∈ Shape.cone r lz := cone_rim ur uz
    have m2 : (⟨0, 0, -(lz / 2)⟩ + -u : V3 ℝ) ∈ Shape.cone r lz := cone_rim (by simpa using ur) (by simp [uz])
    have hp : ∃ p, IsSupport (Placed X1.R X1.t (Shape.cone r lz)) (-h.1) p ∧
        (p = X1.apply ⟨0, 0, lz / 2⟩ ∨ p = X1.apply (⟨0, 0, -(lz / 2)⟩ + u) ∨ p = X1.apply (⟨0, 0, -(lz / 2)⟩ + -u)) := by
      rcases le_total (Q.z * (lz / 2)) (-(r * rho Q) - Q.z * (lz / 2)) with hle | hle
      · exact ⟨_, hlow _ m0 (by rw [v0]) (by rw [v0]; exact hle), Or.inl rfl⟩
      · exact ⟨_, hlow _ m1 (by rw [v1]; exact hle) (by rw [v1]), Or.inr (Or.inl rfl)⟩
    have hqq : ∃ p, IsSupport (Placed X1.R X1.t (Shape.cone r lz)) h.1 p ∧
        (p = X1.apply ⟨0, 0, lz / 2⟩ ∨ p = X1.apply (⟨0, 0, -(lz / 2)⟩ + u) ∨ p = X1.apply (⟨0, 0, -(lz / 2)⟩ + -u)) := by
      rcases le_total (Q.z * (lz / 2)) (r * rho Q - Q.z * (lz / 2)) with hle | hle
      · exact ⟨_, hhigh _ m2 (by rw [v2]; exact hle) (by rw [v2]), Or.inr (Or.inr rfl)⟩
      · exact ⟨_, hhigh _ m0 (by rw [v0]) (by rw [v0]; exact hle), Or.inl rfl⟩
    obtain ⟨p, hp, ep⟩ := hp
    obtain ⟨q, hq3, eq⟩ := hqq
    have M : ∀ x, x ∈ Shape.cone r lz → X1.apply x ∈ Placed X1.R X1.t (Shape.cone r lz) := fun x hx => ⟨x, hx, rfl⟩
    have h3 := three_points hcv hu signs_ge (M _ m0) (M _ m1) (M _ m2) hp hq3 ep eq hprop'
    have hT := pl_touch hcv hp hq3
    apply pl_hit hcv hp hq3
    · intro a b
      exact if_neg fun hcon => h3.1.1 hcon (hT.2 ⟨a, b⟩)
    · intro a
      refine if_pos (h3.1.2 fun t => ?_)
      have := hT.1 t
      rcases a with a | a <;> linarith [this.1, this.2]
    · intro a b
      exact (h3.2 (hT.2 ⟨a, b⟩)).2

/-- **C70 (triangles, in part).** A plane and a triangle of a mesh: everything is exact, and the contact point is a common
point, if the plane does not just touch the triangle. Here the plane is the first shape. -/
theorem C70_triangle_partial (n : V3 ℝ) (d : ℝ) (hn : (Geo.plane n d).WF) (a b c : V3 ℝ) (X1 X2 : Pose ℝ) (h1 : X1.Rigid)
    (A B : Set (V3 ℝ)) (hA : A = Placed X1.R X1.t (Geo.plane n d).pts)
    (hB : B = Placed X2.R X2.t (Geo.triangle a b c).pts)
    (hprop : Touch B A → (∃ x ∈ B, (X1.R.mulVec n).dot (x - X1.t) < d) ∧ ∃ x ∈ B, d < (X1.R.mulVec n).dot (x - X1.t)) :
    ((planeTriangle n d X1 a b c X2).1 = true ↔ Touch A B) ∧
    ((planeTriangle n d X1 a b c X2).1 = false → (planeTriangle n d X1 a b c X2).2 = none) ∧
    ((planeTriangle n d X1 a b c X2).1 = true → ∃ k, (planeTriangle n d X1 a b c X2).2 = some k ∧
      PlaneContact B A ⟨-k.normal, k.pos, k.depth⟩ ∧ k.pos ∈ B) := by
  have hn' : n.dot n = 1 := hn
  rw [placed_plane h1 hn'] at hA
  have hu := transform_unit (d := d) h1 hn'
  have hprop' := proper (n := n) (d := d) h1 hn' hprop
  clear hprop
  unfold planeTriangle
  generalize transform n d X1 = h at *
  subst hA hB
  simp only
  have hcv : ConvexSet (Placed X2.R X2.t (Geo.triangle a b c).pts) := convex_placed (convex_hull _)
  have M : ∀ x ∈ [a, b, c], X2.apply x ∈ Placed X2.R X2.t (Geo.triangle a b c).pts := fun x hx => ⟨x, .pt hx, rfl⟩
  have best : ∀ e : V3 ℝ, ∃ p ∈ [a, b, c], ∀ v ∈ [a, b, c], e.dot v ≤ e.dot p := by
    intro e
    simp only [List.mem_cons, List.not_mem_nil, or_false, forall_eq_or_imp, forall_eq, exists_eq_or_imp, exists_eq_left]
    rcases le_total (e.dot a) (e.dot b) with i | i <;> rcases le_total (e.dot b) (e.dot c) with j | j <;>
      rcases le_total (e.dot a) (e.dot c) with k | k
    · exact Or.inr (Or.inr ⟨k, j, le_rfl⟩)
    · exact Or.inr (Or.inr ⟨by linarith, j, le_rfl⟩)
    · exact Or.inr (Or.inl ⟨i, le_rfl, j⟩)
    · exact Or.inr (Or.inl ⟨i, le_rfl, j⟩)
    · exact Or.inr (Or.inr ⟨k, j, le_rfl⟩)
    · exact Or.inl ⟨le_rfl, i, k⟩
    · exact Or.inr (Or.inr ⟨k, by linarith, le_rfl⟩)
    · exact Or.inl ⟨le_rfl, i, k⟩
  have sup : ∀ e : V3 ℝ, ∃ p, IsSupport (Placed X2.R X2.t (Geo.triangle a b c).pts) e p ∧
      (p = X2.apply a ∨ p = X2.apply b ∨ p = X2.apply c) := by
    intro e
    obtain ⟨p, hp, hle⟩ := best (X2.R.tr.mulVec e)
    refine ⟨X2.apply p, support_placed (hull_support hp hle), ?_⟩
    simp only [List.mem_cons, List.not_mem_nil, or_false] at hp
    rcases hp with rfl | rfl | rfl <;> simp
  obtain ⟨p, hp, ep⟩ := sup (-h.1)
  obtain ⟨q, hq, eq⟩ := sup h.1
  obtain ⟨k1, k2⟩ := three_points hcv hu signs_gt (M a (by simp)) (M b (by simp)) (M c (by simp)) hp hq ep eq hprop'
  by_cases ht : Touch (Placed X2.R X2.t (Geo.triangle a b c).pts) (PL h)
  · rw [if_neg (fun hc => k1.1 hc ht)]
    obtain ⟨i, j⟩ := k2 ht
    refine ⟨by rw [touch_symm]; simp [ht], fun h => (by cases h), fun _ => ⟨_, rfl, ?_, i⟩⟩
    simp only
    rwa [show ∀ (P : Prop) [Decidable P], -(if P then h.1 else -h.1) = if P then -h.1 else h.1 from by
      intro P _; split_ifs <;> v3]
  · rw [if_pos (k1.2 ht)]
    refine ⟨by rw [touch_symm]; simp [ht], fun _ => rfl, fun h => by cases h⟩

/-- **C70 (triangles).** Without any condition: the answer says whether the triangle has points strictly on both sides. -/
theorem C70_triangle_crossing (n : V3 ℝ) (d : ℝ) (hn : (Geo.plane n d).WF) (a b c : V3 ℝ) (X1 X2 : Pose ℝ) (h1 : X1.Rigid)
    (B : Set (V3 ℝ)) (hB : B = Placed X2.R X2.t (Geo.triangle a b c).pts) :
    (planeTriangle n d X1 a b c X2).1 = true ↔
      (∃ x ∈ B, (X1.R.mulVec n).dot (x - X1.t) < d) ∧ ∃ x ∈ B, d < (X1.R.mulVec n).dot (x - X1.t) := by
  have hn' : n.dot n = 1 := hn
  have hsd : ∀ x, sd (transform n d X1) x = (X1.R.mulVec n).dot (x - X1.t) - d := by
    intro x; rw [sd, transform_eq h1 hn', dot_sub]; ring
  have hull : ∀ {e x : V3 ℝ} {m : ℝ}, HullOf [a, b, c] x → e.dot a ≤ m → e.dot b ≤ m → e.dot c ≤ m → e.dot x ≤ m := by
    intro e x m hx h1 h2 h3
    induction hx with
    | pt h =>
      simp only [List.mem_cons, List.not_mem_nil, or_false] at h
      rcases h with rfl | rfl | rfl <;> assumption
    | seg t t0 t1 _ _ i j =>
      rw [dot_add, dot_smul, dot_smul]
      nlinarith
  have hval : ∀ x, sd (transform n d X1) (X2.apply x) = (X2.R.tr.mulVec (transform n d X1).1).dot x +
      (transform n d X1).1.dot X2.t - (transform n d X1).2 := by
    intro x; rw [sd, dot_apply]
  unfold planeTriangle
  simp only
  constructor
  · intro hr
    have hc : ¬ _ := fun hc => by rw [if_pos hc] at hr; cases hr
    push Not at hc
    have M : ∀ x ∈ [a, b, c], X2.apply x ∈ B := fun x hx => by rw [hB]; exact ⟨x, .pt hx, rfl⟩
    obtain ⟨hc1, hc2⟩ := hc
    constructor
    · by_contra hn
      push Not at hn
      have := fun x hx => hn _ (M x hx)
      have ha := this a (by simp)
      have hb := this b (by simp)
      have hcc := this c (by simp)
      have := hc1 (by rw [hsd]; linarith) (by rw [hsd]; linarith)
      rw [hsd] at this
      linarith
    · by_contra hn
      push Not at hn
      have := fun x hx => hn _ (M x hx)
      have ha := this a (by simp)
      have hb := this b (by simp)
      have hcc := this c (by simp)
      have := hc2 (by rw [hsd]; linarith) (by rw [hsd]; linarith)
      rw [hsd] at this
      linarith
  · rintro ⟨⟨x, hx, hlt⟩, ⟨y, hy, hgt⟩⟩
    rw [hB] at hx hy
    obtain ⟨x', hx', rfl⟩ := hx
    obtain ⟨y', hy', rfl⟩ := hy
    have ex : sd (transform n d X1) (X2.apply x') < 0 := by rw [hsd, Pose.apply]; linarith
    have ey : 0 < sd (transform n d X1) (X2.apply y') := by rw [hsd, Pose.apply]; linarith
    rw [hval] at ex ey
    rw [if_neg]
    rintro (⟨i, j, k⟩ | ⟨i, j, k⟩)
    · rw [ge_iff_le, hval] at i j k
      set Q := X2.R.tr.mulVec (transform n d X1).1
      have := hull (e := -Q) hx' (m := (transform n d X1).1.dot X2.t - (transform n d X1).2) (by rw [neg_dot]; linarith)
        (by rw [neg_dot]; linarith) (by rw [neg_dot]; linarith)
      rw [neg_dot] at this
      linarith
    · rw [hval] at i j k
      set Q := X2.R.tr.mulVec (transform n d X1).1
      have := hull (e := Q) hy' (m := -((transform n d X1).1.dot X2.t - (transform n d X1).2)) (by linarith) (by linarith)
        (by linarith)
      linarith

/-! ### Where the code departs from the property -/

namespace Flat
/-- The upward unit vector. -/
def ez : V3 ℝ := ⟨0, 0, 1⟩
theorem ez_unit : ez.dot ez = 1 := by norm_num [ez, dot]
theorem ez_sd (d z : ℝ) (x y : ℝ) : sd (ez, d) ⟨x, y, z⟩ = z - d := by simp [sd, ez, dot]
theorem ends_id (lz : ℝ) : (Pose.id : Pose ℝ).t + (1 / 2 * lz) • (Pose.id : Pose ℝ).R.col 2 = ⟨0, 0, lz / 2⟩ ∧
    (Pose.id : Pose ℝ).t - (1 / 2 * lz) • (Pose.id : Pose ℝ).R.col 2 = ⟨0, 0, -(lz / 2)⟩ := by
  rw [col_id]
  constructor <;> apply V3.ext' <;> norm_num [Pose.id] <;> ring
theorem cos_id : ((Pose.id : Pose ℝ).R.col 2).dot ez = 1 := by simp [col_id, ez, dot]
end Flat

/-- **C70 and C72 are violated for capsules with contacts.** The tolerance is applied to the product of the distances of
the end points, so a thin short capsule that is pierced by the plane is reported to be apart, unless no contacts are
requested. -/
theorem C70_violated_capsule (tol : ℝ) (h0 : 0 < tol) : ∃ r lz : ℝ, (Geo.capsule r lz).WF ∧
    Touch (Placed (Pose.id : Pose ℝ).R (Pose.id : Pose ℝ).t (Geo.capsule r lz).pts)
      (Placed (Pose.id : Pose ℝ).R (Pose.id : Pose ℝ).t (Geo.plane ez 0).pts) ∧
    (∀ l, (capsulePlane tol r lz Pose.id ez 0 Pose.id (some l)).1 = false) ∧
    (capsulePlane tol r lz Pose.id ez 0 Pose.id none).1 = true := by
  have s0 : 0 < min 1 tol := lt_min one_pos h0
  have s1 : min 1 tol ≤ 1 := min_le_left _ _
  have s2 : min 1 tol ≤ tol := min_le_right _ _
  generalize min 1 tol = s at *
  have hT : Touch (Placed (Pose.id : Pose ℝ).R (Pose.id : Pose ℝ).t (Geo.capsule (s / 2) (2 * s)).pts)
      (Placed (Pose.id : Pose ℝ).R (Pose.id : Pose ℝ).t (Geo.plane ez 0).pts) := by
    rw [placed_id, placed_id]
    refine ⟨⟨0, 0, 0⟩, ⟨0, by linarith, by linarith, by norm_num; positivity⟩, ?_⟩
    change ez.dot ⟨0, 0, 0⟩ = 0
    simp [dot]
  refine ⟨s / 2, 2 * s, ⟨by linarith, by linarith⟩, hT, ?_, ?_⟩
  · intro l
    unfold capsulePlane
    rw [transform_id ez_unit]
    simp only [ends_id, ez_sd]
    rw [if_neg (by nlinarith), if_pos]
    rw [abs_of_nonneg (by linarith), abs_of_nonpos (by linarith)]
    constructor <;> linarith
  · have := (capsulePlane0_iff (r := s / 2) (lz := 2 * s) (d := 0) ⟨by linarith, by linarith⟩ ez_unit
      (Pose.id_rigid (K := ℝ)) (Pose.id_rigid (K := ℝ))).2 (by rw [← placed_plane Pose.id_rigid ez_unit]; exact hT)
    exact this

/-- **C70 is violated for capsules**: with the upper end point of the axis on the plane, the normal points the wrong way,
and moving the plane along it does not separate the shapes. -/
theorem C70_violated_capsule_normal (tol : ℝ) (h0 : 0 ≤ tol) : ∃ k,
    capsulePlane tol 1 2 Pose.id ez 1 Pose.id (some []) = (true, some [k]) ∧
    ¬ SeparatesAlong (Placed (Pose.id : Pose ℝ).R (Pose.id : Pose ℝ).t (Geo.capsule 1 2).pts)
      (Placed (Pose.id : Pose ℝ).R (Pose.id : Pose ℝ).t (Geo.plane ez 1).pts) k.normal k.depth := by
  unfold capsulePlane
  rw [transform_id ez_unit]
  simp only [ends_id, ez_sd]
  norm_num
  rw [if_neg (not_lt.2 h0)]
  refine ⟨_, by simp [push]; rfl, ?_⟩
  rintro ⟨-, h⟩
  simp only at h
  refine h 1 one_pos ?_
  rw [placed_id, placed_id]
  refine ⟨⟨0, 0, -1⟩, ⟨0, by norm_num, by norm_num, by norm_num⟩, ⟨⟨0, 0, 1⟩, ?_, ?_⟩⟩
  · change ez.dot ⟨0, 0, 1⟩ = 1
    norm_num [ez, dot]
  · apply V3.ext' <;> simp [ez] <;> norm_num

/-- **C70 and C72 are violated for cylinders without contacts**: the length is not halved, so a cylinder that reaches up to
`z = 1` is reported to touch the plane `z = 1.5`; with contacts it is not. -/
theorem C70_violated_cylinder (tol : ℝ) (h0 : 0 < tol) (h1 : tol ≤ 1) :
    ¬ Touch (Placed (Pose.id : Pose ℝ).R (Pose.id : Pose ℝ).t (Geo.cylinder 1 2).pts)
      (Placed (Pose.id : Pose ℝ).R (Pose.id : Pose ℝ).t (Geo.plane ez (3 / 2)).pts) ∧
    (cylinderPlane tol 1 2 Pose.id ez (3 / 2) Pose.id none).1 = true ∧
    ∀ l, (cylinderPlane tol 1 2 Pose.id ez (3 / 2) Pose.id (some l)).1 = false := by
  refine ⟨?_, ?_, ?_⟩
  · rw [placed_id, placed_id]
    rintro ⟨⟨x, y, z⟩, ⟨-, -, h⟩, hb⟩
    change ez.dot ⟨x, y, z⟩ = 3 / 2 at hb
    simp only [ez, dot] at hb
    norm_num at h
    linarith
  · simp only [cylinderPlane, cylinderPlane0]
    rw [transform_id ez_unit, if_neg]
    norm_num [sd, ez, dot, Pose.id, M3.tr, M3.one, M3.mulVec, M3.col, V3.get]
  · intro l
    unfold cylinderPlane
    have hc1 : ¬ |((Pose.id : Pose ℝ).R.col 2).dot ez| < tol := by rw [cos_id]; norm_num; exact h1
    have hc2 : ((Pose.id : Pose ℝ).R.col 2).dot ez > 0 := by rw [cos_id]; norm_num
    have hr : rimVec tol 1 ((Pose.id : Pose ℝ).R.col 2) ez (((Pose.id : Pose ℝ).R.col 2).dot ez) = 0 := by
      rw [rimVec, if_pos]
      right; rw [cos_id]; norm_num; exact h0
    rw [transform_id ez_unit]
    simp only
    rw [if_neg hc1, hr, (ends_id 2).1, (ends_id 2).2, if_pos hc2, if_pos hc2]
    have e1 : (⟨0, 0, 2 / 2⟩ - 0 : V3 ℝ) = ⟨0, 0, 1⟩ := by apply V3.ext' <;> norm_num
    have e2 : (⟨0, 0, -(2 / 2)⟩ + 0 : V3 ℝ) = ⟨0, 0, -1⟩ := by apply V3.ext' <;> norm_num
    rw [e1, e2, ez_sd, ez_sd, if_neg (by norm_num)]

/-- **C70 is violated for cylinders with contacts**: for a cylinder standing on a plane the normal points the wrong way. -/
theorem C70_violated_cylinder_normal (tol : ℝ) (h0 : 0 < tol) (h1 : tol ≤ 1) : ∃ k,
    cylinderPlane tol 1 2 Pose.id ez (-1) Pose.id (some []) = (true, some [k]) ∧
    ¬ SeparatesAlong (Placed (Pose.id : Pose ℝ).R (Pose.id : Pose ℝ).t (Geo.cylinder 1 2).pts)
      (Placed (Pose.id : Pose ℝ).R (Pose.id : Pose ℝ).t (Geo.plane ez (-1)).pts) k.normal k.depth := by
  unfold cylinderPlane
  have hc1 : ¬ |((Pose.id : Pose ℝ).R.col 2).dot ez| < tol := by rw [cos_id]; norm_num; exact h1
  have hc2 : ((Pose.id : Pose ℝ).R.col 2).dot ez > 0 := by rw [cos_id]; norm_num
  have hr : rimVec tol 1 ((Pose.id : Pose ℝ).R.col 2) ez (((Pose.id : Pose ℝ).R.col 2).dot ez) = 0 := by
    rw [rimVec, if_pos]
    right; rw [cos_id]; norm_num; exact h0
  rw [transform_id ez_unit]
  simp only
  rw [if_neg hc1, hr, (ends_id 2).1, (ends_id 2).2, if_pos hc2, if_pos hc2]
  have e1 : (⟨0, 0, 2 / 2⟩ - 0 : V3 ℝ) = ⟨0, 0, 1⟩ := by apply V3.ext' <;> norm_num
  have e2 : (⟨0, 0, -(2 / 2)⟩ + 0 : V3 ℝ) = ⟨0, 0, -1⟩ := by apply V3.ext' <;> norm_num
  rw [e1, e2, ez_sd, ez_sd, if_pos (by norm_num), if_pos (by norm_num), if_neg (by norm_num)]
  refine ⟨_, rfl, ?_⟩
  rintro ⟨-, h⟩
  simp only at h
  refine h 1 one_pos ?_
  rw [placed_id, placed_id]
  refine ⟨⟨0, 0, 0⟩, ⟨by norm_num, by norm_num, by norm_num⟩, ⟨⟨0, 0, -1⟩, ?_, ?_⟩⟩
  · change ez.dot ⟨0, 0, -1⟩ = -1
    norm_num [ez, dot]
  · apply V3.ext' <;> simp [ez]

/-- **C70 is violated for cones**: a cone whose apex touches the plane is reported to be apart. -/
theorem C70_violated_cone (tol : ℝ) (h0 : 0 < tol) (h1 : tol ≤ 1) :
    Touch (Placed (Pose.id : Pose ℝ).R (Pose.id : Pose ℝ).t (Geo.cone 1 2).pts)
      (Placed (Pose.id : Pose ℝ).R (Pose.id : Pose ℝ).t (Geo.plane ez 1).pts) ∧
    ∀ contacts, (conePlane tol 1 2 Pose.id ez 1 Pose.id contacts).1 = false := by
  constructor
  · rw [placed_id, placed_id]
    refine ⟨⟨0, 0, 2 / 2⟩, cone_tip 1 2, ?_⟩
    change ez.dot ⟨0, 0, 2 / 2⟩ = 1
    norm_num [ez, dot]
  · intro contacts
    unfold conePlane
    have hc1 : ¬ |((Pose.id : Pose ℝ).R.col 2).dot ez| < tol := by rw [cos_id]; norm_num; exact h1
    have hr : rimVec tol 1 ((Pose.id : Pose ℝ).R.col 2) ez (((Pose.id : Pose ℝ).R.col 2).dot ez) = 0 := by
      rw [rimVec, if_pos]
      right; rw [cos_id]; norm_num; exact h0
    rw [transform_id ez_unit]
    simp only
    rw [if_neg hc1, hr, (ends_id 2).1, (ends_id 2).2]
    have e1 : (⟨0, 0, -(2 / 2)⟩ + 0 : V3 ℝ) = ⟨0, 0, -1⟩ := by apply V3.ext' <;> norm_num
    have e2 : (⟨0, 0, -(2 / 2)⟩ - 0 : V3 ℝ) = ⟨0, 0, -1⟩ := by apply V3.ext' <;> norm_num
    rw [e1, e2, ez_sd, ez_sd, if_pos]
    right; norm_num

/-- **C70 is violated for triangles**: a triangle that touches the plane is reported to be apart. -/
theorem C70_violated_triangle :
    Touch (Placed (Pose.id : Pose ℝ).R (Pose.id : Pose ℝ).t (Geo.plane ez 0).pts)
      (Placed (Pose.id : Pose ℝ).R (Pose.id : Pose ℝ).t (Geo.triangle ⟨0, 0, 0⟩ ⟨1, 0, 1⟩ ⟨0, 1, 1⟩).pts) ∧
    (planeTriangle ez 0 Pose.id ⟨0, 0, 0⟩ ⟨1, 0, 1⟩ ⟨0, 1, 1⟩ Pose.id).1 = false := by
  constructor
  · rw [placed_id, placed_id]
    refine ⟨⟨0, 0, 0⟩, ?_, .pt (by simp)⟩
    change ez.dot ⟨0, 0, 0⟩ = 0
    simp [dot]
  · unfold planeTriangle
    rw [transform_id ez_unit]
    have e : ∀ p : V3 ℝ, (Pose.id : Pose ℝ).apply p = p := fun p => by
      apply V3.ext' <;> simp [Pose.id, Pose.apply, M3.mulVec, M3.one, dot]
    simp only [e, ez_sd]
    rw [if_pos]
    left; norm_num

end Fcl
