import Verif.Flat.Shapes
import Mathlib.Tactic.NormNum

/-!
# C69: collision of a shape with a half-space
-/

namespace Fcl
open Flat
open V3
open ComputeBV (transform)

namespace Flat

theorem axisCos_eq {X1 X2 : Pose ℝ} {n : V3 ℝ} {d : ℝ} (h2 : X2.Rigid) (hn : n.dot n = 1) :
    axisCos X1 X2 n = (X1.R.tr.mulVec (transform n d X2).1).z := by
  rw [axisCos, cosTo, ← col_dot, transform_eq h2 hn]
  congr 1
  apply V3.ext' <;> simp [M3.mulVec, V3.dot, M3.col, V3.get]

theorem cosTo_eq {X1 X2 : Pose ℝ} {n : V3 ℝ} {d : ℝ} (h2 : X2.Rigid) (hn : n.dot n = 1) :
    cosTo ⟨1, 0, 0⟩ X1 X2 n = (boxQ X1 (transform n d X2)).x ∧ cosTo ⟨0, 1, 0⟩ X1 X2 n = (boxQ X1 (transform n d X2)).y ∧
      cosTo ⟨0, 0, 1⟩ X1 X2 n = (boxQ X1 (transform n d X2)).z := by
  rw [transform_eq h2 hn]
  simp only [cosTo, boxQ, M3.mulVec, V3.dot, M3.col, V3.get, M3.tr]
  refine ⟨?_, ?_, ?_⟩ <;> ring

/-- The corner of the box that is lowest (`k = 1`) or highest (`k = -1`). -/
noncomputable def boxCorner (side : V3 ℝ) (X1 : Pose ℝ) (h : V3 ℝ × ℝ) (k : ℝ) : V3 ℝ :=
  X1.apply ⟨1 / 2 * side.x * (sgn ((boxQ X1 h).x * side.x) * k), 1 / 2 * side.y * (sgn ((boxQ X1 h).y * side.y) * k),
    1 / 2 * side.z * (sgn ((boxQ X1 h).z * side.z) * k)⟩

theorem box_support_k {side : V3 ℝ} {X1 : Pose ℝ} {h : V3 ℝ × ℝ} (hs : 0 ≤ side.x ∧ 0 ≤ side.y ∧ 0 ≤ side.z) {k : ℝ}
    (hk : k = 1 ∨ k = -1) : IsSupport (Placed X1.R X1.t (Shape.box side)) ((-k) • h.1) (boxCorner side X1 h k) := by
  refine support_placed ?_
  rw [M3.mulVec_smul]
  exact box_extreme hs hk

theorem box_support_world {side : V3 ℝ} {X1 : Pose ℝ} {h : V3 ℝ × ℝ} (hs : 0 ≤ side.x ∧ 0 ≤ side.y ∧ 0 ≤ side.z) :
    IsSupport (Placed X1.R X1.t (Shape.box side)) (-h.1) (boxCorner side X1 h 1) := by
  have := box_support_k (X1 := X1) (h := h) hs (Or.inl rfl : (1 : ℝ) = 1 ∨ (1 : ℝ) = -1)
  rwa [show (-1 : ℝ) • h.1 = -h.1 from by v3] at this

theorem box_value_k {side : V3 ℝ} {X1 : Pose ℝ} {h : V3 ℝ × ℝ} (k : ℝ) :
    h.1.dot (boxCorner side X1 h k) = h.1.dot X1.t - k * boxExtent side X1 h := by
  rw [boxCorner, dot_apply, boxExtent, boxA]
  simp only [dot, boxQ]
  have v1 := sgn_val side.x (X1.R.tr.mulVec h.1).x
  have v2 := sgn_val side.y (X1.R.tr.mulVec h.1).y
  have v3 := sgn_val side.z (X1.R.tr.mulVec h.1).z
  linear_combination k * (v1 + v2 + v3)

theorem box_value {side : V3 ℝ} {X1 : Pose ℝ} {h : V3 ℝ × ℝ} :
    h.1.dot (boxCorner side X1 h 1) = h.1.dot X1.t - boxExtent side X1 h := by rw [box_value_k]; ring

theorem near_axis {tol a b c : ℝ} (hu : a * a + b * b + c * c = 1) (h : |a - 1| < tol ∨ |a + 1| < tol) :
    |b| ≤ Real.sqrt (2 * tol) ∧ |c| ≤ Real.sqrt (2 * tol) := by
  have ha : a * a ≤ 1 := by nlinarith [mul_self_nonneg b, mul_self_nonneg c]
  have ha' := abs_le_of_sq_le_sq' (show a ^ 2 ≤ 1 ^ 2 by nlinarith) zero_le_one
  have hbc : b * b + c * c ≤ 2 * tol := by
    rcases h with h | h
    · have := abs_lt.1 h
      nlinarith
    · have := abs_lt.1 h
      nlinarith
  constructor <;> refine Real.le_sqrt_of_sq_le ?_ <;> rw [sq_abs] <;> nlinarith [mul_self_nonneg b, mul_self_nonneg c]

theorem abs_part {q s r : ℝ} (hs : 0 ≤ s) (h : |q| ≤ r) : 1 / 2 * |q * s| ≤ r * (s / 2) := by
  rw [abs_mul, abs_of_nonneg hs]
  nlinarith

theorem boxPoint_eq (tol : ℝ) (side : V3 ℝ) (X1 : Pose ℝ) (h : V3 ℝ × ℝ) (k : ℝ) : boxPoint tol side X1 h k =
    if |(boxQ X1 h).x - 1| < tol ∨ |(boxQ X1 h).x + 1| < tol then
      X1.t + (1 / 2 * side.x * (sgn ((boxQ X1 h).x * side.x) * k)) • X1.R.col 0
    else if |(boxQ X1 h).y - 1| < tol ∨ |(boxQ X1 h).y + 1| < tol then
      X1.t + (1 / 2 * side.y * (sgn ((boxQ X1 h).y * side.y) * k)) • X1.R.col 1
    else if |(boxQ X1 h).z - 1| < tol ∨ |(boxQ X1 h).z + 1| < tol then
      X1.t + (1 / 2 * side.z * (sgn ((boxQ X1 h).z * side.z) * k)) • X1.R.col 2
    else X1.t + (1 / 2 * side.x * (sgn ((boxQ X1 h).x * side.x) * k)) • X1.R.col 0 +
      (1 / 2 * side.y * (sgn ((boxQ X1 h).y * side.y) * k)) • X1.R.col 1 +
      (1 / 2 * side.z * (sgn ((boxQ X1 h).z * side.z) * k)) • X1.R.col 2 := rfl

/-- The point chosen by the case distinction of the code. -/
theorem boxPoint_near' {tol r : ℝ} {side : V3 ℝ} {X1 : Pose ℝ} {h : V3 ℝ × ℝ} (hr : 0 ≤ r)
    (rx : |(boxQ X1 h).x - 1| < tol ∨ |(boxQ X1 h).x + 1| < tol → |(boxQ X1 h).y| ≤ r ∧ |(boxQ X1 h).z| ≤ r)
    (ry : |(boxQ X1 h).y - 1| < tol ∨ |(boxQ X1 h).y + 1| < tol → |(boxQ X1 h).x| ≤ r ∧ |(boxQ X1 h).z| ≤ r)
    (rz : |(boxQ X1 h).z - 1| < tol ∨ |(boxQ X1 h).z + 1| < tol → |(boxQ X1 h).x| ≤ r ∧ |(boxQ X1 h).y| ≤ r)
    (hs : 0 ≤ side.x ∧ 0 ≤ side.y ∧ 0 ≤ side.z) {k : ℝ} (hk : k = 1 ∨ k = -1) :
    IsSupportUpTo (r * ((side.x + side.y + side.z) / 2)) (Placed X1.R X1.t (Shape.box side)) ((-k) • h.1)
      (boxPoint tol side X1 h k) := by
  obtain ⟨sx, sy, sz⟩ := hs
  have bound : ∀ q ∈ Placed X1.R X1.t (Shape.box side), ((-k) • h.1).dot q ≤
      ((-k) • h.1).dot X1.t + boxExtent side X1 h := by
    intro q hq
    have := (box_support_k (X1 := X1) (h := h) ⟨sx, sy, sz⟩ hk).2 q hq
    rw [smul_dot _ _ (boxCorner _ _ _ _), box_value_k] at this
    rw [smul_dot _ _ X1.t]
    have hkk : k * k = 1 := by rcases hk with rfl | rfl <;> norm_num
    refine this.trans (le_of_eq ?_)
    linear_combination boxExtent side X1 h * hkk
  have hkk : k * k = 1 := by rcases hk with rfl | rfl <;> norm_num
  have zero_mem : ∀ s : ℝ, 0 ≤ s → -(s / 2) ≤ (0 : ℝ) ∧ (0 : ℝ) ≤ s / 2 := fun s hs => ⟨by linarith, by linarith⟩
  have exy : ∀ a b c : ℝ, X1.t + a • X1.R.col 0 + b • X1.R.col 1 + c • X1.R.col 2 = X1.apply ⟨a, b, c⟩ := add_cols X1
  have z1 : ∀ a : ℝ, X1.t + a • X1.R.col 0 = X1.apply ⟨a, 0, 0⟩ := fun a => by rw [← exy]; v3
  have z2 : ∀ a : ℝ, X1.t + a • X1.R.col 1 = X1.apply ⟨0, a, 0⟩ := fun a => by rw [← exy]; v3
  have val : ∀ p : V3 ℝ, ((-k) • h.1).dot (X1.apply p) = ((-k) • h.1).dot X1.t + -k * (boxQ X1 h).dot p := by
    intro p; rw [smul_dot, smul_dot, dot_apply, boxQ]; ring
  have v1 := sgn_val side.x (boxQ X1 h).x
  have v2 := sgn_val side.y (boxQ X1 h).y
  have v3 := sgn_val side.z (boxQ X1 h).z
  have hext : boxExtent side X1 h = 1 / 2 * |(boxQ X1 h).x * side.x| + 1 / 2 * |(boxQ X1 h).y * side.y| +
    1 / 2 * |(boxQ X1 h).z * side.z| := by rw [boxExtent, boxA]; ring
  rw [boxPoint_eq]
  split_ifs with c1 c2 c3
  · obtain ⟨n2, n3⟩ := rx c1
    have a2 := abs_part sy n2
    have a3 := abs_part sz n3
    rw [z1]
    refine ⟨⟨_, ⟨sgn_mem sx hk, zero_mem _ sy, zero_mem _ sz⟩, rfl⟩, fun q hq => (bound q hq).trans ?_⟩
    rw [val, hext]
    have : -k * (boxQ X1 h).dot ⟨1 / 2 * side.x * (sgn ((boxQ X1 h).x * side.x) * k), 0, 0⟩ = 1 / 2 * |(boxQ X1 h).x * side.x| := by
      simp only [dot]; linear_combination -(k * k) * v1 + 1 / 2 * |(boxQ X1 h).x * side.x| * hkk
    rw [this]
    nlinarith
  · obtain ⟨n2, n3⟩ := ry c2
    have a2 := abs_part sx n2
    have a3 := abs_part sz n3
    rw [z2]
    refine ⟨⟨_, ⟨zero_mem _ sx, sgn_mem sy hk, zero_mem _ sz⟩, rfl⟩, fun q hq => (bound q hq).trans ?_⟩
    rw [val, hext]
    have : -k * (boxQ X1 h).dot ⟨0, 1 / 2 * side.y * (sgn ((boxQ X1 h).y * side.y) * k), 0⟩ = 1 / 2 * |(boxQ X1 h).y * side.y| := by
      simp only [dot]; linear_combination -(k * k) * v2 + 1 / 2 * |(boxQ X1 h).y * side.y| * hkk
    rw [this]
    nlinarith
  · obtain ⟨n2, n3⟩ := rz c3
    have a2 := abs_part sx n2
    have a3 := abs_part sy n3
    rw [add_col]
    refine ⟨⟨_, ⟨zero_mem _ sx, zero_mem _ sy, sgn_mem sz hk⟩, rfl⟩, fun q hq => (bound q hq).trans ?_⟩
    rw [val, hext]
    have : -k * (boxQ X1 h).dot ⟨0, 0, 1 / 2 * side.z * (sgn ((boxQ X1 h).z * side.z) * k)⟩ = 1 / 2 * |(boxQ X1 h).z * side.z| := by
      simp only [dot]; linear_combination -(k * k) * v3 + 1 / 2 * |(boxQ X1 h).z * side.z| * hkk
    rw [this]
    nlinarith
  · rw [exy]
    have := (box_support_k (X1 := X1) (h := h) ⟨sx, sy, sz⟩ hk)
    exact ⟨this.1, fun q hq => (this.2 q hq).trans (le_add_of_nonneg_right (by positivity))⟩

theorem boxPoint_near {tol : ℝ} {side : V3 ℝ} {X1 : Pose ℝ} {h : V3 ℝ × ℝ} (h1 : X1.Rigid) (hu : h.1.dot h.1 = 1)
    (hs : 0 ≤ side.x ∧ 0 ≤ side.y ∧ 0 ≤ side.z) {k : ℝ} (hk : k = 1 ∨ k = -1) :
    IsSupportUpTo (Real.sqrt (2 * tol) * ((side.x + side.y + side.z) / 2)) (Placed X1.R X1.t (Shape.box side)) ((-k) • h.1)
      (boxPoint tol side X1 h k) := by
  have hQu : (boxQ X1 h).dot (boxQ X1 h) = 1 := tr_unit h1 hu
  have hQ' : (boxQ X1 h).x * (boxQ X1 h).x + (boxQ X1 h).y * (boxQ X1 h).y + (boxQ X1 h).z * (boxQ X1 h).z = 1 := hQu
  exact boxPoint_near' (Real.sqrt_nonneg _) (near_axis hQ') (near_axis (by linarith)) (near_axis (by linarith)) hs hk

theorem boxPoint_exact {tol : ℝ} {side : V3 ℝ} {X1 : Pose ℝ} {h : V3 ℝ × ℝ} (h1 : X1.Rigid) (hu : h.1.dot h.1 = 1)
    (hs : 0 ≤ side.x ∧ 0 ≤ side.y ∧ 0 ≤ side.z) {k : ℝ} (hk : k = 1 ∨ k = -1)
    (hx : |(boxQ X1 h).x| = 1 ∨ tol ≤ 1 - |(boxQ X1 h).x|) (hy : |(boxQ X1 h).y| = 1 ∨ tol ≤ 1 - |(boxQ X1 h).y|)
    (hz : |(boxQ X1 h).z| = 1 ∨ tol ≤ 1 - |(boxQ X1 h).z|) :
    IsSupport (Placed X1.R X1.t (Shape.box side)) ((-k) • h.1) (boxPoint tol side X1 h k) := by
  have hQu : (boxQ X1 h).dot (boxQ X1 h) = 1 := tr_unit h1 hu
  have hQ' : (boxQ X1 h).x * (boxQ X1 h).x + (boxQ X1 h).y * (boxQ X1 h).y + (boxQ X1 h).z * (boxQ X1 h).z = 1 := hQu
  have key : ∀ a b c : ℝ, a * a + b * b + c * c = 1 → (|a| = 1 ∨ tol ≤ 1 - |a|) → |a - 1| < tol ∨ |a + 1| < tol →
      |b| ≤ 0 ∧ |c| ≤ 0 := by
    intro a b c hu ha hn
    have h1 : |a| = 1 := by
      refine ha.resolve_right fun ht => ?_
      rcases hn with hn | hn
      · have := abs_lt.1 hn
        have := le_abs_self a
        linarith
      · have := abs_lt.1 hn
        have := neg_abs_le a
        linarith
    have h2 : a * a = 1 := by rw [← abs_mul_abs_self, h1, one_mul]
    have hb : b = 0 := by nlinarith [mul_self_nonneg b, mul_self_nonneg c]
    have hc : c = 0 := by nlinarith [mul_self_nonneg b, mul_self_nonneg c]
    simp [hb, hc]
  have := boxPoint_near' (r := 0) (tol := tol) (X1 := X1) (h := h) le_rfl (key _ _ _ hQ' hx) (key _ _ _ (by linarith) hy)
    (key _ _ _ (by linarith) hz) hs hk
  exact ⟨this.1, fun q hq => (this.2 q hq).trans (le_of_eq (by ring))⟩

end Flat

/-! ### Spheres, ellipsoids, boxes, convexes, triangles: exact -/

/-- **C69.** A sphere and a half-space. -/
theorem C69_sphere (r : ℝ) (hr : 0 ≤ r) (n : V3 ℝ) (d : ℝ) (hn : (Geo.halfspace n d).WF) (X1 X2 : Pose ℝ) (h1 : X1.Rigid)
    (h2 : X2.Rigid) (contacts : Option (List CPoint)) (A B : Set (V3 ℝ)) (hA : A = Placed X1.R X1.t (Geo.sphere r).pts)
    (hB : B = Placed X2.R X2.t (Geo.halfspace n d).pts) :
    HitSpec A B contacts (sphereHalfspace r X1 n d X2 contacts) (HalfspaceContact A B) := by
  have hn' : n.dot n = 1 := hn
  rw [placed_halfspace h2 hn'] at hB
  have hu := transform_unit (d := d) h2 hn'
  rw [sphereHalfspace]
  generalize transform n d X2 = h at *
  subst hA hB
  have hs : IsSupport (Placed X1.R X1.t (Geo.sphere r).pts) (-h.1) (X1.t - r • h.1) := by
    have := support_placed (X := X1) (d := -h.1) (Support.ball_support hr (tr_unit h1 (by rw [neg_dot, dot_neg, neg_neg, hu])))
    rw [show X1.apply (r • X1.R.tr.mulVec (-h.1)) = X1.t - r • h.1 from by
      rw [Pose.apply, M3.mulVec_smul, M3.Orthonormal.mul_tr h1]; v3] at this
    exact this
  have e : h.1.dot (X1.t - r • h.1) = h.1.dot X1.t - r := by rw [dot_sub, dot_smul, hu]; ring
  simp only [sd]
  apply hs_hit hs
  · intro hc
    rw [e] at hc
    exact if_pos (by linarith)
  · intro hc
    rw [e] at hc
    exact if_neg (by linarith)
  · intro hc
    refine hs_contact hu hs hc (by rw [e]; ring) ?_
    apply V3.ext' <;> simp only [add_x, add_y, add_z, smul_x, smul_y, smul_z] <;> ring

/-- **C69.** An ellipsoid and a half-space. -/
theorem C69_ellipsoid (s : V3 ℝ) (hs : 0 < s.x ∧ 0 < s.y ∧ 0 < s.z) (n : V3 ℝ) (d : ℝ) (hn : (Geo.halfspace n d).WF)
    (X1 X2 : Pose ℝ) (h1 : X1.Rigid) (h2 : X2.Rigid) (contacts : Option (List CPoint)) (A B : Set (V3 ℝ))
    (hA : A = Placed X1.R X1.t (Geo.ellipsoid s).pts) (hB : B = Placed X2.R X2.t (Geo.halfspace n d).pts) :
    HitSpec A B contacts (ellipsoidHalfspace s X1 n d X2 contacts) (HalfspaceContactMid A B) := by
  have hn' : n.dot n = 1 := hn
  rw [placed_halfspace h2 hn'] at hB
  have hu := transform_unit (d := d) h2 hn'
  rw [ellipsoidHalfspace, transform_rel h1 h2 hn']
  generalize transform n d X2 = h at *
  subst hA hB
  simp only
  set Q := X1.R.tr.mulVec h.1 with hQ
  set c := Real.sqrt (V3.dot ⟨Q.x ^ 2, Q.y ^ 2, Q.z ^ 2⟩ ⟨s.x ^ 2, s.y ^ 2, s.z ^ 2⟩) with hc
  set w : V3 ℝ := (1 / c) • ⟨s.x ^ 2 * Q.x, s.y ^ 2 * Q.y, s.z ^ 2 * Q.z⟩ with hw
  have hQu : Q.dot Q = 1 := tr_unit h1 hu
  obtain ⟨c0, hmax, cv⟩ := ellipsoid_extreme hs hQu hc
  rw [← hw] at cv hmax
  have hm := ellipsoid_extreme (s := s) (d := -Q) hs (by rw [neg_dot, dot_neg, neg_neg, hQu]) (c := c) (by
    rw [hc]; congr 1; simp only [dot, neg_x, neg_y, neg_z]; ring)
  have hneg : (1 / c) • (⟨s.x ^ 2 * (-Q).x, s.y ^ 2 * (-Q).y, s.z ^ 2 * (-Q).z⟩ : V3 ℝ) = -w := by rw [hw]; v3
  rw [hneg] at hm
  have hsup : IsSupport (Placed X1.R X1.t (Geo.ellipsoid s).pts) (-h.1) (X1.apply (-w)) :=
    support_placed (by rw [tr_neg]; exact hm.2.1)
  have hsup' : IsSupport (Placed X1.R X1.t (Geo.ellipsoid s).pts) h.1 (X1.apply w) := support_placed hmax
  have e : h.1.dot (X1.apply (-w)) = h.1.dot X1.t - c := by rw [dot_apply, ← hQ, dot_neg, cv]; ring
  have e' : h.1.dot (X1.apply w) = h.1.dot X1.t + c := by rw [dot_apply, ← hQ, cv]; ring
  apply hs_hit hsup
  · intro hd
    rw [e] at hd
    exact if_pos (by linarith)
  · intro hd
    rw [e] at hd
    exact if_neg (by linarith)
  · intro hd
    have hnn : X1.R.mulVec (-Q) = -h.1 := by rw [M3.mulVec_neg, hQ, M3.Orthonormal.mul_tr h1]
    rw [hnn]
    have hdep : c + (h.2 - h.1.dot X1.t) = h.2 - h.1.dot (X1.apply (-w)) := by rw [e]; ring
    have hd' := hd
    rw [e] at hd'
    have hpos : h.1.dot (X1.apply ((1 / 2 * (c + (h.2 - h.1.dot X1.t)) / Q.dot w - 1) • w)) =
        h.1.dot X1.t - c + (c + (h.2 - h.1.dot X1.t)) / 2 := by
      rw [dot_apply, ← hQ, dot_smul, cv]; field_simp; ring
    refine ⟨?_, ?_, ⟨X1.apply (-w), hsup.1, hsup.2, ?_⟩, ?_, ?_⟩
    · show IsDepth _ _ (c + (h.2 - h.1.dot X1.t))
      rw [hdep]; exact hs_depth hu hsup hd
    · show SeparatesAlong _ _ _ (c + (h.2 - h.1.dot X1.t))
      rw [hdep]; exact hs_separates hu hsup
    · simp only [neg_dot]
      rw [hpos, e]; ring
    · rw [mem_HS]
      simp only
      rw [hpos]; linarith
    · intro hsub
      have hlt : h.2 < h.1.dot X1.t + c := by
        by_contra hle
        refine hsub fun q hq => ?_
        have := hsup'.2 q hq
        rw [e'] at this
        rw [mem_HS]; linarith
      refine ⟨_, ?_, rfl⟩
      -- between the two extreme points
      have hk := convex_ellipsoid s (-w) hm.2.1.1 w hmax.1 ((c + (h.2 - h.1.dot X1.t)) / (4 * c)) (by
        apply div_nonneg <;> linarith) ((div_le_one (by linarith)).2 (by linarith))
      have : (1 - (c + (h.2 - h.1.dot X1.t)) / (4 * c)) • -w + ((c + (h.2 - h.1.dot X1.t)) / (4 * c)) • w =
          (1 / 2 * (c + (h.2 - h.1.dot X1.t)) / Q.dot w - 1) • w := by
        rw [cv]; apply V3.ext' <;> simp <;> field_simp <;> ring
      rw [this] at hk
      exact hk

/-- **C69.** A box and a half-space: the answer, the depth and the normal are exact. The contact point is half way out from
a point of the box that is the deepest one up to a small multiple of the size of the box. -/
theorem C69_box (tol : ℝ) (side : V3 ℝ) (hside : (Geo.box side).WF) (n : V3 ℝ) (d : ℝ) (hn : (Geo.halfspace n d).WF)
    (X1 X2 : Pose ℝ) (h1 : X1.Rigid) (h2 : X2.Rigid) (contacts : Option (List CPoint)) (A B : Set (V3 ℝ))
    (hA : A = Placed X1.R X1.t (Geo.box side).pts) (hB : B = Placed X2.R X2.t (Geo.halfspace n d).pts) :
    HitSpec A B contacts (boxHalfspace tol side X1 n d X2 contacts) fun k =>
      IsDepth A B k.depth ∧ SeparatesAlong A B k.normal k.depth ∧
      Halfway (Real.sqrt (2 * tol) * ((side.x + side.y + side.z) / 2)) A k := by
  have hn' : n.dot n = 1 := hn
  rw [placed_halfspace h2 hn'] at hB
  have hu := transform_unit (d := d) h2 hn'
  unfold boxHalfspace
  simp only [boxHalfspace0]
  generalize transform n d X2 = h at *
  subst hA hB
  have hs := box_support_world (X1 := X1) (h := h) hside
  have e := box_value (X1 := X1) (h := h) (side := side)
  cases contacts with
  | none =>
    refine hit_none ?_
    refine Iff.trans ?_ (hs_touch hs).symm
    rw [e, sd, decide_eq_true_eq]
    constructor <;> intro <;> linarith
  | some l =>
    apply hs_hit hs
    · intro hc
      rw [e] at hc
      exact if_neg (by simp only [sd]; linarith)
    · intro hc
      rw [e] at hc
      exact if_pos (by simp only [sd]; linarith)
    · intro hc
      have hd : boxExtent side X1 h - sd h X1.t = h.2 - h.1.dot (boxCorner side X1 h 1) := by rw [e, sd]; ring
      refine ⟨?_, ?_, ?_⟩
      · simp only [hd]; exact hs_depth hu hs hc
      · simp only [hd]; exact hs_separates hu hs
      · obtain ⟨m, l⟩ := boxPoint_near (tol := tol) (h := h) h1 hu hside (k := 1) (Or.inl rfl)
        refine ⟨_, m, fun q hq => ?_, ?_⟩
        · have := l q hq
          simpa [smul_dot, neg_dot] using this
        · apply V3.ext' <;> simp only [add_x, add_y, add_z, sub_x, sub_y, sub_z, smul_x, smul_y, smul_z, neg_x, neg_y, neg_z] <;> ring

/-- **C69.** The same with an exact contact point, if every axis of the box is parallel to the normal of the half-space or
at a distance from it. -/
theorem C69_box_exact (tol : ℝ) (side : V3 ℝ) (hside : (Geo.box side).WF) (n : V3 ℝ) (d : ℝ) (hn : (Geo.halfspace n d).WF)
    (X1 X2 : Pose ℝ) (h1 : X1.Rigid) (h2 : X2.Rigid)
    (hc : ∀ u ∈ [(⟨1, 0, 0⟩ : V3 ℝ), ⟨0, 1, 0⟩, ⟨0, 0, 1⟩], |cosTo u X1 X2 n| = 1 ∨ tol ≤ 1 - |cosTo u X1 X2 n|)
    (contacts : Option (List CPoint)) (A B : Set (V3 ℝ))
    (hA : A = Placed X1.R X1.t (Geo.box side).pts) (hB : B = Placed X2.R X2.t (Geo.halfspace n d).pts) :
    HitSpec A B contacts (boxHalfspace tol side X1 n d X2 contacts) (HalfspaceContact A B) := by
  have hn' : n.dot n = 1 := hn
  rw [placed_halfspace h2 hn'] at hB
  have hu := transform_unit (d := d) h2 hn'
  obtain ⟨q1, q2, q3⟩ := cosTo_eq (X1 := X1) (d := d) h2 hn'
  have c1 := hc _ (by simp : (⟨1, 0, 0⟩ : V3 ℝ) ∈ _)
  have c2 := hc _ (by simp : (⟨0, 1, 0⟩ : V3 ℝ) ∈ _)
  have c3 := hc _ (by simp : (⟨0, 0, 1⟩ : V3 ℝ) ∈ _)
  rw [q1] at c1
  rw [q2] at c2
  rw [q3] at c3
  unfold boxHalfspace
  simp only [boxHalfspace0]
  generalize transform n d X2 = h at *
  subst hA hB
  have hs := box_support_world (X1 := X1) (h := h) hside
  have e := box_value (X1 := X1) (h := h) (side := side)
  cases contacts with
  | none =>
    refine hit_none ?_
    refine Iff.trans ?_ (hs_touch hs).symm
    rw [e, sd, decide_eq_true_eq]
    constructor <;> intro <;> linarith
  | some l =>
    have hb := boxPoint_exact (tol := tol) (h := h) h1 hu hside (k := 1) (Or.inl rfl) c1 c2 c3
    rw [show (-1 : ℝ) • h.1 = -h.1 from by v3] at hb
    have e2 : h.1.dot (boxPoint tol side X1 h 1) = h.1.dot (boxCorner side X1 h 1) := by
      have i1 := hb.2 _ hs.1
      have i2 := hs.2 _ hb.1
      rw [neg_dot, neg_dot] at i1 i2
      linarith
    apply hs_hit hb
    · intro hc
      rw [e2, e] at hc
      exact if_neg (by simp only [sd]; linarith)
    · intro hc
      rw [e2, e] at hc
      exact if_pos (by simp only [sd]; linarith)
    · intro hc
      refine hs_contact hu hb hc (by rw [e2, e, sd]; ring) ?_
      apply V3.ext' <;> simp only [add_x, add_y, add_z, smul_x, smul_y, smul_z] <;> ring

namespace Flat

theorem hull_nil {p : V3 ℝ} (h : HullOf [] p) : False := by
  induction h with
  | pt h => cases h
  | seg _ _ _ _ _ ih _ => exact ih

/-- The least value over the vertices is the least value over the hull. -/
theorem hull_support {vs : List (V3 ℝ)} {d p : V3 ℝ} (hp : p ∈ vs) (h : ∀ v ∈ vs, d.dot v ≤ d.dot p) :
    IsSupport {q | HullOf vs q} d p := ⟨.pt hp, fun _ hq => Support.le_of_hull h hq⟩

theorem convexLoop_spec (h : V3 ℝ × ℝ) (early : Bool) (vs : List (V3 ℝ)) (m : ℝ) (p : V3 ℝ) :
    (convexLoop h early vs m p = none ∧ early = true ∧ ∃ v ∈ vs, sd h v ≤ 0) ∨
      ∃ m' p', convexLoop h early vs m p = some (m', p') ∧ m' ≤ m ∧ (∀ v ∈ vs, m' ≤ sd h v) ∧
        ((m' = m ∧ p' = p) ∨ (p' ∈ vs ∧ m' = sd h p')) := by
  induction vs generalizing m p with
  | nil => exact Or.inr ⟨m, p, rfl, le_rfl, by simp, Or.inl ⟨rfl, rfl⟩⟩
  | cons v vs ih =>
    rw [convexLoop]
    split_ifs with h1 h2
    · exact Or.inl ⟨rfl, h2.2, v, by simp, h2.1⟩
    · rcases ih (sd h v) v with ⟨a, b, w, hw, hw'⟩ | ⟨m', p', a, b, c, e⟩
      · exact Or.inl ⟨a, b, w, by simp [hw], hw'⟩
      · refine Or.inr ⟨m', p', a, b.trans h1.le, ?_, ?_⟩
        · intro w hw
          rcases List.mem_cons.1 hw with rfl | hw
          · exact b
          · exact c w hw
        · rcases e with ⟨rfl, rfl⟩ | ⟨e1, e2⟩
          · exact Or.inr ⟨by simp, rfl⟩
          · exact Or.inr ⟨by simp [e1], e2⟩
    · rcases ih m p with ⟨a, b, w, hw, hw'⟩ | ⟨m', p', a, b, c, e⟩
      · exact Or.inl ⟨a, b, w, by simp [hw], hw'⟩
      · refine Or.inr ⟨m', p', a, b, ?_, ?_⟩
        · intro w hw
          rcases List.mem_cons.1 hw with rfl | hw
          · exact b.trans (not_lt.1 h1)
          · exact c w hw
        · rcases e with e | ⟨e1, e2⟩
          · exact Or.inl e
          · exact Or.inr ⟨by simp [e1], e2⟩

end Flat

/-- **C69.** A convex polytope and a half-space. The signed distances of the vertices must be in the range of the scalar
type. -/
theorem C69_convex (big : ℝ) (hbig : 0 < big) (junk : V3 ℝ) (vs : List (V3 ℝ)) (n : V3 ℝ) (d : ℝ)
    (hn : (Geo.halfspace n d).WF) (X1 X2 : Pose ℝ) (h1 : X1.Rigid) (h2 : X2.Rigid)
    (hv : ∀ v ∈ vs, (X2.R.mulVec n).dot (X1.apply v - X2.t) - d < big) (contacts : Option (List CPoint)) (A B : Set (V3 ℝ))
    (hA : A = Placed X1.R X1.t (Geo.convex vs).pts) (hB : B = Placed X2.R X2.t (Geo.halfspace n d).pts) :
    HitSpec A B contacts (convexHalfspace big junk vs X1 n d X2 contacts) (HalfspaceContact A B) := by
  have hn' : n.dot n = 1 := hn
  rw [placed_halfspace h2 hn'] at hB
  have hu := transform_unit (d := d) h2 hn'
  have hh : X2.R.mulVec n = (transform n d X2).1 := by rw [transform_eq h2 hn']
  have hh2 : d + (transform n d X2).1.dot X2.t = (transform n d X2).2 := by rw [transform_eq h2 hn']
  unfold convexHalfspace
  rw [hh] at hv ⊢
  rw [transform_rel h1 h2 hn']
  have hv' : ∀ v ∈ vs, (transform n d X2).1.dot (X1.apply v) - (transform n d X2).2 < big := by
    intro v m
    have := hv v m
    rw [dot_sub] at this
    linarith
  clear hv hh hh2
  generalize transform n d X2 = h at *
  subst hA hB
  have hval : ∀ v, sd (X1.R.tr.mulVec h.1, h.2 - h.1.dot X1.t) v = h.1.dot (X1.apply v) - h.2 := by
    intro v; rw [sd, dot_apply]; ring
  simp only
  rcases convexLoop_spec (X1.R.tr.mulVec h.1, h.2 - h.1.dot X1.t) contacts.isNone vs big junk with
    ⟨e, ec, v, hm, hle⟩ | ⟨m, p, e, l, hmin, hor⟩
  · rw [e]
    have : contacts = none := by simpa using ec
    subst this
    refine hit_none ?_
    simp only [true_iff]
    rw [hval] at hle
    exact ⟨X1.apply v, ⟨v, .pt hm, rfl⟩, by rw [mem_HS]; linarith⟩
  · rw [e]
    simp only
    rcases hor with ⟨rfl, rfl⟩ | ⟨hp, hmp⟩
    · have hnil : vs = [] := by
        cases vs with
        | nil => rfl
        | cons v vs =>
          have h1 := hmin v (by simp)
          have h2 := hv' v (by simp)
          rw [hval] at h1
          linarith
      subst hnil
      rw [if_neg (by linarith)]
      refine ⟨?_, fun _ => rfl, fun h => h, fun h => by cases h⟩
      simp only [Bool.false_eq_true, false_iff]
      rintro ⟨_, ⟨q, hq, rfl⟩, -⟩
      exact hull_nil hq
    · have hsup : IsSupport (Placed X1.R X1.t (Geo.convex vs).pts) (-h.1) (X1.apply p) := by
        refine support_placed ?_
        rw [tr_neg]
        refine hull_support hp fun v hv => ?_
        have := hmin v hv
        rw [hmp, sd, sd] at this
        rw [neg_dot, neg_dot]
        simp only at this
        linarith
      have e : m = h.1.dot (X1.apply p) - h.2 := by rw [hmp, hval]
      apply hs_hit hsup
      · intro hc
        exact if_pos (by linarith)
      · intro hc
        exact if_neg (by linarith)
      · intro hc
        refine hs_contact hu hsup hc (by rw [e]; ring) ?_
        apply V3.ext' <;> simp only [add_x, add_y, add_z, smul_x, smul_y, smul_z] <;> ring

/-- **C69.** A half-space and a triangle of a mesh: the answer, the depth and the normal are exact, and the contact point
is half way out from the deepest corner. Here the half-space is the first shape. -/
theorem C69_triangle (n : V3 ℝ) (d : ℝ) (hn : (Geo.halfspace n d).WF) (a b c : V3 ℝ) (X1 X2 : Pose ℝ) (h1 : X1.Rigid)
    (A B : Set (V3 ℝ)) (hA : A = Placed X1.R X1.t (Geo.halfspace n d).pts)
    (hB : B = Placed X2.R X2.t (Geo.triangle a b c).pts) :
    ((halfspaceTriangle n d X1 a b c X2).1 = true ↔ Touch A B) ∧
    ((halfspaceTriangle n d X1 a b c X2).1 = false → (halfspaceTriangle n d X1 a b c X2).2 = none) ∧
    ((halfspaceTriangle n d X1 a b c X2).1 = true → ∃ k, (halfspaceTriangle n d X1 a b c X2).2 = some k ∧
      HalfspaceContact B A ⟨-k.normal, k.pos, k.depth⟩) := by
  have hn' : n.dot n = 1 := hn
  rw [placed_halfspace h1 hn'] at hA
  have hu := transform_unit (d := d) h1 hn'
  unfold halfspaceTriangle
  generalize transform n d X1 = h at *
  subst hA hB
  simp only
  set s1 : ℝ × V3 ℝ := (sd h (X2.apply a), X2.apply a) with hs1
  set s2 : ℝ × V3 ℝ := if sd h (X2.apply b) < sd h (X2.apply a) then (sd h (X2.apply b), X2.apply b) else s1 with hs2
  set s3 : ℝ × V3 ℝ := if sd h (X2.apply c) < s2.1 then (sd h (X2.apply c), X2.apply c) else s2 with hs3
  have key : ∃ p ∈ [a, b, c], s3 = (sd h (X2.apply p), X2.apply p) ∧ ∀ q ∈ [a, b, c], sd h (X2.apply p) ≤ sd h (X2.apply q) := by
    rw [hs3, hs2]
    split_ifs with c1 c2 c3
    · refine ⟨c, by simp, rfl, ?_⟩
      simp only [List.mem_cons, List.not_mem_nil, or_false, forall_eq_or_imp, forall_eq]
      simp only at c2
      exact ⟨by linarith, c2.le, le_rfl⟩
    · refine ⟨b, by simp, rfl, ?_⟩
      simp only [List.mem_cons, List.not_mem_nil, or_false, forall_eq_or_imp, forall_eq]
      simp only at c2
      exact ⟨by linarith, le_rfl, by linarith⟩
    · refine ⟨c, by simp, rfl, ?_⟩
      simp only [List.mem_cons, List.not_mem_nil, or_false, forall_eq_or_imp, forall_eq]
      simp only [hs1] at c3
      exact ⟨by linarith, by linarith, le_rfl⟩
    · refine ⟨a, by simp, rfl, ?_⟩
      simp only [List.mem_cons, List.not_mem_nil, or_false, forall_eq_or_imp, forall_eq]
      simp only [hs1] at c3
      exact ⟨le_rfl, by linarith, by linarith⟩
  obtain ⟨p, hp, e, hle⟩ := key
  rw [e]
  have hsup : IsSupport (Placed X2.R X2.t (Geo.triangle a b c).pts) (-h.1) (X2.apply p) := by
    refine support_placed ?_
    rw [tr_neg]
    refine hull_support hp fun v hv => ?_
    have := hle v hv
    rw [sd, sd, dot_apply, dot_apply] at this
    rw [neg_dot, neg_dot]
    linarith
  simp only
  rcases le_or_gt (sd h (X2.apply p)) 0 with hc | hc
  · have hc' : h.1.dot (X2.apply p) ≤ h.2 := by rw [sd] at hc; linarith
    rw [if_pos hc]
    refine ⟨by rw [touch_symm, hs_touch hsup]; simp [hc'], fun h => (by cases h), fun _ => ⟨_, rfl, ?_⟩⟩
    refine hs_contact hu hsup hc' (by rw [sd]; ring) ?_
    apply V3.ext' <;> simp only [add_x, add_y, add_z, sub_x, sub_y, sub_z, smul_x, smul_y, smul_z] <;> ring
  · have hc' : h.2 < h.1.dot (X2.apply p) := by rw [sd] at hc; linarith
    rw [if_neg (not_le.2 hc)]
    refine ⟨by rw [touch_symm, hs_touch hsup]; simp [hc'], fun _ => rfl, fun h => by cases h⟩

namespace Flat

theorem col_apply {X : Pose ℝ} (hX : X.Rigid) (n : V3 ℝ) (r : ℝ) (p : V3 ℝ) :
    X.apply (p + r • -X.R.tr.mulVec n) = X.apply p - r • n := by
  rw [apply_add, M3.mulVec_smul, M3.mulVec_neg, M3.Orthonormal.mul_tr hX]
  v3

theorem apply_z0 (X : Pose ℝ) : X.apply ⟨0, 0, 0⟩ = X.t := by
  rw [← add_col]; v3

theorem transform_sub {X2 : Pose ℝ} {n : V3 ℝ} {d e : ℝ} (h2 : X2.Rigid) (hn : n.dot n = 1) :
    transform n (d + e) X2 = ((transform n d X2).1, (transform n d X2).2 + e) := by
  rw [transform_eq h2 hn, transform_eq h2 hn]
  ext <;> simp only
  ring

/-- The height, along the axis, of the end that the functions for capsules and cylinders look at. -/
noncomputable def endZ (lz a : ℝ) : ℝ := lz * (1 / 2) * if a > 0 then -1 else 1

theorem endZ_mem {lz : ℝ} (h : 0 ≤ lz) (a : ℝ) : -(lz / 2) ≤ endZ lz a ∧ endZ lz a ≤ lz / 2 := by
  rw [endZ]; split_ifs <;> constructor <;> linarith
theorem endZ_val (lz a : ℝ) : a * endZ lz a = -(|a| * (lz / 2)) := by
  rw [endZ]; split_ifs with h
  · rw [abs_of_pos h]; ring
  · rw [abs_of_nonpos (not_lt.1 h)]; ring

end Flat

/-- **C69 (capsules, in part).** A capsule and a half-space, if the axis of the capsule is parallel to the boundary of the
half-space, or not nearly so. -/
theorem C69_capsule_partial (tol r lz : ℝ) (hw : (Geo.capsule r lz).WF) (n : V3 ℝ) (d : ℝ) (hn : (Geo.halfspace n d).WF)
    (X1 X2 : Pose ℝ) (h1 : X1.Rigid) (h2 : X2.Rigid) (hq : axisCos X1 X2 n = 0 ∨ tol ≤ |axisCos X1 X2 n|)
    (contacts : Option (List CPoint)) (A B : Set (V3 ℝ))
    (hA : A = Placed X1.R X1.t (Geo.capsule r lz).pts) (hB : B = Placed X2.R X2.t (Geo.halfspace n d).pts) :
    HitSpec A B contacts (capsuleHalfspace tol r lz X1 n d X2 contacts) (HalfspaceContact A B) := by
  have hn' : n.dot n = 1 := hn
  rw [placed_halfspace h2 hn'] at hB
  have hu := transform_unit (d := d) h2 hn'
  rw [axisCos_eq (d := d) h2 hn'] at hq
  unfold capsuleHalfspace
  generalize transform n d X2 = h at *
  subst hA hB
  simp only
  rw [col_dot]
  set Q := X1.R.tr.mulVec h.1 with hQ
  have hQu : (-Q).dot (-Q) = 1 := by rw [neg_dot, dot_neg, neg_neg]; exact tr_unit h1 hu
  have hval : ∀ c, h.1.dot (X1.apply (⟨0, 0, c⟩ + r • -Q)) = h.1.dot (X1.apply ⟨0, 0, c⟩) - r := by
    intro c; rw [col_apply h1, dot_sub, dot_smul, hu, mul_one]
  by_cases hc : |Q.z| < tol
  · rw [if_pos hc]
    have hz : Q.z = 0 := hq.resolve_right (not_le.2 hc)
    have hs : IsSupport (Placed X1.R X1.t (Geo.capsule r lz).pts) (-h.1) (X1.apply (⟨0, 0, 0⟩ + r • -Q)) := by
      refine support_placed ?_
      rw [tr_neg]
      exact capsule_extreme hw.1 hQu (by linarith [hw.2]) (by linarith [hw.2]) (by simp [hz])
    have e := hval 0
    rw [apply_z0] at e
    apply hs_hit hs
    · intro hc
      exact if_neg (by rw [sd]; linarith)
    · intro hc
      exact if_pos (by rw [sd]; linarith)
    · intro hc
      refine hs_contact hu hs hc (by rw [e, sd]; ring) ?_
      rw [col_apply h1, apply_z0]
      apply V3.ext' <;> simp only [add_x, add_y, add_z, sub_x, sub_y, sub_z, smul_x, smul_y, smul_z] <;> ring
  · rw [if_neg hc]
    have ez : (lz * (1 / 2) * if Q.z > 0 then -1 else 1) = endZ lz Q.z := rfl
    rw [ez, add_col]
    have hs : IsSupport (Placed X1.R X1.t (Geo.capsule r lz).pts) (-h.1) (X1.apply (⟨0, 0, endZ lz Q.z⟩ + r • -Q)) := by
      refine support_placed ?_
      rw [tr_neg]
      refine capsule_extreme hw.1 hQu (endZ_mem hw.2 _).1 (endZ_mem hw.2 _).2 ?_
      rw [neg_z, abs_neg, neg_mul, endZ_val, neg_neg]
    have e := hval (endZ lz Q.z)
    apply hs_hit hs
    · intro hc
      exact if_neg (by rw [sd]; linarith)
    · intro hc
      exact if_pos (by rw [sd]; linarith)
    · intro hc
      refine hs_contact hu hs hc (by rw [e, sd]; ring) ?_
      rw [col_apply h1]
      apply V3.ext' <;> simp only [add_x, add_y, add_z, sub_x, sub_y, sub_z, smul_x, smul_y, smul_z] <;> ring

/-- **C69 (capsules).** Whatever the direction of the axis, a collision that is reported is one, and one that is not
reported is no deeper than half of the length times the tolerance. -/
theorem C69_capsule_upTo (tol r lz : ℝ) (htol : 0 ≤ tol) (hw : (Geo.capsule r lz).WF) (n : V3 ℝ) (d : ℝ)
    (hn : (Geo.halfspace n d).WF) (X1 X2 : Pose ℝ) (h1 : X1.Rigid) (h2 : X2.Rigid) (contacts : Option (List CPoint)) :
    ((capsuleHalfspace tol r lz X1 n d X2 contacts).1 = true →
      Touch (Placed X1.R X1.t (Geo.capsule r lz).pts) (Placed X2.R X2.t (Geo.halfspace n d).pts)) ∧
    (Touch (Placed X1.R X1.t (Geo.capsule r lz).pts) (Placed X2.R X2.t (Geo.halfspace n (d - tol * (lz / 2))).pts) →
      (capsuleHalfspace tol r lz X1 n d X2 contacts).1 = true) := by
  have hn' : n.dot n = 1 := hn
  rw [placed_halfspace h2 hn', placed_halfspace h2 hn', sub_eq_add_neg d, transform_sub h2 hn']
  have hu := transform_unit (d := d) h2 hn'
  unfold capsuleHalfspace
  generalize transform n d X2 = h at *
  simp only
  rw [col_dot]
  set Q := X1.R.tr.mulVec h.1 with hQ
  have hQu : (-Q).dot (-Q) = 1 := by rw [neg_dot, dot_neg, neg_neg]; exact tr_unit h1 hu
  have hmem : ∀ c, -(lz / 2) ≤ c → c ≤ lz / 2 → h.1.dot (X1.apply ⟨0, 0, c⟩) - r ≤ h.2 →
      Touch (Placed X1.R X1.t (Geo.capsule r lz).pts) (HS h) := by
    intro c c1 c2 hc
    refine ⟨X1.apply (⟨0, 0, c⟩ + r • -Q), ⟨_, Flat.capsule_mem hQu c1 c2, rfl⟩, ?_⟩
    rw [mem_HS, col_apply h1, dot_sub, dot_smul, hu, mul_one]
    exact hc
  have hlow : Touch (Placed X1.R X1.t (Geo.capsule r lz).pts) (HS (h.1, h.2 + -(tol * (lz / 2)))) →
      h.1.dot X1.t - |Q.z| * (lz / 2) - r ≤ h.2 - tol * (lz / 2) := by
    rintro ⟨_, ⟨q, hq, rfl⟩, hb⟩
    rw [mem_HS] at hb
    have := capsule_le hw.1 hQu hq
    have e : h.1.dot (X1.apply q) = Q.dot q + h.1.dot X1.t := dot_apply _ _ _
    rw [Pose.apply] at e
    rw [neg_dot, neg_z, abs_neg] at this
    simp only at hb
    linarith
  have hlz : 0 ≤ lz := hw.2
  have ht : 0 ≤ tol * (lz / 2) := by positivity
  by_cases hc : |Q.z| < tol
  · rw [if_pos hc]
    constructor
    · intro hr
      refine hmem 0 (by linarith) (by linarith) ?_
      rw [apply_z0]
      split_ifs at hr with hd
      rw [sd] at hd; linarith
    · intro hT
      have := hlow hT
      have h3 : |Q.z| * (lz / 2) ≤ tol * (lz / 2) := mul_le_mul_of_nonneg_right hc.le (by linarith)
      rw [if_neg (by rw [sd]; linarith)]
  · rw [if_neg hc]
    have ez : (lz * (1 / 2) * if Q.z > 0 then -1 else 1) = endZ lz Q.z := rfl
    rw [ez, add_col]
    constructor
    · intro hr
      refine hmem (endZ lz Q.z) (endZ_mem hlz _).1 (endZ_mem hlz _).2 ?_
      split_ifs at hr with hd
      rw [sd] at hd; linarith
    · intro hT
      have := hlow hT
      have e : h.1.dot (X1.apply ⟨0, 0, endZ lz Q.z⟩) = h.1.dot X1.t - |Q.z| * (lz / 2) := by
        rw [dot_apply, ← hQ]
        have := endZ_val lz Q.z
        simp only [dot] at this ⊢
        linarith
      rw [if_neg (by rw [sd, e]; linarith)]

namespace Flat

theorem unit_z_le {d : V3 ℝ} (hd : d.dot d = 1) : |d.z| ≤ 1 := by
  have := unit_split hd
  exact abs_le_one_iff_mul_self_le_one.2 (by linarith [mul_self_nonneg (rho d)])

/-- The vector to the rim is extreme in the disc, unless it is set to 0. -/
theorem rim_cases {tol r : ℝ} (htol : 0 < tol) (hr : 0 ≤ r) {X : Pose ℝ} (hX : X.Rigid) {n : V3 ℝ} (hn : n.dot n = 1) :
    ∃ u : V3 ℝ, rimVec tol r (X.R.col 2) n ((X.R.tr.mulVec n).z) = X.R.mulVec u ∧ u.z = 0 ∧ u.x * u.x + u.y * u.y ≤ r * r ∧
      ((X.R.tr.mulVec n).dot u = -(r * rho (X.R.tr.mulVec n)) ∨
        ((X.R.tr.mulVec n).dot u = 0 ∧ 1 - |(X.R.tr.mulVec n).z| < tol)) := by
  have he := rimVec_eq (tol := tol) (r := r) hX (n := n)
  rw [col_dot] at he
  rw [he]
  have hQ := tr_unit hX hn
  set Q := X.R.tr.mulVec n
  have hz := unit_z_le hQ
  split_ifs with hc
  · refine ⟨0, by rw [M3.mulVec_zero], rfl, by simp; positivity, Or.inr ⟨by simp [dot], ?_⟩⟩
    rcases hc with hc | hc
    · have := abs_sub_abs_le_abs_sub 1 (-Q.z)
      rw [abs_one, abs_neg, sub_neg_eq_add, add_comm] at this
      linarith
    · have := abs_sub_abs_le_abs_sub 1 Q.z
      rw [abs_one, abs_sub_comm] at this
      linarith
  · push Not at hc
    have hr : rho Q ≠ 0 := by
      refine rho_ne_zero hQ ?_ ?_
      · intro h; have := hc.2; rw [h] at this; norm_num at this; linarith
      · intro h; have := hc.1; rw [h] at this; norm_num at this; linarith
    exact ⟨rim r Q, rfl, rim_z _ _, (rim_sq hr).le, Or.inl (rim_dot hr)⟩

/-- Outside of the tolerance the vector is extreme. -/
theorem rim_exact {tol r : ℝ} (htol : 0 < tol) (hr : 0 ≤ r) {X : Pose ℝ} (hX : X.Rigid) {n : V3 ℝ} (hn : n.dot n = 1)
    (hq : |(X.R.tr.mulVec n).z| = 1 ∨ tol ≤ 1 - |(X.R.tr.mulVec n).z|) :
    ∃ u : V3 ℝ, rimVec tol r (X.R.col 2) n ((X.R.tr.mulVec n).z) = X.R.mulVec u ∧ u.z = 0 ∧ u.x * u.x + u.y * u.y ≤ r * r ∧
      (X.R.tr.mulVec n).dot u = -(r * rho (X.R.tr.mulVec n)) := by
  obtain ⟨u, e, uz, ur, hd | ⟨hd, ht⟩⟩ := rim_cases htol hr hX hn
  · exact ⟨u, e, uz, ur, hd⟩
  · refine ⟨u, e, uz, ur, ?_⟩
    have h1 : |(X.R.tr.mulVec n).z| = 1 := hq.resolve_right (not_le.2 ht)
    have h2 := unit_split (tr_unit hX hn)
    rw [← abs_mul_abs_self (X.R.tr.mulVec n).z, h1, mul_one, _root_.sub_self, mul_self_eq_zero] at h2
    rw [hd, h2]; ring

/-- Within the tolerance the radius along the normal is small. -/
theorem rho_small {tol : ℝ} {d : V3 ℝ} (hd : d.dot d = 1) (h : 1 - |d.z| < tol) : rho d ≤ Real.sqrt (2 * tol) := by
  have hz := unit_z_le hd
  have h0 := abs_nonneg d.z
  have := unit_split hd
  rw [← abs_mul_abs_self d.z] at this
  refine Real.le_sqrt_of_sq_le ?_
  nlinarith [rho_nonneg d]

theorem rho_large {tol : ℝ} {d : V3 ℝ} (hd : d.dot d = 1) (h : |d.z| < tol) : 1 - tol ≤ rho d ∧ rho d ≤ 1 := by
  have hz := unit_z_le hd
  have h0 := abs_nonneg d.z
  have h1 := unit_split hd
  have h2 := rho_nonneg d
  rw [← abs_mul_abs_self d.z] at h1
  have h3 : rho d ≤ 1 := by nlinarith
  refine ⟨?_, h3⟩
  nlinarith

end Flat

/-- **C69 (cylinders, in part).** A cylinder and a half-space, if the axis is parallel to the boundary or not nearly so,
and perpendicular to it or not nearly so. -/
theorem C69_cylinder_partial (tol r lz : ℝ) (htol : 0 < tol) (hw : (Geo.cylinder r lz).WF) (n : V3 ℝ) (d : ℝ)
    (hn : (Geo.halfspace n d).WF) (X1 X2 : Pose ℝ) (h1 : X1.Rigid) (h2 : X2.Rigid)
    (hq : axisCos X1 X2 n = 0 ∨ tol ≤ |axisCos X1 X2 n|) (hq' : |axisCos X1 X2 n| = 1 ∨ tol ≤ 1 - |axisCos X1 X2 n|)
    (contacts : Option (List CPoint)) (A B : Set (V3 ℝ))
    (hA : A = Placed X1.R X1.t (Geo.cylinder r lz).pts) (hB : B = Placed X2.R X2.t (Geo.halfspace n d).pts) :
    HitSpec A B contacts (cylinderHalfspace tol r lz X1 n d X2 contacts) (HalfspaceContact A B) := by
  have hn' : n.dot n = 1 := hn
  rw [placed_halfspace h2 hn'] at hB
  have hu := transform_unit (d := d) h2 hn'
  rw [axisCos_eq (d := d) h2 hn'] at hq hq'
  unfold cylinderHalfspace
  generalize transform n d X2 = h at *
  subst hA hB
  simp only
  rw [col_dot]
  obtain ⟨u, eu, uz, ur, ud⟩ := rim_exact htol hw.1 h1 hu hq'
  set Q := X1.R.tr.mulVec h.1 with hQ
  have hQ1 : Q.dot Q = 1 := tr_unit h1 hu
  by_cases hc : |Q.z| < tol
  · rw [if_pos hc]
    have hz : Q.z = 0 := hq.resolve_right (not_le.2 hc)
    have hrho : rho Q = 1 := by
      have := unit_split hQ1
      rw [hz] at this
      nlinarith [rho_nonneg Q]
    have hs : IsSupport (Placed X1.R X1.t (Geo.cylinder r lz).pts) (-h.1) (X1.apply (⟨0, 0, 0⟩ + r • -Q)) := by
      refine support_placed ?_
      rw [tr_neg]
      refine cylinder_extreme hw.1 (by linarith [hw.2]) (by linarith [hw.2]) (le_of_eq ?_) (by simp [hz]) (by rw [← hQ]; simp [hz]) ?_
      · have hd' : Q.x * Q.x + Q.y * Q.y + Q.z * Q.z = 1 := hQ1
        rw [hz] at hd'
        simp only [smul_x, smul_y, neg_x, neg_y]
        linear_combination r * r * hd'
      · rw [← hQ, rho_neg, dot_smul, neg_dot, dot_neg, hQ1, hrho]; ring
    have e : h.1.dot (X1.apply (⟨0, 0, 0⟩ + r • -Q)) = h.1.dot X1.t - r := by
      rw [col_apply h1, dot_sub, dot_smul, hu, mul_one, apply_z0]
    apply hs_hit hs
    · intro hc
      exact if_neg (by rw [sd]; linarith)
    · intro hc
      exact if_pos (by rw [sd]; linarith)
    · intro hc
      refine hs_contact hu hs hc (by rw [e, sd]; ring) ?_
      rw [col_apply h1, apply_z0]
      apply V3.ext' <;> simp only [add_x, add_y, add_z, sub_x, sub_y, sub_z, smul_x, smul_y, smul_z] <;> ring
  · rw [if_neg hc]
    have ez : (lz * (1 / 2) * if Q.z > 0 then -1 else 1) = endZ lz Q.z := rfl
    rw [ez, add_col, eu, ← apply_add]
    have hs : IsSupport (Placed X1.R X1.t (Geo.cylinder r lz).pts) (-h.1) (X1.apply (⟨0, 0, endZ lz Q.z⟩ + u)) := by
      refine support_placed ?_
      rw [tr_neg]
      refine cylinder_extreme hw.1 (endZ_mem hw.2 _).1 (endZ_mem hw.2 _).2 ur uz ?_ ?_
      · rw [neg_z, abs_neg, neg_mul, endZ_val, neg_neg]
      · rw [neg_dot, rho_neg, ud, neg_neg]
    apply hs_hit hs
    · intro hc
      exact if_neg (by rw [sd]; linarith)
    · intro hc
      exact if_pos (by rw [sd]; linarith)
    · intro hc
      refine hs_contact hu hs hc (by rw [sd]; ring) ?_
      apply V3.ext' <;> simp only [add_x, add_y, add_z, smul_x, smul_y, smul_z] <;> ring

/-- **C69 (cylinders).** Whatever the direction of the axis, the answer is that for a half-space whose boundary is moved by
no more than a small multiple of the size of the cylinder. -/
theorem C69_cylinder_upTo (tol r lz : ℝ) (htol : 0 < tol) (hw : (Geo.cylinder r lz).WF) (n : V3 ℝ) (d : ℝ)
    (hn : (Geo.halfspace n d).WF) (X1 X2 : Pose ℝ) (h1 : X1.Rigid) (h2 : X2.Rigid) (contacts : Option (List CPoint)) :
    ((cylinderHalfspace tol r lz X1 n d X2 contacts).1 = true →
      Touch (Placed X1.R X1.t (Geo.cylinder r lz).pts) (Placed X2.R X2.t (Geo.halfspace n (d + tol * r)).pts)) ∧
    (Touch (Placed X1.R X1.t (Geo.cylinder r lz).pts)
        (Placed X2.R X2.t (Geo.halfspace n (d - (tol * (lz / 2) + Real.sqrt (2 * tol) * r))).pts) →
      (cylinderHalfspace tol r lz X1 n d X2 contacts).1 = true) := by
  have hn' : n.dot n = 1 := hn
  rw [placed_halfspace h2 hn', placed_halfspace h2 hn', sub_eq_add_neg d, transform_sub h2 hn', transform_sub h2 hn']
  have hu := transform_unit (d := d) h2 hn'
  unfold cylinderHalfspace
  generalize transform n d X2 = h at *
  simp only
  rw [col_dot]
  obtain ⟨u, eu, uz, ur, ud⟩ := rim_cases htol hw.1 h1 hu
  have hlz : 0 ≤ lz := hw.2
  have hr0 : 0 ≤ r := hw.1
  have hsq := Real.sqrt_nonneg (2 * tol)
  set w := Real.sqrt (2 * tol) with hwdef
  set Q := X1.R.tr.mulVec h.1 with hQ
  have hQ1 : Q.dot Q = 1 := tr_unit h1 hu
  have ht1 : 0 ≤ tol * (lz / 2) := by positivity
  have ht2 : 0 ≤ w * r := by positivity
  have ht3 : 0 ≤ tol * r := by positivity
  have hval : ∀ c (v : V3 ℝ), h.1.dot (X1.apply (⟨0, 0, c⟩ + v)) = Q.z * c + Q.dot v + h.1.dot X1.t := by
    intro c v
    rw [dot_apply, ← hQ, dot_add]
    simp only [dot]
    ring
  have hmem : ∀ c (v : V3 ℝ), -(lz / 2) ≤ c → c ≤ lz / 2 → v.x * v.x + v.y * v.y ≤ r * r → v.z = 0 →
      Q.z * c + Q.dot v + h.1.dot X1.t ≤ h.2 + tol * r →
      Touch (Placed X1.R X1.t (Geo.cylinder r lz).pts) (HS (h.1, h.2 + tol * r)) := by
    intro c v c1 c2 hv hz hc
    refine ⟨X1.apply (⟨0, 0, c⟩ + v), ⟨_, ⟨?_, ?_, ?_⟩, rfl⟩, ?_⟩
    · simpa using hv
    · simp [hz, c1]
    · simp [hz, c2]
    · rw [mem_HS, hval]; exact hc
  have hlow : Touch (Placed X1.R X1.t (Geo.cylinder r lz).pts) (HS (h.1, h.2 + -(tol * (lz / 2) + w * r))) →
      h.1.dot X1.t - |Q.z| * (lz / 2) - r * rho Q ≤ h.2 - tol * (lz / 2) - w * r := by
    rintro ⟨_, ⟨q, hq, rfl⟩, hb⟩
    rw [mem_HS] at hb
    have := cylinder_le hw.1 (d := -Q) hq
    have e : h.1.dot (X1.apply q) = Q.dot q + h.1.dot X1.t := dot_apply _ _ _
    rw [Pose.apply] at e
    rw [neg_dot, neg_z, abs_neg, rho_neg] at this
    simp only at hb
    linarith
  by_cases hc : |Q.z| < tol
  · rw [if_pos hc]
    obtain ⟨g1, g2⟩ := rho_large hQ1 hc
    constructor
    · intro hr
      have hr' : h.1.dot X1.t - r ≤ h.2 := by
        split_ifs at hr with hd
        rw [sd] at hd; linarith
      by_cases hrho : rho Q = 0
      · have : (1 : ℝ) ≤ tol := by linarith
        refine hmem 0 0 (by linarith) (by linarith) (by simp; positivity) (by simp) ?_
        have : r ≤ tol * r := by nlinarith
        rw [show Q.dot 0 = 0 from by simp [dot]]
        linarith
      · refine hmem 0 (rim r Q) (by linarith) (by linarith) (rim_sq hrho).le (rim_z _ _) ?_
        rw [rim_dot hrho]
        have : r * (1 - tol) ≤ r * rho Q := mul_le_mul_of_nonneg_left g1 hr0
        linarith
    · intro hT
      have := hlow hT
      have h3 : |Q.z| * (lz / 2) ≤ tol * (lz / 2) := mul_le_mul_of_nonneg_right hc.le (by linarith)
      have h4 : r * rho Q ≤ r * 1 := mul_le_mul_of_nonneg_left g2 hr0
      rw [if_neg (by rw [sd]; linarith)]
  · rw [if_neg hc]
    have ez : (lz * (1 / 2) * if Q.z > 0 then -1 else 1) = endZ lz Q.z := rfl
    rw [ez, add_col, eu, ← apply_add]
    constructor
    · intro hr
      refine hmem (endZ lz Q.z) u (endZ_mem hlz _).1 (endZ_mem hlz _).2 ur uz ?_
      split_ifs at hr with hd
      rw [sd, hval] at hd; linarith
    · intro hT
      have := hlow hT
      have e := endZ_val lz Q.z
      rcases ud with ud | ⟨ud, hs⟩
      · rw [if_neg (by rw [sd, hval, ud, e]; linarith)]
      · have h3 : r * rho Q ≤ r * w := mul_le_mul_of_nonneg_left (rho_small hQ1 hs) hr0
        rw [if_neg (by rw [sd, hval, ud, e]; linarith)]

/-- **C69 (cones, in part).** A cone and a half-space, if the axis of the cone is parallel to the boundary of the
half-space, or the apex points away from it and not nearly parallel, and also not nearly perpendicular. -/
theorem C69_cone_partial (tol r lz : ℝ) (htol : 0 < tol) (hw : (Geo.cone r lz).WF) (n : V3 ℝ) (d : ℝ)
    (hn : (Geo.halfspace n d).WF) (X1 X2 : Pose ℝ) (h1 : X1.Rigid) (h2 : X2.Rigid)
    (hq : axisCos X1 X2 n = 0 ∨ tol ≤ axisCos X1 X2 n) (hq' : axisCos X1 X2 n = 1 ∨ tol ≤ 1 - axisCos X1 X2 n)
    (contacts : Option (List CPoint)) (A B : Set (V3 ℝ))
    (hA : A = Placed X1.R X1.t (Geo.cone r lz).pts) (hB : B = Placed X2.R X2.t (Geo.halfspace n d).pts) :
    HitSpec A B contacts (coneHalfspace tol r lz X1 n d X2 contacts) (HalfspaceContact A B) := by
  have hn' : n.dot n = 1 := hn
  rw [placed_halfspace h2 hn'] at hB
  have hu := transform_unit (d := d) h2 hn'
  rw [axisCos_eq (d := d) h2 hn'] at hq hq'
  unfold coneHalfspace
  generalize transform n d X2 = h at *
  subst hA hB
  simp only
  rw [col_dot]
  have hq0 : 0 ≤ (X1.R.tr.mulVec h.1).z := by rcases hq with h | h <;> linarith
  obtain ⟨u, eu, uz, ur, ud⟩ := rim_exact htol hw.1 h1 hu (by rw [abs_of_nonneg hq0]; exact hq')
  have hlz : 0 ≤ lz := hw.2
  have hr0 : 0 ≤ r := hw.1
  set Q := X1.R.tr.mulVec h.1 with hQ
  have hQ1 : Q.dot Q = 1 := tr_unit h1 hu
  have hrr := mul_nonneg hr0 (rho_nonneg Q)
  have hql := mul_nonneg hq0 (show 0 ≤ lz / 2 by linarith)
  have hsup : ∀ v : V3 ℝ, v.z = 0 → v.x * v.x + v.y * v.y ≤ r * r → Q.dot v = -(r * rho Q) →
      IsSupport (Placed X1.R X1.t (Geo.cone r lz).pts) (-h.1) (X1.apply (⟨0, 0, -(lz / 2)⟩ + v)) := by
    intro v vz vr vd
    refine support_placed ?_
    rw [tr_neg, ← hQ]
    refine ⟨cone_rim vr vz, fun q hq => ?_⟩
    have e : (-Q).dot (⟨0, 0, -(lz / 2)⟩ + v) = r * rho Q + Q.z * (lz / 2) := by
      rw [neg_dot, dot_add, vd]; simp only [dot]; ring
    rw [e]
    refine cone_le hr0 ?_ ?_ hq
    · rw [neg_z]; linarith
    · rw [rho_neg, neg_z]; linarith
  by_cases hc : Q.z < tol
  · rw [if_pos hc]
    have hz : Q.z = 0 := hq.resolve_right (not_le.2 hc)
    have hrho : rho Q = 1 := by
      have := unit_split hQ1
      rw [hz] at this
      nlinarith [rho_nonneg Q]
    have hs := hsup (r • -Q) (by simp [hz]) (by
      have hd' : Q.x * Q.x + Q.y * Q.y + Q.z * Q.z = 1 := hQ1
      rw [hz] at hd'
      simp only [smul_x, smul_y, neg_x, neg_y]
      refine le_of_eq ?_
      linear_combination r * r * hd') (by rw [dot_smul, dot_neg, hQ1, hrho]; ring)
    have e : h.1.dot (X1.apply (⟨0, 0, -(lz / 2)⟩ + r • -Q)) = h.1.dot X1.t - r := by
      rw [col_apply h1, dot_sub, dot_smul, hu, mul_one, dot_apply, ← hQ]
      have : Q.dot ⟨0, 0, -(lz / 2)⟩ = 0 := by simp [dot, hz]
      rw [this]; ring
    rw [sub_col]
    apply hs_hit hs
    · intro hc
      exact if_neg (by rw [sd]; linarith)
    · intro hc
      exact if_pos (by rw [sd]; linarith)
    · intro hc
      refine hs_contact hu hs hc (by rw [e, sd]; ring) ?_
      rw [col_apply h1, show lz * (1 / 2) = lz / 2 from by ring]
      apply V3.ext' <;> simp only [add_x, add_y, add_z, sub_x, sub_y, sub_z, smul_x, smul_y, smul_z] <;> ring
  · rw [if_neg hc]
    have hs := hsup u uz ur ud
    rw [show 1 / 2 * lz = lz / 2 from by ring, add_col, sub_col, eu, ← apply_add]
    have e1 : h.1.dot (X1.apply (⟨0, 0, -(lz / 2)⟩ + u)) ≤ h.1.dot (X1.apply ⟨0, 0, lz / 2⟩) := by
      rw [dot_apply, dot_apply, ← hQ, dot_add, ud]
      simp only [dot]
      linarith
    have e2 : ¬ sd h (X1.apply ⟨0, 0, lz / 2⟩) < sd h (X1.apply (⟨0, 0, -(lz / 2)⟩ + u)) := by
      rw [sd, sd]; linarith
    rw [min_eq_right (not_lt.1 e2), if_neg e2]
    apply hs_hit hs
    · intro hc
      refine if_neg ?_
      rintro ⟨-, h⟩
      rw [sd] at h; linarith
    · intro hc
      refine if_pos ⟨?_, ?_⟩ <;> rw [sd] <;> linarith
    · intro hc
      refine hs_contact hu hs hc (by rw [sd]; ring) ?_
      apply V3.ext' <;> simp only [add_x, add_y, add_z, smul_x, smul_y, smul_z] <;> ring

/-- **C69 (cones).** If the apex does not point towards the half-space, the answer is that for a half-space whose boundary
is moved by no more than a small multiple of the size of the cone. -/
theorem C69_cone_upTo_partial (tol r lz : ℝ) (htol : 0 < tol) (hw : (Geo.cone r lz).WF) (n : V3 ℝ) (d : ℝ)
    (hn : (Geo.halfspace n d).WF) (X1 X2 : Pose ℝ) (h1 : X1.Rigid) (h2 : X2.Rigid) (hq : 0 ≤ axisCos X1 X2 n)
    (contacts : Option (List CPoint)) :
    ((coneHalfspace tol r lz X1 n d X2 contacts).1 = true →
      Touch (Placed X1.R X1.t (Geo.cone r lz).pts) (Placed X2.R X2.t (Geo.halfspace n (d + tol * r)).pts)) ∧
    (Touch (Placed X1.R X1.t (Geo.cone r lz).pts)
        (Placed X2.R X2.t (Geo.halfspace n (d - (tol * (lz / 2) + Real.sqrt (2 * tol) * r))).pts) →
      (coneHalfspace tol r lz X1 n d X2 contacts).1 = true) := by
  have hn' : n.dot n = 1 := hn
  rw [placed_halfspace h2 hn', placed_halfspace h2 hn', sub_eq_add_neg d, transform_sub h2 hn', transform_sub h2 hn']
  have hu := transform_unit (d := d) h2 hn'
  rw [axisCos_eq (d := d) h2 hn'] at hq
  unfold coneHalfspace
  generalize transform n d X2 = h at *
  simp only
  rw [col_dot]
  obtain ⟨u, eu, uz, ur, ud⟩ := rim_cases htol hw.1 h1 hu
  have hlz : 0 ≤ lz := hw.2
  have hr0 : 0 ≤ r := hw.1
  have hsq := Real.sqrt_nonneg (2 * tol)
  set w := Real.sqrt (2 * tol) with hwdef
  set Q := X1.R.tr.mulVec h.1 with hQ
  have hQ1 : Q.dot Q = 1 := tr_unit h1 hu
  have ht1 : 0 ≤ tol * (lz / 2) := by positivity
  have ht2 : 0 ≤ w * r := by positivity
  have ht3 : 0 ≤ tol * r := by positivity
  have hrr := mul_nonneg hr0 (rho_nonneg Q)
  have hql := mul_nonneg hq (show 0 ≤ lz / 2 by linarith)
  have hval : ∀ v : V3 ℝ, h.1.dot (X1.apply (⟨0, 0, -(lz / 2)⟩ + v)) = -(Q.z * (lz / 2)) + Q.dot v + h.1.dot X1.t := by
    intro v
    rw [dot_apply, ← hQ, dot_add]
    simp only [dot]
    ring
  have hmem : ∀ v : V3 ℝ, v.x * v.x + v.y * v.y ≤ r * r → v.z = 0 →
      -(Q.z * (lz / 2)) + Q.dot v + h.1.dot X1.t ≤ h.2 + tol * r →
      Touch (Placed X1.R X1.t (Geo.cone r lz).pts) (HS (h.1, h.2 + tol * r)) := by
    intro v hv hz hc
    refine ⟨X1.apply (⟨0, 0, -(lz / 2)⟩ + v), ⟨_, cone_rim hv hz, rfl⟩, ?_⟩
    rw [mem_HS, hval]; exact hc
  have hlow : Touch (Placed X1.R X1.t (Geo.cone r lz).pts) (HS (h.1, h.2 + -(tol * (lz / 2) + w * r))) →
      h.1.dot X1.t - Q.z * (lz / 2) - r * rho Q ≤ h.2 - tol * (lz / 2) - w * r := by
    rintro ⟨_, ⟨q, hq', rfl⟩, hb⟩
    rw [mem_HS] at hb
    have := cone_le hw.1 (d := -Q) (m := Q.z * (lz / 2) + r * rho Q) (by rw [neg_z]; linarith)
      (by rw [neg_z, rho_neg]; linarith) hq'
    have e : h.1.dot (X1.apply q) = Q.dot q + h.1.dot X1.t := dot_apply _ _ _
    rw [Pose.apply] at e
    rw [neg_dot] at this
    simp only at hb
    linarith
  by_cases hc : Q.z < tol
  · rw [if_pos hc]
    obtain ⟨g1, g2⟩ := rho_large hQ1 (by rwa [abs_of_nonneg hq])
    constructor
    · intro hr
      have hr' : h.1.dot X1.t - r ≤ h.2 := by
        split_ifs at hr with hd
        rw [sd] at hd; linarith
      by_cases hrho : rho Q = 0
      · have : (1 : ℝ) ≤ tol := by linarith
        refine hmem 0 (by simp; positivity) (by simp) ?_
        have : r ≤ tol * r := by nlinarith
        rw [show Q.dot 0 = 0 from by simp [dot]]
        linarith
      · refine hmem (rim r Q) (rim_sq hrho).le (rim_z _ _) ?_
        rw [rim_dot hrho]
        have : r * (1 - tol) ≤ r * rho Q := mul_le_mul_of_nonneg_left g1 hr0
        linarith
    · intro hT
      have := hlow hT
      have h3 : Q.z * (lz / 2) ≤ tol * (lz / 2) := mul_le_mul_of_nonneg_right hc.le (by linarith)
      have h4 : r * rho Q ≤ r * 1 := mul_le_mul_of_nonneg_left g2 hr0
      rw [if_neg (by rw [sd]; linarith)]
  · rw [if_neg hc]
    rw [show 1 / 2 * lz = lz / 2 from by ring, add_col, sub_col, eu, ← apply_add]
    have e0 : h.1.dot (X1.apply ⟨0, 0, lz / 2⟩) = Q.z * (lz / 2) + h.1.dot X1.t := by
      rw [dot_apply, ← hQ]
      simp only [dot]
      ring
    have hud : Q.dot u ≤ 0 := by rcases ud with h | ⟨h, -⟩ <;> linarith
    constructor
    · intro hr
      refine hmem u ur uz ?_
      by_contra hcon
      rw [if_pos] at hr
      · cases hr
      · simp only [sd, hval, e0]
        constructor <;> linarith
    · intro hT
      have := hlow hT
      rw [if_neg]
      rintro ⟨-, hd⟩
      rw [sd, hval] at hd
      rcases ud with ud | ⟨ud, hs⟩
      · linarith
      · have h3 : r * rho Q ≤ r * w := mul_le_mul_of_nonneg_left (rho_small hQ1 hs) hr0
        linarith

/-! ### Where the code departs from the property -/

namespace Flat

theorem transform_id {n : V3 ℝ} {d : ℝ} (hn : n.dot n = 1) : transform n d Pose.id = (n, d) := by
  rw [transform_eq Pose.id_rigid hn]
  ext <;> simp [Pose.id, M3.mulVec, M3.one, dot]

theorem col_id : (Pose.id : Pose ℝ).R.col 2 = ⟨0, 0, 1⟩ := rfl
theorem placed_id (S : Set (V3 ℝ)) : Placed (Pose.id : Pose ℝ).R (Pose.id : Pose ℝ).t S = S := by
  ext p
  constructor
  · rintro ⟨q, hq, rfl⟩
    have : (Pose.id : Pose ℝ).R.mulVec q + (Pose.id : Pose ℝ).t = q := by
      apply V3.ext' <;> simp [Pose.id, M3.mulVec, M3.one, dot]
    rwa [this]
  · intro hp
    exact ⟨p, hp, by apply V3.ext' <;> simp [Pose.id, M3.mulVec, M3.one, dot]⟩

/-- A normal that is nearly perpendicular to the axis of the shape. -/
noncomputable def tilted (c : ℝ) : V3 ℝ := ⟨Real.sqrt (1 - c * c), 0, c⟩

theorem tilted_unit {c : ℝ} (h0 : 0 ≤ c) (h1 : c ≤ 1) : (tilted c).dot (tilted c) = 1 := by
  have : 0 ≤ 1 - c * c := by nlinarith
  simp only [tilted, dot]
  rw [Real.mul_self_sqrt this]; ring
theorem tilted_x {c : ℝ} (h0 : 0 ≤ c) (h1 : c ≤ 1) : 1 - c * c ≤ (tilted c).x := by
  have h : 0 ≤ 1 - c * c := by nlinarith
  exact Real.le_sqrt_of_sq_le (by nlinarith)

end Flat

/-- **C69 is violated for capsules.** If the axis is nearly parallel to the boundary, only the middle of the capsule is
tested: a capsule that reaches into the half-space is reported to be outside. -/
theorem C69_violated_capsule (tol : ℝ) (h0 : 0 < tol) (h1 : tol ≤ 1) :
    ∃ r lz d : ℝ, ∃ n : V3 ℝ, (Geo.capsule r lz).WF ∧ (Geo.halfspace n d).WF ∧
      Touch (Placed (Pose.id : Pose ℝ).R (Pose.id : Pose ℝ).t (Geo.capsule r lz).pts)
        (Placed (Pose.id : Pose ℝ).R (Pose.id : Pose ℝ).t (Geo.halfspace n d).pts) ∧
      ∀ contacts, (capsuleHalfspace tol r lz Pose.id n d Pose.id contacts).1 = false := by
  have hu := tilted_unit (c := tol / 2) (by linarith) (by linarith)
  refine ⟨1, 2, -1 - tol / 4, tilted (tol / 2), ⟨by norm_num, by norm_num⟩, hu, ?_, ?_⟩
  · rw [placed_id, placed_id]
    refine ⟨⟨0, 0, -1⟩ + (1 : ℝ) • -tilted (tol / 2), Flat.capsule_mem ?_ (by norm_num) (by norm_num), ?_⟩
    · rw [neg_dot, dot_neg, neg_neg]; exact hu
    · change (tilted (tol / 2)).dot _ ≤ _
      rw [dot_add, dot_smul, dot_neg, hu]
      simp only [tilted, dot]
      linarith
  · intro contacts
    unfold capsuleHalfspace
    have e : ((Pose.id : Pose ℝ).R.col 2).dot (tilted (tol / 2)) = tol / 2 := by simp [tilted, dot, col_id]
    have h3 : |((Pose.id : Pose ℝ).R.col 2).dot (tilted (tol / 2))| < tol := by rw [e, abs_of_nonneg] <;> linarith
    have h4 : 1 - sd (tilted (tol / 2), -1 - tol / 4) (Pose.id : Pose ℝ).t < 0 := by
      simp only [sd, Pose.id, dot, zero_x, zero_y, zero_z]
      linarith
    rw [transform_id hu]
    simp only
    rw [if_pos h3, if_pos h4]

/-- **C69 is violated for cylinders** in the same way. -/
theorem C69_violated_cylinder (tol : ℝ) (h0 : 0 < tol) (h1 : tol ≤ 1) :
    ∃ r lz d : ℝ, ∃ n : V3 ℝ, (Geo.cylinder r lz).WF ∧ (Geo.halfspace n d).WF ∧
      Touch (Placed (Pose.id : Pose ℝ).R (Pose.id : Pose ℝ).t (Geo.cylinder r lz).pts)
        (Placed (Pose.id : Pose ℝ).R (Pose.id : Pose ℝ).t (Geo.halfspace n d).pts) ∧
      ∀ contacts, (cylinderHalfspace tol r lz Pose.id n d Pose.id contacts).1 = false := by
  have hu := tilted_unit (c := tol / 2) (by linarith) (by linarith)
  have hx := tilted_x (c := tol / 2) (by linarith) (by linarith)
  refine ⟨1, 2, -1 - tol / 8, tilted (tol / 2), ⟨by norm_num, by norm_num⟩, hu, ?_, ?_⟩
  · rw [placed_id, placed_id]
    refine ⟨⟨-1, 0, -1⟩, ⟨by norm_num, by norm_num, by norm_num⟩, ?_⟩
    change (tilted (tol / 2)).dot _ ≤ _
    have e : (tilted (tol / 2)).dot ⟨-1, 0, -1⟩ = -(tilted (tol / 2)).x - tol / 2 := by simp only [tilted, dot]; ring
    rw [e]
    nlinarith
  · intro contacts
    unfold cylinderHalfspace
    have e : ((Pose.id : Pose ℝ).R.col 2).dot (tilted (tol / 2)) = tol / 2 := by simp [tilted, dot, col_id]
    have h3 : |((Pose.id : Pose ℝ).R.col 2).dot (tilted (tol / 2))| < tol := by rw [e, abs_of_nonneg] <;> linarith
    have h4 : 1 - sd (tilted (tol / 2), -1 - tol / 8) (Pose.id : Pose ℝ).t < 0 := by
      simp only [sd, Pose.id, dot, zero_x, zero_y, zero_z]
      linarith
    rw [transform_id hu]
    simp only
    rw [if_pos h3, if_pos h4]

/-- **C69 is violated for cones.** The test for an axis parallel to the boundary lacks an absolute value, so every cone
whose apex points towards the half-space is treated so. A cone of radius 1 and height 4 whose apex, at `z = 2`, is well
inside the half-space `z ≥ 1.5` is reported to be outside. -/
theorem C69_violated_cone_missed (tol : ℝ) (h0 : 0 < tol) :
    Touch (Placed (Pose.id : Pose ℝ).R (Pose.id : Pose ℝ).t (Geo.cone 1 4).pts)
      (Placed (Pose.id : Pose ℝ).R (Pose.id : Pose ℝ).t (Geo.halfspace ⟨0, 0, -1⟩ (-3 / 2)).pts) ∧
    ∀ contacts, (coneHalfspace tol 1 4 Pose.id ⟨0, 0, -1⟩ (-3 / 2) Pose.id contacts).1 = false := by
  constructor
  · rw [placed_id, placed_id]
    refine ⟨⟨0, 0, 4 / 2⟩, cone_tip 1 4, ?_⟩
    change V3.dot ⟨0, 0, -1⟩ (⟨0, 0, 4 / 2⟩ : V3 ℝ) ≤ -3 / 2
    norm_num [dot]
  · intro contacts
    unfold coneHalfspace
    have h3 : ((Pose.id : Pose ℝ).R.col 2).dot ⟨0, 0, -1⟩ < tol := by norm_num [dot, col_id]; linarith
    have h4 : 1 - sd (⟨0, 0, -1⟩, -3 / 2) (Pose.id : Pose ℝ).t < 0 := by norm_num [sd, Pose.id, dot]
    rw [transform_id (by norm_num [dot])]
    simp only
    rw [if_pos h3, if_pos h4]

/-- And a cone of radius 2 and height 1, with apex at `z = 0.5`, is reported to touch the half-space `z ≥ 1`. -/
theorem C69_violated_cone_false (tol : ℝ) (h0 : 0 < tol) :
    ¬ Touch (Placed (Pose.id : Pose ℝ).R (Pose.id : Pose ℝ).t (Geo.cone 2 1).pts)
      (Placed (Pose.id : Pose ℝ).R (Pose.id : Pose ℝ).t (Geo.halfspace ⟨0, 0, -1⟩ (-1)).pts) ∧
    ∀ contacts, (coneHalfspace tol 2 1 Pose.id ⟨0, 0, -1⟩ (-1) Pose.id contacts).1 = true := by
  constructor
  · rw [placed_id, placed_id]
    rintro ⟨_, ⟨s, x, y, s0, s1, -, rfl⟩, hb⟩
    change V3.dot ⟨0, 0, -1⟩ (⟨s * x, s * y, 1 / 2 - s * 1⟩ : V3 ℝ) ≤ -1 at hb
    simp only [dot] at hb
    linarith
  · intro contacts
    unfold coneHalfspace
    have h3 : ((Pose.id : Pose ℝ).R.col 2).dot ⟨0, 0, -1⟩ < tol := by norm_num [dot, col_id]; linarith
    have h4 : ¬ 2 - sd (⟨0, 0, -1⟩, -1) (Pose.id : Pose ℝ).t < 0 := by norm_num [sd, Pose.id, dot]
    rw [transform_id (by norm_num [dot])]
    simp only
    rw [if_pos h3, if_neg h4]

/-! ### The hypotheses are met -/

/-- A tilted placing of a shape: the z-axis is sent to `(3/5, 0, 4/5)`. -/
noncomputable def tiltPose : Pose ℝ := ⟨⟨⟨4 / 5, 0, 3 / 5⟩, ⟨0, 1, 0⟩, ⟨-3 / 5, 0, 4 / 5⟩⟩, ⟨1, 2, 3⟩⟩

theorem tiltPose_rigid : tiltPose.Rigid := by
  constructor <;> norm_num [tiltPose, M3.mul, M3.tr, M3.col, M3.one, V3.dot, V3.get]

/-- C69_capsule_partial, C69_cylinder_partial, C69_cone_partial and C69_box_exact: the tolerance of the code for double
precision, a shape in a tilted pose, and a half-space with vertical normal. -/
example : axisCos tiltPose Pose.id ⟨0, 0, 1⟩ = 4 / 5 := by
  norm_num [axisCos, cosTo, tiltPose, Pose.id, M3.mulVec, M3.one, dot]
example : (axisCos tiltPose Pose.id ⟨0, 0, 1⟩ = 0 ∨ (1 : ℝ) / 10 ^ 7 ≤ axisCos tiltPose Pose.id ⟨0, 0, 1⟩) ∧
    (axisCos tiltPose Pose.id ⟨0, 0, 1⟩ = 1 ∨ (1 : ℝ) / 10 ^ 7 ≤ 1 - axisCos tiltPose Pose.id ⟨0, 0, 1⟩) := by
  norm_num [axisCos, cosTo, tiltPose, Pose.id, M3.mulVec, M3.one, dot]
example : ∀ u ∈ [(⟨1, 0, 0⟩ : V3 ℝ), ⟨0, 1, 0⟩, ⟨0, 0, 1⟩],
    |cosTo u tiltPose Pose.id ⟨0, 0, 1⟩| = 1 ∨ (1 : ℝ) / 10 ^ 7 ≤ 1 - |cosTo u tiltPose Pose.id ⟨0, 0, 1⟩| := by
  simp only [List.mem_cons, List.not_mem_nil, or_false, forall_eq_or_imp, forall_eq]
  norm_num [cosTo, tiltPose, Pose.id, M3.mulVec, M3.one, dot, abs_of_nonneg, abs_of_nonpos]
example : (Geo.halfspace (⟨0, 0, 1⟩ : V3 ℝ) 3).WF ∧ (Geo.cone (1 : ℝ) 2).WF ∧ (Geo.box (⟨1, 2, 3⟩ : V3 ℝ)).WF := by
  refine ⟨?_, ?_, ?_⟩ <;> norm_num [Geo.WF, dot]
/-- C69_convex: a tetrahedron. -/
example : ∀ v ∈ [(⟨0, 0, 0⟩ : V3 ℝ), ⟨1, 0, 0⟩, ⟨0, 1, 0⟩, ⟨0, 0, 1⟩],
    ((Pose.id : Pose ℝ).R.mulVec ⟨0, 0, 1⟩).dot (tiltPose.apply v - (Pose.id : Pose ℝ).t) - 3 < 1000000 := by
  simp only [List.mem_cons, List.not_mem_nil, or_false, forall_eq_or_imp, forall_eq]
  norm_num [tiltPose, Pose.id, Pose.apply, M3.mulVec, M3.one, dot]
/-- The answers of the functions are not constant. -/
example : (sphereHalfspace 1 Pose.id ⟨0, 0, 1⟩ (-1 / 2) Pose.id (some [])).1 = true ∧
    (sphereHalfspace 1 Pose.id ⟨0, 0, 1⟩ (-2) Pose.id (some [])).1 = false := by
  unfold sphereHalfspace
  rw [transform_id (by norm_num [dot]), transform_id (by norm_num [dot])]
  norm_num [sd, Pose.id, dot]

end Fcl