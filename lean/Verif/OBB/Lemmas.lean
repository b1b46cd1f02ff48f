import Verif.OBB.Spec
import Verif.Geom.Rotation

/-!
# Oriented boxes: membership, the separating axis tests
-/

namespace Fcl
namespace OBB
section
variable {K : Type*} [Field K] [LinearOrder K] [IsStrictOrderedRing K]

theorem mulVec_cols (m : M3 K) (y : V3 K) : m.mulVec y = y.x • m.col 0 + y.y • m.col 1 + y.z • m.col 2 := by
  apply V3.ext' <;> simp [M3.mulVec, M3.col, V3.dot, V3.get] <;> ring

theorem mem_pts_iff {b : OBB K} {p : V3 K} : p ∈ b.pts ↔
    ∃ y : V3 K, |y.x| ≤ b.extent.x ∧ |y.y| ≤ b.extent.y ∧ |y.z| ≤ b.extent.z ∧ p = b.axis.mulVec y + b.To := by
  constructor
  · rintro ⟨y, h1, h2, h3, e⟩
    refine ⟨y, h1, h2, h3, ?_⟩
    rw [e, mulVec_cols]; v3
  · rintro ⟨y, h1, h2, h3, e⟩
    refine ⟨y, h1, h2, h3, ?_⟩
    rw [e, mulVec_cols]; v3

/-- For perpendicular unit directions, the coordinates are the scalar products. -/
theorem mem_pts_local {b : OBB K} (h : b.WF) {p : V3 K} : p ∈ b.pts ↔
    |(b.axis.tr.mulVec (p - b.To)).x| ≤ b.extent.x ∧ |(b.axis.tr.mulVec (p - b.To)).y| ≤ b.extent.y ∧
      |(b.axis.tr.mulVec (p - b.To)).z| ≤ b.extent.z := by
  rw [mem_pts_iff]
  constructor
  · rintro ⟨y, h1, h2, h3, e⟩
    have : b.axis.tr.mulVec (p - b.To) = y := by
      rw [e, show b.axis.mulVec y + b.To - b.To = b.axis.mulVec y by v3, h.tr_mul]
    rw [this]; exact ⟨h1, h2, h3⟩
  · rintro ⟨h1, h2, h3⟩
    refine ⟨_, h1, h2, h3, ?_⟩
    rw [h.mul_tr]; v3

theorem reps_pos : (0 : K) < reps := by rw [reps]; positivity

theorem lin4 {c1 c2 c3 c4 z1 z2 z3 z4 w1 w2 w3 w4 e1 e2 e3 e4 L R : K}
    (h1 : |z1| ≤ w1) (h2 : |z2| ≤ w2) (h3 : |z3| ≤ w3) (h4 : |z4| ≤ w4)
    (k1 : |c1| ≤ e1) (k2 : |c2| ≤ e2) (k3 : |c3| ≤ e3) (k4 : |c4| ≤ e4)
    (hL : L = c1 * z1 + c2 * z2 + c3 * z3 + c4 * z4) (hR : R = e1 * w1 + e2 * w2 + e3 * w3 + e4 * w4) :
    ¬ |L| > R := by
  have t : ∀ {c z w e : K}, |z| ≤ w → |c| ≤ e → |c * z| ≤ e * w := fun hz hc => by
    rw [abs_mul]; exact mul_le_mul hc hz (abs_nonneg _) ((abs_nonneg _).trans hc)
  have a1 := t h1 k1
  have a2 := t h2 k2
  have a3 := t h3 k3
  have a4 := t h4 k4
  rw [hL, hR, not_lt]
  calc _ ≤ |c1 * z1 + c2 * z2 + c3 * z3| + |c4 * z4| := abs_add_le _ _
    _ ≤ |c1 * z1 + c2 * z2| + |c3 * z3| + |c4 * z4| := by linarith [abs_add_le (c1 * z1 + c2 * z2) (c3 * z3)]
    _ ≤ _ := by linarith [abs_add_le (c1 * z1) (c2 * z2)]

set_option maxHeartbeats 1000000 in
/-- The fifteen tests fail when the boxes share a point `x = B y + T`. -/
theorem not_disjoint {B : M3 K} (hB : B.Orthonormal) {T a b x y : V3 K}
    (hx : |x.x| ≤ a.x ∧ |x.y| ≤ a.y ∧ |x.z| ≤ a.z) (hy : |y.x| ≤ b.x ∧ |y.y| ≤ b.y ∧ |y.z| ≤ b.z)
    (e : x = B.mulVec y + T) : disjoint B T a b = false := by
  obtain ⟨⟨m00, m01, m02⟩, ⟨m10, m11, m12⟩, ⟨m20, m21, m22⟩⟩ := B
  obtain ⟨⟨⟨h1, h2, h3⟩, h4, h5, h6⟩, -⟩ := hB.eqs
  obtain ⟨D, hD, -, ⟨c00, c10, c20⟩, ⟨c01, c11, c21⟩, c02, c12, c22⟩ := hB.cofactors
  obtain ⟨x0, x1, x2⟩ := x
  obtain ⟨y0, y1, y2⟩ := y
  obtain ⟨t0, t1, t2⟩ := T
  obtain ⟨a0, a1, a2⟩ := a
  obtain ⟨b0, b1, b2⟩ := b
  obtain ⟨hx0, hx1, hx2⟩ := hx
  obtain ⟨hy0, hy1, hy2⟩ := hy
  have e0 := congrArg V3.x e
  have e1 := congrArg V3.y e
  have e2 := congrArg V3.z e
  simp only [M3.mulVec, V3.dot, V3.add_x, V3.add_y, V3.add_z] at e0 e1 e2 hx0 hx1 hx2 hy0 hy1 hy2
  have et0 : t0 = x0 - (m00 * y0 + m01 * y1 + m02 * y2) := by linarith
  have et1 : t1 = x1 - (m10 * y0 + m11 * y1 + m12 * y2) := by linarith
  have et2 : t2 = x2 - (m20 * y0 + m21 * y1 + m22 * y2) := by linarith
  have rp := (reps_pos (K := K)).le
  have one : |(1 : K)| ≤ 1 := by rw [abs_one]
  have none : |(-1 : K)| ≤ 1 := by rw [abs_neg, abs_one]
  have k : ∀ c : K, |c| ≤ |c| + reps := fun c => by linarith
  have kn : ∀ c : K, |-c| ≤ |c| + reps := fun c => by rw [abs_neg]; linarith
  have hD1 : |D| = 1 := by
    obtain h | h := mul_self_eq_one_iff.1 hD
    · rw [h, abs_one]
    · rw [h, abs_neg, abs_one]
  have kd : ∀ c : K, |D * c| ≤ |c| + reps := fun c => by rw [abs_mul, hD1, one_mul]; linarith
  have knd : ∀ c : K, |-(D * c)| ≤ |c| + reps := fun c => by rw [abs_neg, abs_mul, hD1, one_mul]; linarith
  simp only [disjoint, M3.get, M3.row, M3.col, V3.get, V3.dot, Bool.or_eq_false_iff]
  refine ⟨⟨⟨⟨⟨⟨⟨⟨⟨⟨⟨⟨⟨⟨?_, ?_⟩, ?_⟩, ?_⟩, ?_⟩, ?_⟩, ?_⟩, ?_⟩, ?_⟩, ?_⟩, ?_⟩, ?_⟩, ?_⟩, ?_⟩, ?_⟩
  · refine decide_eq_false (lin4 hx0 hy0 hy1 hy2 one (kn m00) (kn m01) (kn m02) ?_ ?_)
    · rw [et0]; ring
    · ring
  · refine decide_eq_false (lin4 hy0 hx0 hx1 hx2 none (k m00) (k m10) (k m20) ?_ ?_)
    · rw [et0, et1, et2]; linear_combination (-y0) * h1 - y1 * h4 - y2 * h5
    · ring
  · refine decide_eq_false (lin4 hx1 hy0 hy1 hy2 one (kn m10) (kn m11) (kn m12) ?_ ?_)
    · rw [et1]; ring
    · ring
  · refine decide_eq_false (lin4 hx2 hy0 hy1 hy2 one (kn m20) (kn m21) (kn m22) ?_ ?_)
    · rw [et2]; ring
    · ring
  · refine decide_eq_false (lin4 hy1 hx0 hx1 hx2 none (k m01) (k m11) (k m21) ?_ ?_)
    · rw [et0, et1, et2]; linear_combination (-y0) * h4 - y1 * h2 - y2 * h6
    · ring
  · refine decide_eq_false (lin4 hy2 hx0 hx1 hx2 none (k m02) (k m12) (k m22) ?_ ?_)
    · rw [et0, et1, et2]; linear_combination (-y0) * h5 - y1 * h6 - y2 * h3
    · ring
  · refine decide_eq_false (lin4 hx1 hx2 hy1 hy2 (kn m20) (k m10) (knd m02) (kd m01) ?_ ?_)
    · rw [et1, et2]; linear_combination (-y1) * c02 + y2 * c01
    · ring
  · refine decide_eq_false (lin4 hx1 hx2 hy0 hy2 (kn m21) (k m11) (kd m02) (knd m00) ?_ ?_)
    · rw [et1, et2]; linear_combination y0 * c02 - y2 * c00
    · ring
  · refine decide_eq_false (lin4 hx1 hx2 hy0 hy1 (kn m22) (k m12) (knd m01) (kd m00) ?_ ?_)
    · rw [et1, et2]; linear_combination (-y0) * c01 + y1 * c00
    · ring
  · refine decide_eq_false (lin4 hx0 hx2 hy1 hy2 (k m20) (kn m00) (knd m12) (kd m11) ?_ ?_)
    · rw [et0, et2]; linear_combination (-y1) * c12 + y2 * c11
    · ring
  · refine decide_eq_false (lin4 hx0 hx2 hy0 hy2 (k m21) (kn m01) (kd m12) (knd m10) ?_ ?_)
    · rw [et0, et2]; linear_combination y0 * c12 - y2 * c10
    · ring
  · refine decide_eq_false (lin4 hx0 hx2 hy0 hy1 (k m22) (kn m02) (knd m11) (kd m10) ?_ ?_)
    · rw [et0, et2]; linear_combination (-y0) * c11 + y1 * c10
    · ring
  · refine decide_eq_false (lin4 hx0 hx1 hy1 hy2 (kn m10) (k m00) (knd m22) (kd m21) ?_ ?_)
    · rw [et0, et1]; linear_combination (-y1) * c22 + y2 * c21
    · ring
  · refine decide_eq_false (lin4 hx0 hx1 hy0 hy2 (kn m11) (k m01) (kd m22) (knd m20) ?_ ?_)
    · rw [et0, et1]; linear_combination y0 * c22 - y2 * c20
    · ring
  · refine decide_eq_false (lin4 hx0 hx1 hy0 hy1 (kn m12) (k m02) (knd m21) (kd m20) ?_ ?_)
    · rw [et0, et1]; linear_combination (-y0) * c21 + y1 * c20
    · ring

end
end OBB
end Fcl
