import Verif.Base.Vec
import Verif.AABB.Spec
import Mathlib.Analysis.Real.Sqrt
import Mathlib.Tactic.FieldSimp
import Mathlib.Tactic.Positivity
import Mathlib.Tactic.LinearCombination

/-!
# Euclidean geometry of `Vector3<S>` and `Transform3<S>` over the reals
-/

namespace Fcl

/-- Equality of vectors coordinate by coordinate. -/
macro "v3" : tactic => `(tactic| (apply V3.ext' <;> simp <;> ring))

namespace V3
section
variable {K : Type*} [Field K]

theorem dot_comm (a b : V3 K) : a.dot b = b.dot a := by simp only [dot]; ring
theorem dot_add (a b c : V3 K) : a.dot (b + c) = a.dot b + a.dot c := by simp only [dot, add_x, add_y, add_z]; ring
theorem add_dot (a b c : V3 K) : (a + b).dot c = a.dot c + b.dot c := by simp only [dot, add_x, add_y, add_z]; ring
theorem dot_sub (a b c : V3 K) : a.dot (b - c) = a.dot b - a.dot c := by simp only [dot, sub_x, sub_y, sub_z]; ring
theorem sub_dot (a b c : V3 K) : (a - b).dot c = a.dot c - b.dot c := by simp only [dot, sub_x, sub_y, sub_z]; ring
theorem dot_smul (k : K) (a b : V3 K) : a.dot (k • b) = k * a.dot b := by simp only [dot, smul_x, smul_y, smul_z]; ring
theorem smul_dot (k : K) (a b : V3 K) : (k • a).dot b = k * a.dot b := by simp only [dot, smul_x, smul_y, smul_z]; ring
theorem dot_neg (a b : V3 K) : a.dot (-b) = -a.dot b := by simp only [dot, neg_x, neg_y, neg_z]; ring
theorem neg_dot (a b : V3 K) : (-a).dot b = -a.dot b := by simp only [dot, neg_x, neg_y, neg_z]; ring
theorem sub_self (a : V3 K) : a - a = 0 := by v3
theorem sub_add_cancel (a b : V3 K) : a - b + b = a := by v3
theorem add_sub_cancel (a b : V3 K) : a + (b - a) = b := by v3

end

section
variable {K : Type*} [Field K] [LinearOrder K] [IsStrictOrderedRing K]

theorem dot_self_nonneg (a : V3 K) : 0 ≤ a.dot a := by
  simp only [dot]; nlinarith [mul_self_nonneg a.x, mul_self_nonneg a.y, mul_self_nonneg a.z]

theorem dot_self_eq_zero {a : V3 K} (h : a.dot a = 0) : a = 0 := by
  simp only [dot] at h
  have hx := mul_self_nonneg a.x
  have hy := mul_self_nonneg a.y
  have hz := mul_self_nonneg a.z
  refine ext' ?_ ?_ ?_ <;> refine mul_self_eq_zero.1 ?_ <;> linarith

/-- Cauchy-Schwarz. -/
theorem dot_sq_le (a b : V3 K) : a.dot b * a.dot b ≤ a.dot a * b.dot b := by
  have h : a.dot a * b.dot b - a.dot b * a.dot b = (a.cross b).dot (a.cross b) := by simp only [dot, cross]; ring
  have := dot_self_nonneg (a.cross b)
  linarith

end

/-- Eigen `a.norm()`. -/
noncomputable def nrm (a : V3 ℝ) : ℝ := Real.sqrt (a.dot a)

theorem dist_eq (a b : V3 ℝ) : a.dist b = (a - b).nrm := by
  rw [dist, nrm, dot]; congr 1; simp; ring

theorem nrm_nonneg (a : V3 ℝ) : 0 ≤ a.nrm := Real.sqrt_nonneg _
theorem nrm_mul_self (a : V3 ℝ) : a.nrm * a.nrm = a.dot a := Real.mul_self_sqrt (dot_self_nonneg a)
theorem nrm_zero : (0 : V3 ℝ).nrm = 0 := by simp [nrm, dot]
theorem nrm_eq_zero {a : V3 ℝ} (h : a.nrm = 0) : a = 0 := dot_self_eq_zero (by rw [← nrm_mul_self, h, mul_zero])
theorem nrm_pos {a : V3 ℝ} (h : a ≠ 0) : 0 < a.nrm := lt_of_le_of_ne (nrm_nonneg a) fun h' => h (nrm_eq_zero h'.symm)

theorem nrm_le_iff {a : V3 ℝ} {r : ℝ} (hr : 0 ≤ r) : a.nrm ≤ r ↔ a.dot a ≤ r * r := by
  rw [← nrm_mul_self]
  exact ⟨fun h => mul_self_le_mul_self (nrm_nonneg a) h, fun h => abs_le_of_sq_le_sq' (by nlinarith) hr |>.2⟩

theorem nrm_unique {a : V3 ℝ} {r : ℝ} (hr : 0 ≤ r) (h : a.dot a = r * r) : a.nrm = r := by
  rw [nrm, h, Real.sqrt_mul_self hr]

theorem nrm_smul (c : ℝ) (a : V3 ℝ) : (c • a).nrm = |c| * a.nrm := by
  refine nrm_unique (mul_nonneg (abs_nonneg c) (nrm_nonneg a)) ?_
  rw [smul_dot, dot_smul, mul_mul_mul_comm, nrm_mul_self, abs_mul_abs_self]; ring

theorem nrm_neg (a : V3 ℝ) : (-a).nrm = a.nrm := by simp only [nrm, dot_neg, neg_dot, neg_neg]

theorem dot_le (a b : V3 ℝ) : a.dot b ≤ a.nrm * b.nrm := by
  have h := dot_sq_le a b
  rw [← nrm_mul_self, ← nrm_mul_self, mul_mul_mul_comm] at h
  exact (abs_le_of_sq_le_sq' (by nlinarith) (mul_nonneg (nrm_nonneg a) (nrm_nonneg b))).2

theorem nrm_add_le (a b : V3 ℝ) : (a + b).nrm ≤ a.nrm + b.nrm := by
  rw [nrm_le_iff (add_nonneg (nrm_nonneg a) (nrm_nonneg b)), add_dot, dot_add, dot_add, ← nrm_mul_self a, ← nrm_mul_self b,
    dot_comm b a]
  nlinarith [dot_le a b]

theorem dist_comm (a b : V3 ℝ) : a.dist b = b.dist a := by
  rw [dist_eq, dist_eq, ← nrm_neg]; congr 1; v3
theorem dist_nonneg (a b : V3 ℝ) : 0 ≤ a.dist b  := by rw [dist_eq]; exact nrm_nonneg _
theorem dist_self (a : V3 ℝ) : a.dist a = 0 := by rw [dist_eq, sub_self, nrm_zero]
theorem dist_eq_zero {a b : V3 ℝ} (h : a.dist b = 0) : a = b := by
  rw [dist_eq] at h
  have := nrm_eq_zero h
  rw [← sub_add_cancel a b, this]; v3
theorem dist_triangle (a b c : V3 ℝ) : a.dist c ≤ a.dist b + b.dist c := by
  have h := nrm_add_le (a - b) (b - c)
  have e : a - b + (b - c) = a - c := by v3
  rw [e] at h
  simpa only [dist_eq] using h

/-- Eigen `a.normalized()`: the vector itself if its length is 0. -/
noncomputable def normalized (a : V3 ℝ) : V3 ℝ := if a.nrm = 0 then a else (1 / a.nrm) • a

theorem nrm_normalized {a : V3 ℝ} (h : a ≠ 0) : a.normalized.nrm = 1 := by
  have := nrm_pos h
  rw [normalized, if_neg this.ne', nrm_smul, abs_of_pos (by positivity)]
  field_simp

theorem nrm_smul_normalized (a : V3 ℝ) : a.nrm • a.normalized = a := by
  by_cases h : a.nrm = 0
  · have h' := nrm_eq_zero h
    rw [normalized, if_pos h, h, h']; v3
  · rw [normalized, if_neg h]
    apply ext' <;> simp <;> field_simp

end V3

/-- `Transform3<S>`, include/fcl/common/types.h 91-92: a linear part and a translation. -/
structure Pose (K : Type*) where
  R : M3 K
  t : V3 K
deriving DecidableEq, Repr

namespace Pose
section
variable {K : Type*} [Field K]

/-- Eigen `tf * p`. -/
def apply (X : Pose K) (p : V3 K) : V3 K := X.R.mulVec p + X.t
/-- Eigen `tf.inverse(Eigen::Isometry)`, which is also `tf.inverse()` of `Transform3`. -/
def inv (X : Pose K) : Pose K := ⟨X.R.tr, -(X.R.tr.mulVec X.t)⟩
/-- Eigen `tf1 * tf2`. -/
def mul (X Y : Pose K) : Pose K := ⟨X.R.mul Y.R, X.R.mulVec Y.t + X.t⟩
/-- `Transform3<S>::Identity()`. -/
def id : Pose K := ⟨M3.one, 0⟩

/-- A rigid transformation, maybe with a reflection. -/
def Rigid (X : Pose K) : Prop := X.R.Orthonormal
end
end Pose

namespace M3
variable {K : Type*} [Field K]

theorem mulVec_add (m : M3 K) (a b : V3 K) : m.mulVec (a + b) = m.mulVec a + m.mulVec b := by
  apply V3.ext' <;> simp [mulVec, V3.dot_add]
theorem mulVec_sub (m : M3 K) (a b : V3 K) : m.mulVec (a - b) = m.mulVec a - m.mulVec b := by
  apply V3.ext' <;> simp [mulVec, V3.dot_sub]
theorem mulVec_smul (m : M3 K) (k : K) (a : V3 K) : m.mulVec (k • a) = k • m.mulVec a := by
  apply V3.ext' <;> simp [mulVec, V3.dot_smul]
theorem mulVec_neg (m : M3 K) (a : V3 K) : m.mulVec (-a) = -m.mulVec a := by
  apply V3.ext' <;> simp [mulVec, V3.dot_neg]
theorem mulVec_zero (m : M3 K) : m.mulVec 0 = 0 := by
  apply V3.ext' <;> simp [mulVec, V3.dot]
theorem one_mulVec (a : V3 K) : (one : M3 K).mulVec a = a := by
  apply V3.ext' <;> simp [mulVec, V3.dot, one]
theorem mul_mulVec (m n : M3 K) (a : V3 K) : (m.mul n).mulVec a = m.mulVec (n.mulVec a) := by
  apply V3.ext' <;> simp [mulVec, mul, V3.dot, col, V3.get] <;> ring
/-- `m.mulVec a` and `mᵀ.mulVec b` are adjoint. -/
theorem dot_mulVec (m : M3 K) (a b : V3 K) : (m.mulVec a).dot b = a.dot (m.tr.mulVec b) := by
  simp [mulVec, V3.dot, tr, col, V3.get]; ring
theorem tr_tr (m : M3 K) : m.tr.tr = m := by
  obtain ⟨⟨_, _, _⟩, ⟨_, _, _⟩, ⟨_, _, _⟩⟩ := m; rfl

theorem Orthonormal.tr {m : M3 K} (h : m.Orthonormal) : m.tr.Orthonormal :=
  ⟨by rw [tr_tr]; exact h.cols, by rw [tr_tr]; exact h.rows⟩
theorem Orthonormal.tr_mul {m : M3 K} (h : m.Orthonormal) (a : V3 K) : m.tr.mulVec (m.mulVec a) = a := by
  rw [← mul_mulVec, h.cols, one_mulVec]
theorem Orthonormal.mul_tr {m : M3 K} (h : m.Orthonormal) (a : V3 K) : m.mulVec (m.tr.mulVec a) = a := by
  rw [← mul_mulVec, h.rows, one_mulVec]
theorem Orthonormal.dot {m : M3 K} (h : m.Orthonormal) (a b : V3 K) : (m.mulVec a).dot (m.mulVec b) = a.dot b := by
  rw [dot_mulVec, h.tr_mul]
theorem Orthonormal.nrm {m : M3 ℝ} (h : m.Orthonormal) (a : V3 ℝ) : (m.mulVec a).nrm = a.nrm := by
  rw [V3.nrm, V3.nrm, h.dot]

theorem orthonormal_one : (one : M3 K).Orthonormal := by
  constructor <;> simp [mul, tr, col, one, V3.dot, V3.get]

end M3

namespace Pose
section
variable {K : Type*} [Field K] {X : Pose K}

theorem apply_inv (h : X.Rigid) (p : V3 K) : X.apply (X.inv.apply p) = p := by
  have e : X.inv.apply p = X.R.tr.mulVec (p - X.t) := by
    rw [M3.mulVec_sub]; simp only [apply, inv]; v3
  rw [e, apply, M3.Orthonormal.mul_tr h]; v3
theorem inv_apply (h : X.Rigid) (p : V3 K) : X.inv.apply (X.apply p) = p := by
  simp only [apply, inv, M3.mulVec_add, M3.Orthonormal.tr_mul h]; v3
theorem apply_sub (p q : V3 K) : X.apply p - X.apply q = X.R.mulVec (p - q) := by
  simp only [apply, M3.mulVec_sub]; v3
theorem mul_apply (X Y : Pose K) (p : V3 K) : (X.mul Y).apply p = X.apply (Y.apply p) := by
  simp only [apply, mul, M3.mul_mulVec, M3.mulVec_add]; v3
theorem apply_injective (h : X.Rigid) {p q : V3 K} (e : X.apply p = X.apply q) : p = q := by
  rw [← inv_apply h p, e, inv_apply h]
theorem rigid_inv (h : X.Rigid) : X.inv.Rigid := M3.Orthonormal.tr h
theorem id_apply (p : V3 K) : (Pose.id : Pose K).apply p = p := by
  simp only [apply, Pose.id, M3.one_mulVec]; v3
theorem id_rigid : (Pose.id : Pose K).Rigid := M3.orthonormal_one
theorem apply_zero : X.apply 0 = X.t := by simp only [apply, M3.mulVec_zero]; v3
theorem inv_mul_t (X Y : Pose K) : (X.inv.mul Y).t = X.inv.apply Y.t := rfl

end

theorem dist_apply {X : Pose ℝ} (h : X.Rigid) (p q : V3 ℝ) : (X.apply p).dist (X.apply q) = p.dist q := by
  rw [V3.dist_eq, V3.dist_eq, apply_sub, M3.Orthonormal.nrm h]
theorem dist_inv {X : Pose ℝ} (h : X.Rigid) (p q : V3 ℝ) : (X.inv.apply p).dist q = p.dist (X.apply q) := by
  rw [← dist_apply h, apply_inv h]
end Pose

end Fcl
