import Verif.Narrow.BoxBox
import Verif.Geom.Zonotope
import Verif.OBB.Lemmas

/-!
# The fifteen tests of two boxes
-/

namespace Fcl
namespace BoxBox
open V3 Zono

/-! ### What passing the tests means -/

theorem face_fold {ts : List Test} : ∀ {st0 st : Sat}, ts.foldlM face st0 = some st →
    (∀ t ∈ ts, |t.tmp| - t.rad ≤ 0) ∧ st0.s ≤ st.s ∧ (∀ t ∈ ts, |t.tmp| - t.rad ≤ st.s) ∧
      (st = st0 ∨ ∃ t ∈ ts, st = ⟨|t.tmp| - t.rad, t.axis, decide (t.tmp < 0), t.code⟩) := by
  induction ts with
  | nil => intro st0 st h; cases h; simp
  | cons t ts ih =>
    intro st0 st h
    rw [List.foldlM_cons] at h
    by_cases h0 : |t.tmp| - t.rad > 0
    · simp [face, h0] at h
    by_cases h1 : |t.tmp| - t.rad > st0.s
    · rw [face, if_neg h0, if_pos h1] at h
      obtain ⟨k1, k2, k3, k4⟩ := ih h
      refine ⟨?_, by simp only at k2; linarith, ?_, ?_⟩
      · intro u hu
        rcases List.mem_cons.1 hu with rfl | hu
        · exact not_lt.1 h0
        · exact k1 u hu
      · intro u hu
        rcases List.mem_cons.1 hu with rfl | hu
        · exact k2
        · exact k3 u hu
      · rcases k4 with rfl | ⟨u, hu, rfl⟩
        · exact Or.inr ⟨t, by simp, rfl⟩
        · exact Or.inr ⟨u, by simp [hu], rfl⟩
    · rw [face, if_neg h0, if_neg h1] at h
      obtain ⟨k1, k2, k3, k4⟩ := ih h
      refine ⟨?_, k2, ?_, ?_⟩
      · intro u hu
        rcases List.mem_cons.1 hu with rfl | hu
        · exact not_lt.1 h0
        · exact k1 u hu
      · intro u hu
        rcases List.mem_cons.1 hu with rfl | hu
        · exact (not_lt.1 h1).trans k2
        · exact k3 u hu
      · rcases k4 with rfl | ⟨u, hu, rfl⟩
        · exact Or.inl rfl
        · exact Or.inr ⟨u, by simp [hu], rfl⟩

theorem face_fold_none {ts : List Test} : ∀ {st0 : Sat}, ts.foldlM face st0 = none ↔ ∃ t ∈ ts, 0 < |t.tmp| - t.rad := by
  induction ts with
  | nil => intro st0; simp
  | cons t ts ih =>
    intro st0
    rw [List.foldlM_cons]
    by_cases h0 : |t.tmp| - t.rad > 0
    · have : face st0 t = none := by rw [face, if_pos h0]
      rw [this]
      exact ⟨fun _ => ⟨t, by simp, h0⟩, fun _ => rfl⟩
    · obtain ⟨st1, e⟩ : ∃ st1, face st0 t = some st1 := by
        rw [face, if_neg h0]; split_ifs <;> exact ⟨_, rfl⟩
      rw [e]
      show ts.foldlM face st1 = none ↔ _
      rw [ih]
      simp only [List.mem_cons, exists_eq_or_imp, h0, false_or]

theorem edge_fold {eps : ℝ} {R1 : M3 ℝ} (he : 0 ≤ eps) {ts : List Test} : ∀ {st0 st : Sat}, ts.foldlM (edge eps R1) st0 = some st →
    (∀ t ∈ ts, |t.tmp| - t.rad ≤ 0) ∧ st0.s ≤ st.s ∧
      (∀ t ∈ ts, t.axis.nrm > eps → (|t.tmp| - t.rad) / t.axis.nrm * (105 / 100) ≤ st.s) ∧
      (st = st0 ∨ ∃ t ∈ ts, t.axis.nrm > eps ∧ (|t.tmp| - t.rad) / t.axis.nrm * (105 / 100) > st0.s ∧
        st = ⟨(|t.tmp| - t.rad) / t.axis.nrm, R1.mulVec ((1 / t.axis.nrm) • t.axis), decide (t.tmp < 0), t.code⟩) := by
  induction ts with
  | nil => intro st0 st h; cases h; simp
  | cons t ts ih =>
    intro st0 st h
    rw [List.foldlM_cons] at h
    by_cases h0 : |t.tmp| - t.rad > 0
    · simp [edge, h0] at h
    have hd : t.axis.nrm > eps → (|t.tmp| - t.rad) / t.axis.nrm ≤ 0 := fun hl =>
      div_nonpos_of_nonpos_of_nonneg (not_lt.1 h0) (he.trans hl.le)
    by_cases h1 : t.axis.nrm > eps ∧ (|t.tmp| - t.rad) / t.axis.nrm * (105 / 100) > st0.s
    · rw [edge, if_neg h0, if_pos h1.1, if_pos h1.2] at h
      obtain ⟨k1, k2, k3, k4⟩ := ih h
      have := hd h1.1
      have hge : st0.s ≤ st.s := by simp only at k2; linarith [h1.2]
      refine ⟨?_, hge, ?_, ?_⟩
      · intro u hu
        rcases List.mem_cons.1 hu with rfl | hu
        · exact not_lt.1 h0
        · exact k1 u hu
      · intro u hu hl
        rcases List.mem_cons.1 hu with rfl | hu
        · simp only at k2; linarith
        · exact k3 u hu hl
      · rcases k4 with rfl | ⟨u, hu, hl, hg, rfl⟩
        · exact Or.inr ⟨t, by simp, h1.1, h1.2, rfl⟩
        · refine Or.inr ⟨u, by simp [hu], hl, ?_, rfl⟩
          simp only at hg; linarith [h1.2]
    · have : edge eps R1 st0 t = some st0 := by
        rw [edge, if_neg h0]
        by_cases hl : t.axis.nrm > eps
        · rw [if_pos hl, if_neg fun h => h1 ⟨hl, h⟩]
        · rw [if_neg hl]
      rw [this] at h
      obtain ⟨k1, k2, k3, k4⟩ := ih h
      refine ⟨?_, k2, ?_, ?_⟩
      · intro u hu
        rcases List.mem_cons.1 hu with rfl | hu
        · exact not_lt.1 h0
        · exact k1 u hu
      · intro u hu hl
        rcases List.mem_cons.1 hu with rfl | hu
        · exact (not_lt.1 fun h => h1 ⟨hl, h⟩).trans k2
        · exact k3 u hu hl
      · rcases k4 with rfl | ⟨u, hu, hl, hg, rfl⟩
        · exact Or.inl rfl
        · exact Or.inr ⟨u, by simp [hu], hl, hg, rfl⟩

theorem edge_fold_none {eps : ℝ} {R1 : M3 ℝ} {ts : List Test} :
    ∀ {st0 : Sat}, ts.foldlM (edge eps R1) st0 = none ↔ ∃ t ∈ ts, 0 < |t.tmp| - t.rad := by
  induction ts with
  | nil => intro st0; simp
  | cons t ts ih =>
    intro st0
    rw [List.foldlM_cons]
    by_cases h0 : |t.tmp| - t.rad > 0
    · have : edge eps R1 st0 t = none := by rw [edge, if_pos h0]
      rw [this]
      exact ⟨fun _ => ⟨t, by simp, h0⟩, fun _ => rfl⟩
    · obtain ⟨st1, e⟩ : ∃ st1, edge eps R1 st0 t = some st1 := by
        rw [edge, if_neg h0]; dsimp only; split_ifs <;> exact ⟨_, rfl⟩
      rw [e]
      show ts.foldlM (edge eps R1) st1 = none ↔ _
      rw [ih]
      simp only [List.mem_cons, exists_eq_or_imp, h0, false_or]

/-! ### What the tests are about -/

/-- The axis of a side test, in the frame of the first box. -/
noncomputable def faceAxis (R : M3 ℝ) (code : ℕ) : V3 ℝ := if code ≤ 3 then (M3.one : M3 ℝ).col (Fin.ofNat 3 (code - 1)) else R.col (Fin.ofNat 3 (code - 4))

/-- The axis of a cross product test, in the frame of the first box. -/
noncomputable def edgeAxis (R : M3 ℝ) (code : ℕ) : V3 ℝ := ((M3.one : M3 ℝ).col (edge1 code)).cross (R.col (edge2 code))

/-- The half sides that the tolerance of a cross product test is multiplied with. -/
noncomputable def padded (A B : V3 ℝ) (code : ℕ) : ℝ :=
  A.x + A.y + A.z - A.get (edge1 code) + (B.x + B.y + B.z - B.get (edge2 code))

theorem rel_col {R1 R2 : M3 ℝ} (h1 : R1.Orthonormal) (j : Fin 3) : R1.mulVec ((R1.tr.mul R2).col j) = R2.col j := by
  have : (R1.tr.mul R2).col j = R1.tr.mulVec (R2.col j) := by
    fin_cases j <;> apply ext' <;> simp [M3.mul, M3.col, M3.mulVec, V3.get]
  rw [this, h1.mul_tr]

theorem one_col (R1 : M3 ℝ) (j : Fin 3) : R1.mulVec ((M3.one : M3 ℝ).col j) = R1.col j := by
  fin_cases j <;> apply ext' <;> simp [M3.col, M3.mulVec, V3.get, M3.one, dot]

theorem col_unit {R : M3 ℝ} (h : R.Orthonormal) (j : Fin 3) : (R.col j).nrm = 1 := by
  obtain ⟨⟨h0, h1, h2⟩, -⟩ := col_dot h
  refine nrm_unique zero_le_one ?_
  fin_cases j
  · simpa using h0
  · simpa using h1
  · simpa using h2

theorem faceAxis_unit {R : M3 ℝ} (h : R.Orthonormal) (c : ℕ) : (faceAxis R c).nrm = 1 := by
  rw [faceAxis]; split_ifs
  · exact col_unit M3.orthonormal_one _
  · exact col_unit h _

/-- The world axis of a side test. -/
noncomputable def worldAxis (R1 R2 : M3 ℝ) (code : ℕ) : V3 ℝ := if code ≤ 3 then R1.col (Fin.ofNat 3 (code - 1)) else R2.col (Fin.ofNat 3 (code - 4))

theorem world_faceAxis {R1 R2 : M3 ℝ} (h1 : R1.Orthonormal) (c : ℕ) : R1.mulVec (faceAxis (R1.tr.mul R2) c) = worldAxis R1 R2 c := by
  rw [faceAxis, worldAxis]; split_ifs
  · exact one_col R1 _
  · exact rel_col h1 _

variable {R1 R2 : M3 ℝ} {p A B : V3 ℝ}

set_option maxHeartbeats 1000000 in
/-- Every side test compares the centres with the widths of the boxes along its axis. -/
theorem faceTests_spec (h1 : R1.Orthonormal) (h2 : R2.Orthonormal) :
    ∀ t ∈ faceTests R1 R2 (R1.tr.mul R2) p (R1.tr.mulVec p) A B,
      t.tmp = (R1.tr.mulVec p).dot (faceAxis (R1.tr.mul R2) t.code) ∧
      t.rad = spread (edges (R1.tr.mul R2) A B) (faceAxis (R1.tr.mul R2) t.code) ∧ t.axis = worldAxis R1 R2 t.code ∧
      1 ≤ t.code ∧ t.code ≤ 6 := by
  have hR : (R1.tr.mul R2).Orthonormal := h1.tr.mul h2
  have hd : ∀ j, (R2.col j).dot p = (R1.tr.mulVec p).dot ((R1.tr.mul R2).col j) := fun j => by
    rw [← rel_col h1 j, M3.dot_mulVec, dot_comm]
  obtain ⟨⟨n0, n1, n2⟩, o01, o12, o20⟩ := col_dot hR
  have o10 := (dot_comm ((R1.tr.mul R2).col 1) ((R1.tr.mul R2).col 0)).trans o01
  have o21 := (dot_comm ((R1.tr.mul R2).col 2) ((R1.tr.mul R2).col 1)).trans o12
  have o02 := (dot_comm ((R1.tr.mul R2).col 0) ((R1.tr.mul R2).col 2)).trans o20
  generalize R1.tr.mulVec p = pp at *
  generalize hRR : R1.tr.mul R2 = R at *
  intro t ht
  simp only [faceTests, List.mem_cons, List.not_mem_nil, or_false] at ht
  rcases ht with rfl | rfl | rfl | rfl | rfl | rfl
  · simp [faceAxis, worldAxis, spread_edges, M3.one, M3.col, V3.get, dot, M3.get, M3.row]; ring
  · simp [faceAxis, worldAxis, spread_edges, M3.one, M3.col, V3.get, dot, M3.get, M3.row]; ring
  · simp [faceAxis, worldAxis, spread_edges, M3.one, M3.col, V3.get, dot, M3.get, M3.row]; ring
  · have e : Fin.ofNat 3 (4 - 4) = 0 := rfl
    simp only [faceAxis, worldAxis, spread_edges, e, n0, o10, o20, hd, show ¬ 4 ≤ 3 by norm_num, if_false, abs_one, abs_zero]
    refine ⟨trivial, ?_, trivial, by norm_num, by norm_num⟩
    simp [M3.col, V3.get, M3.get, M3.row]; ring
  · have e : Fin.ofNat 3 (5 - 4) = 1 := rfl
    simp only [faceAxis, worldAxis, spread_edges, e, n1, o01, o21, hd, show ¬ 5 ≤ 3 by norm_num, if_false, abs_one, abs_zero]
    refine ⟨trivial, ?_, trivial, by norm_num, by norm_num⟩
    simp [M3.col, V3.get, M3.get, M3.row]; ring
  · have e : Fin.ofNat 3 (6 - 4) = 2 := rfl
    simp only [faceAxis, worldAxis, spread_edges, e, n2, o02, o12, hd, show ¬ 6 ≤ 3 by norm_num, if_false, abs_one, abs_zero]
    refine ⟨trivial, ?_, trivial, by norm_num, by norm_num⟩
    simp [M3.col, V3.get, M3.get, M3.row]; ring

theorem faceTests_codes {R : M3 ℝ} {pp : V3 ℝ} {c : ℕ} (h1 : 1 ≤ c) (h6 : c ≤ 6) : ∃ t ∈ faceTests R1 R2 R p pp A B, t.code = c := by
  simp only [faceTests, List.mem_cons, List.not_mem_nil, or_false, exists_eq_or_imp, exists_eq_left]
  omega

theorem edgeTests_codes {d : ℝ} {R : M3 ℝ} {pp : V3 ℝ} {c : ℕ} (h1 : 7 ≤ c) (h6 : c ≤ 15) : ∃ t ∈ edgeTests d R pp A B, t.code = c := by
  simp only [edgeTests, List.mem_cons, List.not_mem_nil, or_false, exists_eq_or_imp, exists_eq_left]
  omega

/-- The products of the cross product of an edge of each box with the edges of the second box. -/
theorem triple {R : M3 ℝ} (hR : R.Orthonormal) (i : Fin 3) :
    (∀ j, |(R.col j).dot (((M3.one : M3 ℝ).col i).cross (R.col j))| = 0) ∧
    |(R.col 1).dot (((M3.one : M3 ℝ).col i).cross (R.col 0))| = |R.get i 2| ∧
    |(R.col 2).dot (((M3.one : M3 ℝ).col i).cross (R.col 0))| = |R.get i 1| ∧
    |(R.col 0).dot (((M3.one : M3 ℝ).col i).cross (R.col 1))| = |R.get i 2| ∧
    |(R.col 2).dot (((M3.one : M3 ℝ).col i).cross (R.col 1))| = |R.get i 0| ∧
    |(R.col 0).dot (((M3.one : M3 ℝ).col i).cross (R.col 2))| = |R.get i 1| ∧
    |(R.col 1).dot (((M3.one : M3 ℝ).col i).cross (R.col 2))| = |R.get i 0| := by
  obtain ⟨D, hD, c01, c12, c20⟩ := cross_cols hR
  have hD1 : |D| = 1 := by
    obtain h | h := mul_self_eq_one_iff.1 hD
    · rw [h, abs_one]
    · rw [h, abs_neg, abs_one]
  have e : ∀ j k, (R.col k).dot (((M3.one : M3 ℝ).col i).cross (R.col j)) = ((M3.one : M3 ℝ).col i).dot ((R.col j).cross (R.col k)) := by
    intro j k; simp only [dot, cross]; ring
  have e' : ∀ j k, (R.col k).dot (((M3.one : M3 ℝ).col i).cross (R.col j)) = -((M3.one : M3 ℝ).col i).dot ((R.col k).cross (R.col j)) := by
    intro j k; simp only [dot, cross]; ring
  have od : ∀ j, ((M3.one : M3 ℝ).col i).dot (R.col j) = R.get i j := fun j => by
    fin_cases i <;> fin_cases j <;> simp [dot, M3.one, M3.col, V3.get, M3.get, M3.row]
  refine ⟨fun j => ?_, ?_, ?_, ?_, ?_, ?_, ?_⟩
  · rw [abs_eq_zero]; simp only [dot, cross]; ring
  · rw [e, c01, dot_smul, abs_mul, hD1, od, one_mul]
  · rw [e', c20, dot_smul, abs_neg, abs_mul, hD1, od, one_mul]
  · rw [e', c01, dot_smul, abs_neg, abs_mul, hD1, od, one_mul]
  · rw [e, c12, dot_smul, abs_mul, hD1, od, one_mul]
  · rw [e, c20, dot_smul, abs_mul, hD1, od, one_mul]
  · rw [e', c12, dot_smul, abs_neg, abs_mul, hD1, od, one_mul]

set_option maxHeartbeats 2000000 in
/-- Every cross product test compares the centres with the widths of the boxes along its axis, plus the tolerance. -/
theorem edgeTests_spec {d : ℝ} {R : M3 ℝ} (hR : R.Orthonormal) {pp : V3 ℝ} : ∀ t ∈ edgeTests d R pp A B,
      t.tmp = pp.dot (edgeAxis R t.code) ∧ t.rad = spread (edges R A B) (edgeAxis R t.code) + d * padded A B t.code ∧
      t.axis = edgeAxis R t.code ∧ 7 ≤ t.code ∧ t.code ≤ 15 := by
  have tr := triple hR
  intro t ht
  simp only [edgeTests, List.mem_cons, List.not_mem_nil, or_false] at ht
  rcases ht with rfl | rfl | rfl | rfl | rfl | rfl | rfl | rfl | rfl
  · obtain ⟨z, t01, t02, t10, t12, t20, t21⟩ := tr 0
    have ea : edgeAxis R 7 = ((M3.one : M3 ℝ).col 0).cross (R.col 0) := rfl
    have ep : padded A B 7 = A.y + A.z + (B.y + B.z) := by simp [padded, edge1, edge2, V3.get] <;> ring
    refine ⟨?_, ?_, ?_, by norm_num, by norm_num⟩
    · rw [ea]; simp [cross, M3.one, M3.col, V3.get, dot, M3.get, M3.row]; ring
    · rw [ea, ep, spread_edges, z, t01, t02]
      simp [cross, M3.one, M3.col, V3.get, M3.get, M3.row]; ring
    · rw [ea]; simp [cross, M3.one, M3.col, V3.get, M3.get, M3.row]
  · obtain ⟨z, t01, t02, t10, t12, t20, t21⟩ := tr 0
    have ea : edgeAxis R 8 = ((M3.one : M3 ℝ).col 0).cross (R.col 1) := rfl
    have ep : padded A B 8 = A.y + A.z + (B.x + B.z) := by simp [padded, edge1, edge2, V3.get] <;> ring
    refine ⟨?_, ?_, ?_, by norm_num, by norm_num⟩
    · rw [ea]; simp [cross, M3.one, M3.col, V3.get, dot, M3.get, M3.row]; ring
    · rw [ea, ep, spread_edges, z, t12, t10]
      simp [cross, M3.one, M3.col, V3.get, M3.get, M3.row]; ring
    · rw [ea]; simp [cross, M3.one, M3.col, V3.get, M3.get, M3.row]
  · obtain ⟨z, t01, t02, t10, t12, t20, t21⟩ := tr 0
    have ea : edgeAxis R 9 = ((M3.one : M3 ℝ).col 0).cross (R.col 2) := rfl
    have ep : padded A B 9 = A.y + A.z + (B.x + B.y) := by simp [padded, edge1, edge2, V3.get] <;> ring
    refine ⟨?_, ?_, ?_, by norm_num, by norm_num⟩
    · rw [ea]; simp [cross, M3.one, M3.col, V3.get, dot, M3.get, M3.row]; ring
    · rw [ea, ep, spread_edges, z, t20, t21]
      simp [cross, M3.one, M3.col, V3.get, M3.get, M3.row]; ring
    · rw [ea]; simp [cross, M3.one, M3.col, V3.get, M3.get, M3.row]
  · obtain ⟨z, t01, t02, t10, t12, t20, t21⟩ := tr 1
    have ea : edgeAxis R 10 = ((M3.one : M3 ℝ).col 1).cross (R.col 0) := rfl
    have ep : padded A B 10 = A.x + A.z + (B.y + B.z) := by simp [padded, edge1, edge2, V3.get] <;> ring
    refine ⟨?_, ?_, ?_, by norm_num, by norm_num⟩
    · rw [ea]; simp [cross, M3.one, M3.col, V3.get, dot, M3.get, M3.row]; ring
    · rw [ea, ep, spread_edges, z, t01, t02]
      simp [cross, M3.one, M3.col, V3.get, M3.get, M3.row]; ring
    · rw [ea]; simp [cross, M3.one, M3.col, V3.get, M3.get, M3.row]
  · obtain ⟨z, t01, t02, t10, t12, t20, t21⟩ := tr 1
    have ea : edgeAxis R 11 = ((M3.one : M3 ℝ).col 1).cross (R.col 1) := rfl
    have ep : padded A B 11 = A.x + A.z + (B.x + B.z) := by simp [padded, edge1, edge2, V3.get] <;> ring
    refine ⟨?_, ?_, ?_, by norm_num, by norm_num⟩
    · rw [ea]; simp [cross, M3.one, M3.col, V3.get, dot, M3.get, M3.row]; ring
    · rw [ea, ep, spread_edges, z, t12, t10]
      simp [cross, M3.one, M3.col, V3.get, M3.get, M3.row]; ring
    · rw [ea]; simp [cross, M3.one, M3.col, V3.get, M3.get, M3.row]
  · obtain ⟨z, t01, t02, t10, t12, t20, t21⟩ := tr 1
    have ea : edgeAxis R 12 = ((M3.one : M3 ℝ).col 1).cross (R.col 2) := rfl
    have ep : padded A B 12 = A.x + A.z + (B.x + B.y) := by simp [padded, edge1, edge2, V3.get] <;> ring
    refine ⟨?_, ?_, ?_, by norm_num, by norm_num⟩
    · rw [ea]; simp [cross, M3.one, M3.col, V3.get, dot, M3.get, M3.row]; ring
    · rw [ea, ep, spread_edges, z, t20, t21]
      simp [cross, M3.one, M3.col, V3.get, M3.get, M3.row]; ring
    · rw [ea]; simp [cross, M3.one, M3.col, V3.get, M3.get, M3.row]
  · obtain ⟨z, t01, t02, t10, t12, t20, t21⟩ := tr 2
    have ea : edgeAxis R 13 = ((M3.one : M3 ℝ).col 2).cross (R.col 0) := rfl
    have ep : padded A B 13 = A.x + A.y + (B.y + B.z) := by simp [padded, edge1, edge2, V3.get] <;> ring
    refine ⟨?_, ?_, ?_, by norm_num, by norm_num⟩
    · rw [ea]; simp [cross, M3.one, M3.col, V3.get, dot, M3.get, M3.row]; ring
    · rw [ea, ep, spread_edges, z, t01, t02]
      simp [cross, M3.one, M3.col, V3.get, M3.get, M3.row]; ring
    · rw [ea]; simp [cross, M3.one, M3.col, V3.get, M3.get, M3.row]
  · obtain ⟨z, t01, t02, t10, t12, t20, t21⟩ := tr 2
    have ea : edgeAxis R 14 = ((M3.one : M3 ℝ).col 2).cross (R.col 1) := rfl
    have ep : padded A B 14 = A.x + A.y + (B.x + B.z) := by simp [padded, edge1, edge2, V3.get] <;> ring
    refine ⟨?_, ?_, ?_, by norm_num, by norm_num⟩
    · rw [ea]; simp [cross, M3.one, M3.col, V3.get, dot, M3.get, M3.row]; ring
    · rw [ea, ep, spread_edges, z, t12, t10]
      simp [cross, M3.one, M3.col, V3.get, M3.get, M3.row]; ring
    · rw [ea]; simp [cross, M3.one, M3.col, V3.get, M3.get, M3.row]
  · obtain ⟨z, t01, t02, t10, t12, t20, t21⟩ := tr 2
    have ea : edgeAxis R 15 = ((M3.one : M3 ℝ).col 2).cross (R.col 2) := rfl
    have ep : padded A B 15 = A.x + A.y + (B.x + B.y) := by simp [padded, edge1, edge2, V3.get] <;> ring
    refine ⟨?_, ?_, ?_, by norm_num, by norm_num⟩
    · rw [ea]; simp [cross, M3.one, M3.col, V3.get, dot, M3.get, M3.row]; ring
    · rw [ea, ep, spread_edges, z, t20, t21]
      simp [cross, M3.one, M3.col, V3.get, M3.get, M3.row]; ring
    · rw [ea]; simp [cross, M3.one, M3.col, V3.get, M3.get, M3.row]

/-! ### The first part of the function -/

/-- The rotation of the second box, seen from the first. -/
noncomputable def rel (X1 X2 : Pose ℝ) : M3 ℝ := X1.R.tr.mul X2.R
/-- The centre of the second box, seen from the first. -/
noncomputable def off (X1 X2 : Pose ℝ) : V3 ℝ := X1.R.tr.mulVec (X2.t - X1.t)
/-- The half sides. -/
noncomputable def half (s : V3 ℝ) : V3 ℝ := (1 / 2 : ℝ) • s
/-- The gap along a direction, negative if the boxes overlap there. -/
noncomputable def gap (s1 : V3 ℝ) (X1 : Pose ℝ) (s2 : V3 ℝ) (X2 : Pose ℝ) (n : V3 ℝ) : ℝ :=
  |(off X1 X2).dot n| - spread (edges (rel X1 X2) (half s1) (half s2)) n

variable {eps big : ℝ} {s1 s2 : V3 ℝ} {X1 X2 : Pose ℝ}

theorem rel_orthonormal (h1 : X1.Rigid) (h2 : X2.Rigid) : (rel X1 X2).Orthonormal :=
  M3.Orthonormal.mul (M3.Orthonormal.tr h1) h2

/-- What is known when the function goes on to compute contacts. -/
structure Passed (eps : ℝ) (s1 : V3 ℝ) (X1 : Pose ℝ) (s2 : V3 ℝ) (X2 : Pose ℝ) (st : Sat) : Prop where
  nonpos : st.s ≤ 0
  faces : ∀ c, 1 ≤ c → c ≤ 6 → gap s1 X1 s2 X2 (faceAxis (rel X1 X2) c) ≤ st.s
  edges : ∀ c, 7 ≤ c → c ≤ 15 → gap s1 X1 s2 X2 (edgeAxis (rel X1 X2) c) ≤ pad eps (half s1) (half s2) * padded (half s1) (half s2) c
  depth : ∀ c, 7 ≤ c → c ≤ 15 → (edgeAxis (rel X1 X2) c).nrm > eps →
    (gap s1 X1 s2 X2 (edgeAxis (rel X1 X2) c) - pad eps (half s1) (half s2) * padded (half s1) (half s2) c) /
      (edgeAxis (rel X1 X2) c).nrm * (105 / 100) ≤ st.s
  best : (1 ≤ st.code ∧ st.code ≤ 6 ∧ st.s = gap s1 X1 s2 X2 (faceAxis (rel X1 X2) st.code) ∧ st.dir = worldAxis X1.R X2.R st.code ∧
      st.invert = decide ((off X1 X2).dot (faceAxis (rel X1 X2) st.code) < 0)) ∨
    (7 ≤ st.code ∧ st.code ≤ 15 ∧ (edgeAxis (rel X1 X2) st.code).nrm > eps ∧
      st.s = (gap s1 X1 s2 X2 (edgeAxis (rel X1 X2) st.code) - pad eps (half s1) (half s2) * padded (half s1) (half s2) st.code) /
        (edgeAxis (rel X1 X2) st.code).nrm ∧
      (∀ c, 1 ≤ c → c ≤ 6 → gap s1 X1 s2 X2 (faceAxis (rel X1 X2) c) < st.s * (105 / 100)) ∧
      st.dir = X1.R.mulVec ((1 / (edgeAxis (rel X1 X2) st.code).nrm) • edgeAxis (rel X1 X2) st.code) ∧
      st.invert = decide ((off X1 X2).dot (edgeAxis (rel X1 X2) st.code) < 0))

theorem sat_some (h1 : X1.Rigid) (h2 : X2.Rigid) (he : 0 ≤ eps) {st : Sat} (h : sat eps big s1 X1 s2 X2 = some st) :
    Passed eps s1 X1 s2 X2 st := by
  have hR := rel_orthonormal h1 h2
  rw [sat] at h
  obtain ⟨a, ha, h⟩ := Option.bind_eq_some_iff.1 h
  obtain ⟨b, hb, h⟩ := Option.bind_eq_some_iff.1 h
  have hc : b.code ≠ 0 := fun hc => by rw [if_pos hc] at h; cases h
  rw [if_neg hc] at h
  cases h
  obtain ⟨f1, -, f3, f4⟩ := face_fold ha
  obtain ⟨e1, e2, e3, e4⟩ := edge_fold he hb
  have fs := faceTests_spec (p := X2.t - X1.t) (A := (1 / 2 : ℝ) • s1) (B := (1 / 2 : ℝ) • s2) (R1 := X1.R) (R2 := X2.R) h1 h2
  have es := edgeTests_spec (d := pad eps ((1 / 2 : ℝ) • s1) ((1 / 2 : ℝ) • s2)) (A := (1 / 2 : ℝ) • s1) (B := (1 / 2 : ℝ) • s2) hR
    (pp := X1.R.tr.mulVec (X2.t - X1.t))
  have fg : ∀ t ∈ faceTests X1.R X2.R (X1.R.tr.mul X2.R) (X2.t - X1.t) (X1.R.tr.mulVec (X2.t - X1.t)) ((1 / 2 : ℝ) • s1) ((1 / 2 : ℝ) • s2),
      |t.tmp| - t.rad = gap s1 X1 s2 X2 (faceAxis (rel X1 X2) t.code) := fun t ht => by
    obtain ⟨k1, k2, -⟩ := fs t ht
    rw [k1, k2]; rfl
  have eg : ∀ t ∈ edgeTests (pad eps ((1 / 2 : ℝ) • s1) ((1 / 2 : ℝ) • s2)) (X1.R.tr.mul X2.R) (X1.R.tr.mulVec (X2.t - X1.t)) ((1 / 2 : ℝ) • s1) ((1 / 2 : ℝ) • s2),
      |t.tmp| - t.rad = gap s1 X1 s2 X2 (edgeAxis (rel X1 X2) t.code) - pad eps (half s1) (half s2) * padded (half s1) (half s2) t.code := fun t ht => by
    obtain ⟨k1, k2, -⟩ := es t ht
    rw [k1, k2, gap, sub_sub]; rfl
  have nonpos : st.s ≤ 0 := by
    rcases e4 with e | ⟨t, ht, hl, -, e⟩
    · rcases f4 with k | ⟨t, ht, k⟩
      · exfalso; rw [e, k] at hc; exact hc rfl
      · rw [e, k]; exact f1 t ht
    · rw [e]; exact div_nonpos_of_nonpos_of_nonneg (e1 t ht) (nrm_nonneg _)
  refine ⟨nonpos, fun c c1 c6 => ?_, fun c c1 c6 => ?_, fun c c1 c6 hl => ?_, ?_⟩
  · obtain ⟨t, ht, rfl⟩ := faceTests_codes (R1 := X1.R) (R2 := X2.R) (R := X1.R.tr.mul X2.R) (p := X2.t - X1.t)
      (pp := X1.R.tr.mulVec (X2.t - X1.t)) (A := (1 / 2 : ℝ) • s1) (B := (1 / 2 : ℝ) • s2) c1 c6
    rw [← fg t ht]; exact (f3 t ht).trans e2
  · obtain ⟨t, ht, rfl⟩ := edgeTests_codes (d := pad eps ((1 / 2 : ℝ) • s1) ((1 / 2 : ℝ) • s2)) (R := X1.R.tr.mul X2.R)
      (pp := X1.R.tr.mulVec (X2.t - X1.t)) (A := (1 / 2 : ℝ) • s1) (B := (1 / 2 : ℝ) • s2) c1 c6
    have := e1 t ht
    rw [eg t ht] at this
    linarith
  · obtain ⟨t, ht, rfl⟩ := edgeTests_codes (d := pad eps ((1 / 2 : ℝ) • s1) ((1 / 2 : ℝ) • s2)) (R := X1.R.tr.mul X2.R)
      (pp := X1.R.tr.mulVec (X2.t - X1.t)) (A := (1 / 2 : ℝ) • s1) (B := (1 / 2 : ℝ) • s2) c1 c6
    have k := (es t ht).2.2.1
    have := e3 t ht (by rw [k]; exact hl)
    rw [eg t ht, k] at this
    exact this
  · rcases e4 with e | ⟨t, ht, hl, hg, e⟩
    · rcases f4 with k | ⟨t, ht, k⟩
      · exfalso; rw [e, k] at hc; exact hc rfl
      · left
        obtain ⟨k1, k2, k3, k4, k5⟩ := fs t ht
        rw [e, k]
        exact ⟨k4, k5, fg t ht, k3, by rw [k1]; rfl⟩
    · right
      obtain ⟨k1, k2, k3, k4, k5⟩ := es t ht
      rw [e]
      refine ⟨k4, k5, by rw [k3] at hl; exact hl, ?_, fun c c1 c6 => ?_, ?_, ?_⟩
      · show (|t.tmp| - t.rad) / t.axis.nrm = _
        rw [eg t ht, k3]
      · obtain ⟨u, hu, rfl⟩ := faceTests_codes (R1 := X1.R) (R2 := X2.R) (R := X1.R.tr.mul X2.R) (p := X2.t - X1.t)
          (pp := X1.R.tr.mulVec (X2.t - X1.t)) (A := (1 / 2 : ℝ) • s1) (B := (1 / 2 : ℝ) • s2) c1 c6
        rw [← fg u hu]; exact (f3 u hu).trans_lt hg
      · show X1.R.mulVec ((1 / t.axis.nrm) • t.axis) = _
        rw [k3]
      · rw [k1]; rfl

/-- The sides are not negative. -/
abbrev Sides (s : V3 ℝ) : Prop := (Geo.box s).WF

theorem half_nonneg {s : V3 ℝ} (h : Sides s) : 0 ≤ (half s).x ∧ 0 ≤ (half s).y ∧ 0 ≤ (half s).z := by
  obtain ⟨a, b, c⟩ := h
  simp only [half, smul_x, smul_y, smul_z]
  exact ⟨by linarith, by linarith, by linarith⟩

theorem pad_nonneg (he : 0 ≤ eps) (A B : V3 ℝ) : 0 ≤ pad eps A B := by
  have : (0 : ℝ) ≤ max (max (max (max A.x A.y) A.z) (max (max B.x B.y) B.z)) 1 := zero_le_one.trans (le_max_right _ _)
  rw [pad]; positivity

theorem padded_nonneg {A B : V3 ℝ} (hA : 0 ≤ A.x ∧ 0 ≤ A.y ∧ 0 ≤ A.z) (hB : 0 ≤ B.x ∧ 0 ≤ B.y ∧ 0 ≤ B.z) (c : ℕ) : 0 ≤ padded A B c := by
  have k : ∀ (V : V3 ℝ) (i : Fin 3), 0 ≤ V.x ∧ 0 ≤ V.y ∧ 0 ≤ V.z → 0 ≤ V.x + V.y + V.z - V.get i := fun V i h => by
    obtain ⟨a, b, c⟩ := h
    fin_cases i <;> simp [V3.get] <;> linarith
  exact add_nonneg (k A _ hA) (k B _ hB)

/-- A common point of the boxes, in the frame of the first. -/
theorem touch_iff (h1 : X1.Rigid) : Touch (Placed X1.R X1.t (Geo.box s1).pts) (Placed X2.R X2.t (Geo.box s2).pts) ↔
    ∃ x y : V3 ℝ, (|x.x| ≤ (half s1).x ∧ |x.y| ≤ (half s1).y ∧ |x.z| ≤ (half s1).z) ∧
      (|y.x| ≤ (half s2).x ∧ |y.y| ≤ (half s2).y ∧ |y.z| ≤ (half s2).z) ∧ x = (rel X1 X2).mulVec y + off X1 X2 := by
  have mem : ∀ (s x : V3 ℝ), x ∈ (Geo.box s).pts ↔ |x.x| ≤ (half s).x ∧ |x.y| ≤ (half s).y ∧ |x.z| ≤ (half s).z := by
    intro s x
    show (_ ∧ _ ∧ _) ↔ _
    simp only [half, smul_x, smul_y, smul_z, abs_le, one_div, ← div_eq_inv_mul]
  have eq : ∀ x y : V3 ℝ, X1.R.mulVec x + X1.t = X2.R.mulVec y + X2.t ↔ x = (rel X1 X2).mulVec y + off X1 X2 := by
    intro x y
    rw [rel, off, M3.mul_mulVec, ← M3.mulVec_add]
    constructor
    · intro h
      rw [← M3.Orthonormal.tr_mul h1 x]
      congr 1
      have : X1.R.mulVec x = X1.R.mulVec x + X1.t - X1.t := by v3
      rw [this, h]; v3
    · intro h
      rw [h, M3.Orthonormal.mul_tr h1]; v3
  constructor
  · rintro ⟨q, ⟨x, hx, ex⟩, y, hy, ey⟩
    exact ⟨x, y, (mem _ _).1 hx, (mem _ _).1 hy, (eq x y).1 (ex.symm.trans ey)⟩
  · rintro ⟨x, y, hx, hy, e⟩
    exact ⟨_, ⟨x, (mem _ _).2 hx, rfl⟩, y, (mem _ _).2 hy, (eq x y).2 e⟩

theorem gap_of_touch (h1 : X1.Rigid) (h : Touch (Placed X1.R X1.t (Geo.box s1).pts) (Placed X2.R X2.t (Geo.box s2).pts)) (n : V3 ℝ) :
    gap s1 X1 s2 X2 n ≤ 0 := by
  obtain ⟨x, y, hx, hy, e⟩ := (touch_iff h1).1 h
  exact sub_nonpos.2 (spread_of_meet hx hy e n)

theorem mem_axes {R : M3 ℝ} {n : V3 ℝ} (h : n ∈ axes R) : (∃ c, 1 ≤ c ∧ c ≤ 6 ∧ n = faceAxis R c) ∨ ∃ c, 7 ≤ c ∧ c ≤ 15 ∧ n = edgeAxis R c := by
  have e0 : (M3.one : M3 ℝ).col 0 = ⟨1, 0, 0⟩ := rfl
  have e1 : (M3.one : M3 ℝ).col 1 = ⟨0, 1, 0⟩ := rfl
  have e2 : (M3.one : M3 ℝ).col 2 = ⟨0, 0, 1⟩ := rfl
  simp only [axes, List.mem_cons, List.not_mem_nil, or_false] at h
  rcases h with h | h | h | h | h | h | h | h | h | h | h | h | h | h | h
  · exact Or.inl ⟨1, by norm_num, by norm_num, h⟩
  · exact Or.inl ⟨2, by norm_num, by norm_num, h⟩
  · exact Or.inl ⟨3, by norm_num, by norm_num, h⟩
  · exact Or.inl ⟨4, by norm_num, by norm_num, h⟩
  · exact Or.inl ⟨5, by norm_num, by norm_num, h⟩
  · exact Or.inl ⟨6, by norm_num, by norm_num, h⟩
  · exact Or.inr ⟨7, by norm_num, by norm_num, h⟩
  · exact Or.inr ⟨8, by norm_num, by norm_num, h⟩
  · exact Or.inr ⟨9, by norm_num, by norm_num, h⟩
  · exact Or.inr ⟨10, by norm_num, by norm_num, h⟩
  · exact Or.inr ⟨11, by norm_num, by norm_num, h⟩
  · exact Or.inr ⟨12, by norm_num, by norm_num, h⟩
  · exact Or.inr ⟨13, by norm_num, by norm_num, h⟩
  · exact Or.inr ⟨14, by norm_num, by norm_num, h⟩
  · exact Or.inr ⟨15, by norm_num, by norm_num, h⟩

/-- If none of the fifteen gaps is positive, the boxes touch. -/
theorem touch_of_gaps (h1 : X1.Rigid) (h2 : X2.Rigid) (w1 : Sides s1) (w2 : Sides s2)
    (hf : ∀ c, 1 ≤ c → c ≤ 6 → gap s1 X1 s2 X2 (faceAxis (rel X1 X2) c) ≤ 0)
    (hg : ∀ c, 7 ≤ c → c ≤ 15 → gap s1 X1 s2 X2 (edgeAxis (rel X1 X2) c) ≤ 0) :
    Touch (Placed X1.R X1.t (Geo.box s1).pts) (Placed X2.R X2.t (Geo.box s2).pts) := by
  refine (touch_iff h1).2 (meet_of_axes (rel_orthonormal h1 h2) (half_nonneg w1) (half_nonneg w2) fun n hn => ?_)
  rcases mem_axes hn with ⟨c, c1, c6, rfl⟩ | ⟨c, c1, c6, rfl⟩
  · exact sub_nonpos.1 (hf c c1 c6)
  · exact sub_nonpos.1 (hg c c1 c6)

theorem get_abs_le_one {R : M3 ℝ} (h : R.Orthonormal) (i j : Fin 3) : |R.get i j| ≤ 1 := by
  have := col_unit h j
  have k : |R.get i j| ≤ (R.col j).nrm := by
    refine abs_le_of_sq_le_sq ?_ (nrm_nonneg _)
    rw [sq, sq, nrm_mul_self]
    have := mul_self_nonneg (R.r0.get j)
    have := mul_self_nonneg (R.r1.get j)
    have := mul_self_nonneg (R.r2.get j)
    fin_cases i <;> simp [dot, M3.col, M3.get, M3.row] <;> linarith
  linarith

/-- If the function denies the collision, one of the fifteen tests has failed. -/
theorem sat_none_test (h1 : X1.Rigid) (h2 : X2.Rigid) (w1 : Sides s1) (w2 : Sides s2) (he : 0 ≤ eps)
    (hb : (half s1).x + (half s2).x + (half s2).y + (half s2).z < big) (h : sat eps big s1 X1 s2 X2 = none) :
    (∃ c, 1 ≤ c ∧ c ≤ 6 ∧ 0 < gap s1 X1 s2 X2 (faceAxis (rel X1 X2) c)) ∨
      ∃ c, 7 ≤ c ∧ c ≤ 15 ∧ pad eps (half s1) (half s2) * padded (half s1) (half s2) c < gap s1 X1 s2 X2 (edgeAxis (rel X1 X2) c) := by
  have hR := rel_orthonormal h1 h2
  have hA := half_nonneg w1
  have hB := half_nonneg w2
  rw [sat, Option.bind_eq_none_iff] at h
  rcases hf : (faceTests X1.R X2.R (X1.R.tr.mul X2.R) (X2.t - X1.t) (X1.R.tr.mulVec (X2.t - X1.t)) ((1 / 2 : ℝ) • s1) ((1 / 2 : ℝ) • s2)).foldlM face ⟨-big, 0, false, 0⟩ with _ | a
  · obtain ⟨t, ht, hp⟩ := face_fold_none.1 hf
    obtain ⟨k1, k2, -, k4, k5⟩ := faceTests_spec h1 h2 t ht
    rw [k1, k2] at hp
    exact Or.inl ⟨_, k4, k5, hp⟩
  · have h := h a hf
    rw [Option.bind_eq_none_iff] at h
    rcases hg : (edgeTests (pad eps ((1 / 2 : ℝ) • s1) ((1 / 2 : ℝ) • s2)) (X1.R.tr.mul X2.R) (X1.R.tr.mulVec (X2.t - X1.t)) ((1 / 2 : ℝ) • s1) ((1 / 2 : ℝ) • s2)).foldlM (edge eps X1.R) a with _ | b
    · obtain ⟨t, ht, hp⟩ := edge_fold_none.1 hg
      obtain ⟨k1, k2, -, k4, k5⟩ := edgeTests_spec hR t ht
      rw [k1, k2] at hp
      refine Or.inr ⟨t.code, k4, k5, ?_⟩
      have e : gap s1 X1 s2 X2 (edgeAxis (rel X1 X2) t.code) =
        |(X1.R.tr.mulVec (X2.t - X1.t)).dot (edgeAxis (X1.R.tr.mul X2.R) t.code)| - spread (edges (X1.R.tr.mul X2.R) ((1 / 2 : ℝ) • s1) ((1 / 2 : ℝ) • s2))
          (edgeAxis (X1.R.tr.mul X2.R) t.code) := rfl
      simp only [rel] at hp
      rw [e]
      simp only [half]
      linarith
    · exfalso
      have h := h b hg
      have hc : b.code = 0 := by by_contra hc; rw [if_neg hc] at h; cases h
      obtain ⟨-, -, f3, f4⟩ := face_fold hf
      have first := f3 _ (List.mem_cons_self ..)
      have e4 := (edge_fold he hg).2.2.2
      rcases e4 with e | ⟨t, ht, -, -, e⟩
      · rcases f4 with k | ⟨t, ht, k⟩
        · rw [k] at first
          dsimp only at first
          have q := get_abs_le_one hR
          have q0 := q 0 0
          have q1 := q 0 1
          have q2 := q 0 2
          have := abs_nonneg (X1.R.tr.mulVec (X2.t - X1.t)).x
          have m0 := mul_le_mul_of_nonneg_right q0 hB.1
          have m1 := mul_le_mul_of_nonneg_right q1 hB.2.1
          have m2 := mul_le_mul_of_nonneg_right q2 hB.2.2
          simp only [half, rel] at m0 m1 m2 hb
          linarith
        · rw [e, k] at hc
          have := (faceTests_spec h1 h2 t ht).2.2.2.1
          simp only at hc; omega
      · rw [e] at hc
        have := (edgeTests_spec hR t ht).2.2.2.1
        simp only at hc; omega

/-- If the function denies the collision, one of the fifteen gaps is positive. -/
theorem sat_none (h1 : X1.Rigid) (h2 : X2.Rigid) (w1 : Sides s1) (w2 : Sides s2) (he : 0 ≤ eps)
    (hb : (half s1).x + (half s2).x + (half s2).y + (half s2).z < big) (h : sat eps big s1 X1 s2 X2 = none) :
    ∃ n, 0 < gap s1 X1 s2 X2 n := by
  rcases sat_none_test h1 h2 w1 w2 he hb h with ⟨c, -, -, k⟩ | ⟨c, -, -, k⟩
  · exact ⟨_, k⟩
  · exact ⟨_, (mul_nonneg (pad_nonneg he _ _) (padded_nonneg (half_nonneg w1) (half_nonneg w2) c)).trans_lt k⟩

end BoxBox
end Fcl
