import Verif.OBB.Fit

/-!
# C45, C46, C65: oriented boxes

The specification (points of a box, well-formed directions) is in `Verif/OBB/Spec.lean`.
-/

namespace Fcl
namespace OBB

/-! ### C45: the disjointness test is sound -/

section
variable {K : Type*} [Field K] [LinearOrder K] [IsStrictOrderedRing K]

/-- **C45** for `obbDisjoint(B, T, a, b)`: if it answers `true`, the box of half sizes `a` at the origin
and the box of half sizes `b` rotated by `B` and placed at `T` share no point. -/
theorem C45_disjoint {B : M3 K} (hB : B.Orthonormal) {T a b : V3 K} (h : disjoint B T a b = true) :
    ∀ p, ¬ (p ∈ (⟨M3.one, 0, a⟩ : OBB K).pts ∧ p ∈ (⟨B, T, b⟩ : OBB K).pts) := by
  rintro p ⟨h1, h2⟩
  obtain ⟨x, hx0, hx1, hx2, ex⟩ := mem_pts_iff.1 h1
  obtain ⟨y, hy0, hy1, hy2, ey⟩ := mem_pts_iff.1 h2
  have e : x = B.mulVec y + T := by
    rw [← ey, ex]; apply V3.ext' <;> simp [M3.mulVec, M3.one, V3.dot]
  rw [not_disjoint hB ⟨hx0, hx1, hx2⟩ ⟨hy0, hy1, hy2⟩ e] at h
  cases h

/-- **C45** for `OBB::overlap`: boxes that share a point overlap. -/
theorem C45_overlap {b1 b2 : OBB K} (h1 : b1.WF) (h2 : b2.WF) {p : V3 K} (hp1 : p ∈ b1.pts) (hp2 : p ∈ b2.pts) :
    b1.overlap b2 = true := by
  obtain ⟨x, hx0, hx1, hx2, ex⟩ := mem_pts_iff.1 hp1
  obtain ⟨y, hy0, hy1, hy2, ey⟩ := mem_pts_iff.1 hp2
  rw [overlap]
  have hT : (⟨(b1.axis.col 0).dot (b2.To - b1.To), (b1.axis.col 1).dot (b2.To - b1.To),
      (b1.axis.col 2).dot (b2.To - b1.To)⟩ : V3 K) = b1.axis.tr.mulVec (b2.To - b1.To) := by
    simp only [M3.mulVec, M3.tr]
  simp only [hT]
  rw [not_disjoint (h1.tr.mul h2) ⟨hx0, hx1, hx2⟩ ⟨hy0, hy1, hy2⟩]; · rfl
  rw [M3.mul_mulVec, ← M3.mulVec_add, ← h1.tr_mul x]
  congr 1
  have : b1.axis.mulVec x + b1.To = b2.axis.mulVec y + b2.To := ex.symm.trans ey
  apply V3.ext' <;> [have := congrArg V3.x this; have := congrArg V3.y this; have := congrArg V3.z this] <;>
    simp at * <;> linarith

/-- **C45** for `overlap(R0, T0, b1, b2)`, the second box given in a frame that is rotated and moved. -/
theorem C45_overlapAt {R0 : M3 K} (hR : R0.Orthonormal) {T0 : V3 K} {b1 b2 : OBB K} (h1 : b1.WF) (h2 : b2.WF)
    {p q : V3 K} (hp : p ∈ b1.pts) (hq : q ∈ b2.pts) (e : p = R0.mulVec q + T0) : overlapAt R0 T0 b1 b2 = true := by
  obtain ⟨x, hx0, hx1, hx2, ex⟩ := mem_pts_iff.1 hp
  obtain ⟨y, hy0, hy1, hy2, ey⟩ := mem_pts_iff.1 hq
  rw [overlapAt]
  have hT : (⟨(R0.mulVec b2.To + T0 - b1.To).dot (b1.axis.col 0), (R0.mulVec b2.To + T0 - b1.To).dot (b1.axis.col 1),
      (R0.mulVec b2.To + T0 - b1.To).dot (b1.axis.col 2)⟩ : V3 K) = b1.axis.tr.mulVec (R0.mulVec b2.To + T0 - b1.To) :=
    (tr_mulVec _ _).symm
  simp only [hT]
  rw [not_disjoint (h1.tr.mul (hR.mul h2)) ⟨hx0, hx1, hx2⟩ ⟨hy0, hy1, hy2⟩]; · rfl
  rw [M3.mul_mulVec, ← M3.mulVec_add, ← h1.tr_mul x, M3.mul_mulVec]
  congr 1
  rw [ex, ey, M3.mulVec_add] at e
  apply V3.ext' <;> [have := congrArg V3.x e; have := congrArg V3.y e; have := congrArg V3.z e] <;>
    simp at * <;> linarith

/-- `OBB::contain` is exact. -/
theorem C45_contain {b : OBB K} (h : b.WF) (p : V3 K) : b.contain p = true ↔ p ∈ b.pts := by
  rw [mem_pts_local h, tr_mulVec]
  simp only [contain, abs_le]
  by_cases h0 : (p - b.To).dot (b.axis.col 0) > b.extent.x ∨ (p - b.To).dot (b.axis.col 0) < -b.extent.x
  · simp only [Bool.or_eq_true, decide_eq_true_eq, h0, if_true]
    simp only [Bool.false_eq_true, false_iff]
    rintro ⟨⟨h1, h2⟩, -⟩
    rcases h0 with h0 | h0 <;> linarith
  · simp only [Bool.or_eq_true, decide_eq_true_eq, h0, if_false]
    push Not at h0
    by_cases h1 : (p - b.To).dot (b.axis.col 1) > b.extent.y ∨ (p - b.To).dot (b.axis.col 1) < -b.extent.y
    · simp only [h1, if_true, Bool.false_eq_true, false_iff]
      rintro ⟨-, ⟨h2, h3⟩, -⟩
      rcases h1 with h1 | h1 <;> linarith
    · simp only [h1, if_false]
      push Not at h1
      by_cases h2 : (p - b.To).dot (b.axis.col 2) > b.extent.z ∨ (p - b.To).dot (b.axis.col 2) < -b.extent.z
      · simp only [h2, if_true, Bool.false_eq_true, false_iff]
        rintro ⟨-, -, h3, h4⟩
        rcases h2 with h2 | h2 <;> linarith
      · simp only [h2, if_false, true_iff]
        push Not at h2
        exact ⟨⟨h0.2, h0.1⟩, ⟨h1.2, h1.1⟩, h2.2, h2.1⟩

omit [IsStrictOrderedRing K] in
/-- Along the six face directions the test also detects disjointness, up to its tolerance: if the
centres are further apart along a direction of the first box than the two projections and the
tolerance allow, the answer is "disjoint". -/
theorem C45_detects {b1 b2 : OBB K} (j : Fin 3)
    (h : |(b1.axis.col j).dot (b2.To - b1.To)| > b1.extent.get j +
      ((|(b1.axis.col j).dot (b2.axis.col 0)| + 1/1000000) * b2.extent.x +
       (|(b1.axis.col j).dot (b2.axis.col 1)| + 1/1000000) * b2.extent.y +
       (|(b1.axis.col j).dot (b2.axis.col 2)| + 1/1000000) * b2.extent.z)) : b1.overlap b2 = false := by
  rw [overlap, Bool.not_eq_false', disjoint]
  simp only [Bool.or_eq_true, decide_eq_true_eq]
  have e : ∀ i k : Fin 3, (b1.axis.tr.mul b2.axis).get i k = (b1.axis.col i).dot (b2.axis.col k) := fun i k => by
    fin_cases i <;> fin_cases k <;> rfl
  simp only [e, reps]
  fin_cases j
  · exact Or.inl (Or.inl (Or.inl (Or.inl (Or.inl (Or.inl (Or.inl (Or.inl (Or.inl (Or.inl (Or.inl (Or.inl (Or.inl (Or.inl h)))))))))))))
  · exact Or.inl (Or.inl (Or.inl (Or.inl (Or.inl (Or.inl (Or.inl (Or.inl (Or.inl (Or.inl (Or.inl (Or.inl (Or.inr h))))))))))))
  · exact Or.inl (Or.inl (Or.inl (Or.inl (Or.inl (Or.inl (Or.inl (Or.inl (Or.inl (Or.inl (Or.inl (Or.inr h)))))))))))
end

/-- Two unit boxes, the second rotated by `(3,4)/5` about z: they touch. -/
example : (⟨M3.one, 0, ⟨1, 1, 1⟩⟩ : OBB ℚ).overlap ⟨⟨⟨3/5, -4/5, 0⟩, ⟨4/5, 3/5, 0⟩, ⟨0, 0, 1⟩⟩, ⟨2, 1, 0⟩, ⟨1, 1, 1⟩⟩ = true := by
  decide +kernel
example : (⟨M3.one, 0, ⟨1, 1, 1⟩⟩ : OBB ℚ).overlap ⟨⟨⟨3/5, -4/5, 0⟩, ⟨4/5, 3/5, 0⟩, ⟨0, 0, 1⟩⟩, ⟨5/2, 5/2, 0⟩, ⟨1, 1, 1⟩⟩ = false := by
  decide +kernel
example : (⟨⟨3/5, -4/5, 0⟩, ⟨4/5, 3/5, 0⟩, ⟨0, 0, 1⟩⟩ : M3 ℚ).Orthonormal := ⟨by decide +kernel, by decide +kernel⟩
/-- Only the test on the cross product of two edges separates these. -/
example : disjoint (⟨⟨3/5, 0, -4/5⟩, ⟨16/25, 3/5, 12/25⟩, ⟨12/25, -4/5, 9/25⟩⟩ : M3 ℚ) ⟨2, 2, 0⟩ ⟨1, 1, 1/100⟩ ⟨1/100, 1/100, 1⟩ = true := by
  decide +kernel

/-! ### C46: merging -/

/-- The two boxes lie in one plane. -/
def Flat (b1 b2 : OBB ℝ) : Prop := ∃ w : V3 ℝ, w ≠ 0 ∧ ∃ c, ∀ p, p ∈ b1.pts ∨ p ∈ b2.pts → p.dot w = c

/-- What `eigen_old` is meant to compute. -/
def EigenFn.Exact (eig : EigenFn ℝ) : Prop := ∀ m s E, m.tr = m → eig m = some (s, E) →
  E.Orthonormal ∧ ∀ j, m.mulVec (E.row j) = s.get j • E.row j

theorem eigenOld_Exact : EigenFn.Exact (Jacobi.eigenOld Jacobi.exactAbsorb) := fun _ _ _ hm h =>
  ⟨Jacobi.eigenOld_orthonormal h, Jacobi.eigenOld_exact hm h⟩

/-- Positive extents. -/
def Solid (b : OBB ℝ) : Prop := 0 < b.extent.x ∧ 0 < b.extent.y ∧ 0 < b.extent.z

theorem vertices_eq (b : OBB ℝ) {w : V3 ℝ} {c : ℝ} (h : ∀ v ∈ b.vertices, v.dot w = c) {p : V3 ℝ} (hp : p ∈ b.pts) :
    p.dot w = c :=
  le_antisymm (dot_le_of_vertices (fun v hv => (h v hv).le) hp) (le_dot_of_vertices (fun v hv => (h v hv).ge) hp)

theorem Solid.not_flat {b1 b2 : OBB ℝ} (hw : b1.WF) (h : Solid b1) : ¬ Flat b1 b2 := by
  rintro ⟨w, hw0, c, hc⟩
  obtain ⟨h0, h1, h2⟩ := h
  have hv : ∀ v ∈ b1.vertices, v.dot w = c := fun v hv => hc v (Or.inl (vertices_subset ⟨h0.le, h1.le, h2.le⟩ v hv))
  simp only [vertices, List.mem_cons, List.not_mem_nil, or_false, forall_eq_or_imp, forall_eq] at hv
  obtain ⟨v0, v1, v2, v3, v4, -⟩ := hv
  simp only [V3.sub_dot, V3.add_dot, V3.smul_dot] at v0 v1 v2 v3 v4
  have k0 : (b1.axis.col 0).dot w = 0 := by
    have : b1.extent.x * (b1.axis.col 0).dot w = 0 := by linarith
    exact (mul_eq_zero.1 this).resolve_left h0.ne'
  have k1 : (b1.axis.col 1).dot w = 0 := by
    have : b1.extent.y * (b1.axis.col 1).dot w = 0 := by linarith
    exact (mul_eq_zero.1 this).resolve_left h1.ne'
  have k2 : (b1.axis.col 2).dot w = 0 := by
    have : b1.extent.z * (b1.axis.col 2).dot w = 0 := by linarith
    exact (mul_eq_zero.1 this).resolve_left h2.ne'
  apply hw0
  rw [← hw.mul_tr w]
  have : b1.axis.tr.mulVec w = 0 := by
    apply V3.ext' <;> simpa [M3.mulVec, M3.tr]
  rw [this]
  apply V3.ext' <;> simp [M3.mulVec, V3.dot]

/-- **C46** for distant boxes (the branch of `operator+` that rotates the boxes to the line of centres):
unless both boxes lie in one plane, every point of both belongs to the sum. -/
theorem C46_far_partial (big : ℝ) {eig : EigenFn ℝ} (he : eig.Exact) {b1 b2 b : OBB ℝ} (hT : b1.To ≠ b2.To) (hf : ¬ Flat b1 b2)
    (h : mergeLarge big eig b1 b2 = some b) : b.WF ∧ b1.pts ⊆ b.pts ∧ b2.pts ⊆ b.pts := by
  rw [mergeLarge] at h
  have hu : (b1.To - b2.To).normalized.dot (b1.To - b2.To).normalized = 1 := by
    refine normalized_dot fun h0 => hT ?_
    apply V3.ext' <;> [have := congrArg V3.x h0; have := congrArg V3.y h0; have := congrArg V3.z h0] <;>
      simp at this <;> linarith
  generalize (b1.To - b2.To).normalized = u at *
  cases e : eig (covariance ((b1.vertices ++ b2.vertices).map fun v => v - (v.dot u) • u)) with
  | none => simp only [e] at h; cases h
  | some r =>
    obtain ⟨s, E⟩ := r
    simp only [e] at h
    obtain ⟨hE, hk⟩ := he _ _ _ (covariance_symm _) e
    have ho : (ofCols u (E.row (midMax s).2) (E.row (midMax s).1)).Orthonormal := by
      refine (large_axis (by simp [vertices]) hu hE hk).resolve_right ?_
      rintro ⟨w, hw, -, c, hc⟩
      refine hf ⟨w, hw, c, ?_⟩
      rintro p (hp | hp)
      · exact vertices_eq b1 (fun v hv => hc v (List.mem_append_left _ hv)) hp
      · exact vertices_eq b2 (fun v hv => hc v (List.mem_append_right _ hv)) hp
    rw [← Option.some.inj h]
    exact ⟨ho, fitAxis_box ho fun v hv => List.mem_append_left _ hv, fitAxis_box ho fun v hv => List.mem_append_right _ hv⟩

/-- The sum is far or near. -/
theorem add_cases {big : ℝ} {eig : EigenFn ℝ} {b1 b2 b : OBB ℝ} (n1 : 0 ≤ b1.extent.x) (n2 : 0 ≤ b2.extent.x)
    (h : add big eig b1 b2 = some b) :
    (b1.To ≠ b2.To ∧ mergeLarge big eig b1 b2 = some b) ∨ b = mergeSmall big b1 b2 := by
  rw [add] at h
  split at h
  · next hd =>
    refine Or.inl ⟨fun e => ?_, h⟩
    have h1 : 0 ≤ max (max b1.extent.x b1.extent.y) b1.extent.z := le_max_of_le_left (le_max_of_le_left n1)
    have h2 : 0 ≤ max (max b2.extent.x b2.extent.y) b2.extent.z := le_max_of_le_left (le_max_of_le_left n2)
    have : (b1.To - b2.To).nrm = 0 := by
      rw [e]
      have : b2.To - b2.To = 0 := by apply V3.ext' <;> simp
      rw [this, V3.nrm_zero]
    linarith
  · exact Or.inr (Option.some.inj h).symm

/-- **C46**, second operand: if one of the boxes is solid, every point of the second operand belongs to
the sum, and the directions of the sum are orthonormal. Missing: the first operand (false, see
`C46_violated_near`) and flat boxes (false, see `C46_violated_far`). -/
theorem C46_second_partial (big : ℝ) {eig : EigenFn ℝ} (he : eig.Exact) {b1 b2 b : OBB ℝ} (n1 : 0 ≤ b1.extent.x)
    (n2 : 0 ≤ b2.extent.x) (hf : ¬ Flat b1 b2) (h : add big eig b1 b2 = some b) : b.WF ∧ b2.pts ⊆ b.pts := by
  obtain ⟨hT, h⟩ | rfl := add_cases n1 n2 h
  · exact ⟨(C46_far_partial big he hT hf h).1, (C46_far_partial big he hT hf h).2.2⟩
  · exact ⟨mergedAxis_orthonormal _ _, mergeAlong_second (mergedAxis_orthonormal _ _) _ _⟩

/-- **C46**, both operands, for boxes with the same directions. -/
theorem C46_aligned_partial (big : ℝ) {eig : EigenFn ℝ} (he : eig.Exact) {b1 b2 b : OBB ℝ} (hw : b1.WF) (hd : b1.axis.det = 1)
    (hax : b2.axis = b1.axis) (n1 : 0 ≤ b1.extent.x ∧ 0 ≤ b1.extent.y ∧ 0 ≤ b1.extent.z)
    (n2 : 0 ≤ b2.extent.x) (hf : ¬ Flat b1 b2) (h : add big eig b1 b2 = some b) :
    b.WF ∧ b1.pts ⊆ b.pts ∧ b2.pts ⊆ b.pts := by
  obtain ⟨hT, h⟩ | rfl := add_cases n1.1 n2 h
  · exact C46_far_partial big he hT hf h
  · rw [mergeSmall, hax, mergedAxis_self hw hd]
    refine ⟨hw, mergeAlong_first hw _ _ fun j => ?_, mergeAlong_second hw _ _⟩
    obtain ⟨⟨⟨a1, b1', c1⟩, ⟨d1, e1, f1⟩, ⟨g1, k1, l1⟩⟩, To, ⟨x, y, z⟩⟩ := b1
    obtain ⟨⟨-, h4, h5, h6⟩, -⟩ := M3.Orthonormal.eqs hw
    simp only [M3.col, V3.dot, V3.get]
    fin_cases j
    · exact Or.inr (Or.inl (le_of_eq (by linear_combination y * h4)))
    · exact Or.inl (le_of_eq (by linear_combination x * h4))
    · exact Or.inl (le_of_eq (by linear_combination x * h5))

/-- **C46** for `operator+=(p)`: adding a point to a solid box keeps the box and gains the point. -/
theorem C46_point (big : ℝ) {eig : EigenFn ℝ} (he : eig.Exact) {b b' : OBB ℝ} (hw : b.WF) (hd : b.axis.det = 1)
    (hs : Solid b) (p : V3 ℝ) (h : addPoint big eig b p = some b') : b'.WF ∧ b.pts ⊆ b'.pts ∧ p ∈ b'.pts := by
  obtain ⟨h1, h2, h3⟩ := C46_aligned_partial big he (b2 := ⟨b.axis, p, 0⟩) hw hd rfl ⟨hs.1.le, hs.2.1.le, hs.2.2.le⟩ le_rfl
    (Solid.not_flat hw hs) h
  exact ⟨h1, h2, h3 ⟨0, by simp, by simp, by simp, by apply V3.ext' <;> simp⟩⟩

/-- **C46**, both operands, near boxes: enough that along each direction of the result one of the three
edges of the first box has a non-positive component. -/
theorem C46_near_partial (big : ℝ) (b1 b2 : OBB ℝ)
    (h : ∀ j : Fin 3, b1.extent.x * (b1.axis.col 0).dot ((mergedAxis b1.axis b2.axis).col j) ≤ 0 ∨
      b1.extent.y * (b1.axis.col 1).dot ((mergedAxis b1.axis b2.axis).col j) ≤ 0 ∨
      b1.extent.z * (b1.axis.col 2).dot ((mergedAxis b1.axis b2.axis).col j) ≤ 0) :
    b1.pts ⊆ (mergeSmall big b1 b2).pts ∧ b2.pts ⊆ (mergeSmall big b1 b2).pts :=
  ⟨mergeAlong_first (mergedAxis_orthonormal _ _) _ _ h, mergeAlong_second (mergedAxis_orthonormal _ _) _ _⟩

/-- The rotation of the quaternion `(4, 1, 2, -2) / 5`. -/
noncomputable def exR : M3 ℝ := ⟨⟨9/25, 20/25, 12/25⟩, ⟨-12/25, 15/25, -16/25⟩, ⟨-20/25, 0, 15/25⟩⟩

theorem exR_orthonormal : exR.Orthonormal := by
  apply M3.orthonormal_of_cols
  simp only [exR, M3.mul, M3.tr, M3.col, V3.get, V3.dot, M3.one, M3.mk.injEq, V3.mk.injEq]
  norm_num

theorem ofMat_exR : Quat.ofMat exR = ⟨4/5, 1/5, 2/5, -2/5⟩ := by
  have ht : Real.sqrt (9/25 + 15/25 + 15/25 + 1) = 8/5 := by
    rw [show (9/25 + 15/25 + 15/25 + 1 : ℝ) = 8/5 * (8/5) by norm_num, Real.sqrt_mul_self (by norm_num)]
  rw [Quat.ofMat, if_pos (by norm_num [exR, M3.get, M3.row, V3.get])]
  simp only [exR, M3.get, M3.row, V3.get]
  rw [ht, Quat.mk.injEq]
  norm_num

theorem ofMat_exR_tr : Quat.ofMat exR.tr = ⟨4/5, -1/5, -2/5, 2/5⟩ := by
  have ht : Real.sqrt (9/25 + 15/25 + 15/25 + 1) = 8/5 := by
    rw [show (9/25 + 15/25 + 15/25 + 1 : ℝ) = 8/5 * (8/5) by norm_num, Real.sqrt_mul_self (by norm_num)]
  rw [Quat.ofMat, if_pos (by norm_num [exR, M3.get, M3.row, M3.tr, M3.col, V3.get])]
  simp only [exR, M3.get, M3.row, M3.tr, M3.col, V3.get]
  rw [ht, Quat.mk.injEq]
  norm_num

theorem mergedAxis_exR : mergedAxis exR exR.tr = M3.one := by
  rw [mergedAxis, ofMat_exR, ofMat_exR_tr, if_neg (by norm_num [Quat.dot])]
  have ht : Real.sqrt (8/5 * (8/5)) = 8/5 := Real.sqrt_mul_self (by norm_num)
  have hd : (Quat.add ⟨4/5, 1/5, 2/5, -2/5⟩ ⟨4/5, -1/5, -2/5, 2/5⟩).dot (Quat.add ⟨4/5, 1/5, 2/5, -2/5⟩ ⟨4/5, -1/5, -2/5, 2/5⟩) =
      8/5 * (8/5) := by norm_num [Quat.add, Quat.dot]
  rw [Quat.normalize, hd, if_pos (by norm_num), ht]
  simp only [Quat.add, Quat.toMat, M3.one, M3.mk.injEq, V3.mk.injEq]
  norm_num

theorem hi {s : ℝ × ℝ} {d : ℝ} (h : d > s.2) : scanStep s d = (s.1, d) := by rw [scanStep, if_pos h]
theorem lo {s : ℝ × ℝ} {d : ℝ} (h : d ≤ s.2) (h' : d < s.1) : scanStep s d = (d, s.2) := by
  rw [scanStep, if_neg (not_lt.2 h), if_pos h']
theorem keep {s : ℝ × ℝ} {d : ℝ} (h : d ≤ s.2) (h' : s.1 ≤ d) : scanStep s d = s := by
  rw [scanStep, if_neg (not_lt.2 h), if_neg (not_lt.2 h')]

/-- **C46 is violated** for near boxes: two solid, well-formed boxes with the same centre; a corner of
the first lies outside the sum (`else if` in the scan of `merge_smalldist` skips the minimum while the
maximum is still growing). -/
theorem C46_violated_near (big : ℝ) (hb : 2 ≤ big) (eig : EigenFn ℝ) :
    ∃ b1 b2 b : OBB ℝ, b1.WF ∧ b2.WF ∧ Solid b1 ∧ Solid b2 ∧ add big eig b1 b2 = some b ∧ b.WF ∧ ∃ p, p ∈ b1.pts ∧ p ∉ b.pts := by
  refine ⟨⟨exR, 0, ⟨1, 1, 1⟩⟩, ⟨exR.tr, 0, ⟨1/100, 1/100, 1/100⟩⟩,
    mergeSmall big ⟨exR, 0, ⟨1, 1, 1⟩⟩ ⟨exR.tr, 0, ⟨1/100, 1/100, 1/100⟩⟩, exR_orthonormal, exR_orthonormal.tr, by norm_num [Solid],
    by norm_num [Solid], ?_, ?_, ⟨-41/25, 13/25, 5/25⟩, ?_, ?_⟩
  · rw [add, if_neg]
    have : (0 - 0 : V3 ℝ) = 0 := by apply V3.ext' <;> simp
    simp only [this, V3.nrm_zero]
    norm_num
  · exact mergedAxis_orthonormal _ _
  · exact ⟨⟨-1, -1, -1⟩, by norm_num, by norm_num, by norm_num, by
      apply V3.ext' <;> simp [exR, M3.col, V3.get] <;> norm_num⟩
  · rw [mergeSmall]
    simp only [mergedAxis_exR]
    intro hp
    have h := ((mem_pts_local (b := mergeAlong big M3.one ⟨exR, 0, ⟨1, 1, 1⟩⟩ ⟨exR.tr, 0, ⟨1/100, 1/100, 1/100⟩⟩)
      (show (M3.one : M3 ℝ).Orthonormal from M3.orthonormal_one)).1 hp).1
    have hs : scan big M3.one ((1/2 : ℝ) • (0 + 0)) (⟨exR, 0, ⟨1, 1, 1⟩⟩ : OBB ℝ).vertices
        (⟨exR.tr, 0, ⟨1/100, 1/100, 1/100⟩⟩ : OBB ℝ).vertices 0 = (-17/25, 41/25) := by
      simp only [scan, dots_vertices]
      simp only [List.foldl_cons, List.foldl_nil, exR, M3.one, M3.col, M3.tr, V3.get, V3.dot, V3.sub_x, V3.sub_y, V3.sub_z,
        V3.smul_x, V3.smul_y, V3.smul_z, V3.add_x, V3.add_y, V3.add_z, V3.zero_x, V3.zero_y, V3.zero_z]
      norm_num
      rw [show scanStep ((big, -big) : ℝ × ℝ) (-(41/25)) = (big, -(41/25)) from hi (by simp; linarith),
        show scanStep ((big, -(41/25)) : ℝ × ℝ) (-(23/25)) = (big, -(23/25)) from hi (by norm_num),
        show scanStep ((big, -(23/25)) : ℝ × ℝ) (17/25) = (big, 17/25) from hi (by norm_num),
        show scanStep ((big, 17/25) : ℝ × ℝ) (-(1/25)) = (-(1/25), 17/25) from lo (by norm_num) (by simp; linarith),
        show scanStep ((-(1/25), 17/25) : ℝ × ℝ) (-(17/25)) = (-(17/25), 17/25) from lo (by norm_num) (by norm_num),
        show scanStep ((-(17/25), 17/25) : ℝ × ℝ) (1/25) = (-(17/25), 17/25) from keep (by norm_num) (by norm_num),
        show scanStep ((-(17/25), 17/25) : ℝ × ℝ) (41/25) = (-(17/25), 41/25) from hi (by norm_num)]
      have k : ∀ d : ℝ, d ≤ 41/25 → -(17/25) ≤ d → scanStep ((-(17/25), 41/25) : ℝ × ℝ) d = (-(17/25), 41/25) := fun d a b => keep a b
      rw [k (23/25) (by norm_num) (by norm_num), k (23/2500) (by norm_num) (by norm_num), k (41/2500) (by norm_num) (by norm_num),
        k (17/2500) (by norm_num) (by norm_num), k (-(1/2500)) (by norm_num) (by norm_num), k (-(17/2500)) (by norm_num) (by norm_num),
        k (1/2500) (by norm_num) (by norm_num), k (-(23/2500)) (by norm_num) (by norm_num), k (-(41/2500)) (by norm_num) (by norm_num)]
    simp only [mergeAlong, hs] at h
    simp [M3.mulVec, M3.tr, M3.one, M3.col, V3.get, V3.dot] at h
    norm_num [abs_le] at h

theorem boundFold_ge {lo hi : ℝ} : ∀ (l : List ℝ) (s : ℝ × ℝ), (lo ≤ s.1 ∧ s.2 ≤ hi) → (∀ d ∈ l, lo ≤ d ∧ d ≤ hi) →
    lo ≤ (l.foldl boundStep s).1 ∧ (l.foldl boundStep s).2 ≤ hi
  | [], s, h, _ => h
  | d :: l, s, h, hd => by
    refine boundFold_ge l (boundStep s d) ?_ fun e he => hd e (List.mem_cons_of_mem _ he)
    have := hd d List.mem_cons_self
    simp only [boundStep]
    constructor <;> split <;> tauto

/-- The bounds are the least and the greatest projection. -/
theorem bounds_eq {big lo hi : ℝ} {u : V3 ℝ} {ps : List (V3 ℝ)} (hl : lo ≤ big) (hh : -hi ≤ big)
    (h : ∀ p ∈ ps, lo ≤ p.dot u ∧ p.dot u ≤ hi) (h1 : ∃ p ∈ ps, p.dot u = lo) (h2 : ∃ p ∈ ps, p.dot u = hi) :
    bounds big u ps = (lo, hi) := by
  have k := boundFold_ge (ps.map fun p => u.dot p) (big, -big) ⟨hl, by show -big ≤ hi; linarith⟩ (fun d hd => by
    obtain ⟨p, hp, rfl⟩ := List.mem_map.1 hd
    rw [V3.dot_comm]; exact h p hp)
  obtain ⟨p, hp, e1⟩ := h1
  obtain ⟨q, hq, e2⟩ := h2
  have a := (bounds_spec (big := big) (u := u) hp).1
  have b := (bounds_spec (big := big) (u := u) hq).2
  rw [e1] at a; rw [e2] at b
  exact Prod.ext (le_antisymm a k.1) (le_antisymm k.2 b)

/-- The sum computed for two parallel segments. -/
theorem far_example {big : ℝ} (hb : 20 ≤ big) (absorb : ℝ → ℝ → Bool) :
    add big (Jacobi.eigenOld absorb) ⟨M3.one, 0, ⟨1, 0, 0⟩⟩ ⟨M3.one, ⟨0, 0, 10⟩, ⟨1, 0, 0⟩⟩ =
      some ⟨⟨⟨0, 1, 0⟩, ⟨0, 0, 0⟩, ⟨-1, 0, 1⟩⟩, ⟨0, 0, 10⟩, ⟨5, 1, 5⟩⟩ := by
  have hsub : (0 - ⟨0, 0, 10⟩ : V3 ℝ) = ⟨0, 0, -10⟩ := by apply V3.ext' <;> simp
  have hn : (⟨0, 0, -10⟩ : V3 ℝ).nrm = 10 := V3.nrm_unique (by norm_num) (by norm_num [V3.dot])
  have hu : (⟨0, 0, -10⟩ : V3 ℝ).normalized = ⟨0, 0, -1⟩ := by
    rw [V3.normalized, if_neg (by rw [hn]; norm_num), hn]
    apply V3.ext' <;> simp
  rw [add, hsub, hn, if_pos (by norm_num), mergeLarge]
  obtain ⟨vs, hvs⟩ : ∃ vs, (⟨M3.one, 0, ⟨1, 0, 0⟩⟩ : OBB ℝ).vertices ++ (⟨M3.one, ⟨0, 0, 10⟩, ⟨1, 0, 0⟩⟩ : OBB ℝ).vertices = vs := ⟨_, rfl⟩
  have hv : vs = [⟨-1, 0, 0⟩, ⟨1, 0, 0⟩, ⟨1, 0, 0⟩, ⟨-1, 0, 0⟩, ⟨-1, 0, 0⟩, ⟨1, 0, 0⟩, ⟨1, 0, 0⟩, ⟨-1, 0, 0⟩,
      ⟨-1, 0, 10⟩, ⟨1, 0, 10⟩, ⟨1, 0, 10⟩, ⟨-1, 0, 10⟩, ⟨-1, 0, 10⟩, ⟨1, 0, 10⟩, ⟨1, 0, 10⟩, ⟨-1, 0, 10⟩] := by
    rw [← hvs]
    simp only [vertices, List.cons_append, List.nil_append, List.cons.injEq, and_true]
    refine ⟨?_, ?_, ?_, ?_, ?_, ?_, ?_, ?_, ?_, ?_, ?_, ?_, ?_, ?_, ?_, ?_⟩ <;> apply V3.ext' <;> simp [M3.one, M3.col, V3.get]
  have hc : covariance (vs.map fun v => v - (v.dot ⟨0, 0, -1⟩) • (⟨0, 0, -1⟩ : V3 ℝ)) = ⟨⟨16, 0, 0⟩, ⟨0, 0, 0⟩, ⟨0, 0, 0⟩⟩ := by
    rw [hv, covariance]
    simp only [List.map_cons, List.map_nil, List.foldl_cons, List.foldl_nil, V3.sub_x, V3.sub_y, V3.sub_z, V3.smul_x, V3.smul_y,
      V3.smul_z, V3.dot, List.length_cons, List.length_nil, M3.mk.injEq, V3.mk.injEq]
    norm_num
  simp only [hsub, hu, hvs, hc]
  rw [Jacobi.eigenOld_diag absorb ⟨16, 0, 0⟩]
  have hm : midMax (⟨16, 0, 0⟩ : V3 ℝ) = (2, 0) := by
    rw [midMax]; norm_num [V3.get]
  simp only [hm, M3.one, M3.row, ofCols, fitAxis]
  have b0 : bounds big (⟨0, 0, -1⟩ : V3 ℝ) vs = (-10, 0) := by
    apply bounds_eq (by linarith) (by linarith) <;> rw [hv] <;> norm_num [V3.dot]
  have b1 : bounds big (⟨1, 0, 0⟩ : V3 ℝ) vs = (-1, 1) := by
    apply bounds_eq (by linarith) (by linarith) <;> rw [hv] <;> norm_num [V3.dot]
  have b2 : bounds big (⟨0, 0, 1⟩ : V3 ℝ) vs = (0, 10) := by
    apply bounds_eq (by linarith) (by linarith) <;> rw [hv] <;> norm_num [V3.dot]
  simp only [M3.col, V3.get, b0, b1, b2]
  simp only [Option.some.injEq, OBB.mk.injEq, M3.mulVec, V3.dot, V3.mk.injEq]
  norm_num

/-- **C46 is violated** for distant flat boxes: the sum of two parallel segments has dependent directions;
it reports that it does not contain a point of its first operand and does not overlap a box around it. -/
theorem C46_violated_far {big : ℝ} (hb : 20 ≤ big) (absorb : ℝ → ℝ → Bool) :
    ∃ b1 b2 b b3 : OBB ℝ, b1.WF ∧ b2.WF ∧ add big (Jacobi.eigenOld absorb) b1 b2 = some b ∧ ¬ b.WF ∧
      ∃ p, p ∈ b1.pts ∧ b.contain p = false ∧ b3.WF ∧ p ∈ b3.pts ∧ b.overlap b3 = false := by
  refine ⟨_, _, _, ⟨M3.one, 0, ⟨1, 1, 1⟩⟩, ?_, ?_, far_example hb absorb, ?_, 0, ?_, ?_, ?_, ?_, ?_⟩
  · exact M3.orthonormal_one
  · exact M3.orthonormal_one
  · intro h
    obtain ⟨⟨-, -, h1, -⟩, -⟩ := M3.Orthonormal.eqs h
    norm_num at h1
  · exact ⟨0, by simp, by simp, by simp, by apply V3.ext' <;> simp⟩
  · rw [contain]; norm_num [M3.col, V3.dot, V3.get]
  · exact M3.orthonormal_one
  · exact ⟨0, by simp, by simp, by simp, by apply V3.ext' <;> simp⟩
  · rw [overlap, Bool.not_eq_false', disjoint]
    simp only [Bool.or_eq_true, decide_eq_true_eq]
    exact Or.inl (Or.inl (Or.inl (Or.inl (Or.inl (Or.inl (Or.inl (Or.inl (Or.inl (Or.inl (Or.inl (Or.inl (Or.inl (Or.inl (by
      norm_num [M3.col, V3.dot, V3.get, M3.tr, M3.mul, M3.get, M3.row, M3.one, reps]))))))))))))))

/-! ### C65: fitting -/

/-- **C65** for one point, two different points and three points not on a line: the fitted box is well formed
and contains them. -/
theorem C65_fit1 (p : V3 ℝ) : (fit1 p).WF ∧ p ∈ (fit1 p).pts :=
  ⟨M3.orthonormal_one, ⟨0, by simp [fit1], by simp [fit1], by simp [fit1], by apply V3.ext' <;> simp [fit1]⟩⟩

theorem C65_fit2 {prec : ℝ} {p1 p2 : V3 ℝ} (h : p1 ≠ p2) {b : OBB ℝ} (hb : fit2 prec p1 p2 = some b) :
    b.WF ∧ p1 ∈ b.pts ∧ p2 ∈ b.pts := fit2_points h hb

/-- Two points are fitted exactly when they are different; otherwise the code divides by zero. -/
theorem C65_fit2_total {prec : ℝ} (hp : 0 ≤ prec) (p1 p2 : V3 ℝ) : (∃ b, fit2 prec p1 p2 = some b) ↔ p1 ≠ p2 := by
  constructor
  · rintro ⟨b, hb⟩ rfl
    have e : p1 - p1 = 0 := by apply V3.ext' <;> simp
    have : coordinateSystem prec (p1 - p1) = none := by
      rw [e, coordinateSystem]
      have h0 : (0 : V3 ℝ).normalized = 0 := by rw [V3.normalized, if_pos V3.nrm_zero]
      have : unitOrthogonal prec (0 : V3 ℝ) = none := by
        rw [unitOrthogonal]; simp
      simp only [h0, this]
    rw [fit2] at hb
    simp only [this] at hb
    cases hb
  · intro h
    have hv : p1 - p2 ≠ 0 := fun h0 => h (by
      apply V3.ext' <;> [have := congrArg V3.x h0; have := congrArg V3.y h0; have := congrArg V3.z h0] <;>
        simp at this <;> linarith)
    have hn : (p1 - p2).normalized ≠ 0 := fun h0 => by
      have := normalized_dot hv
      rw [h0] at this; simp [V3.dot] at this
    obtain ⟨w, hw⟩ := unitOrthogonal_isSome hp hn
    rw [fit2, coordinateSystem]
    simp only [hw]
    exact ⟨_, rfl⟩

theorem C65_fit3 (big : ℝ) {p1 p2 p3 : V3 ℝ} (h : (p1 - p2).cross (p2 - p3) ≠ 0) :
    (fit3 big p1 p2 p3).WF ∧ ∀ p ∈ [p1, p2, p3], p ∈ (fit3 big p1 p2 p3).pts :=
  ⟨axes3_orthonormal h, fun _ hp => fitAxis_points (axes3_orthonormal h) hp⟩

/-- **C65** for any number of points by `fitn`, and for the nodes of an OBB hierarchy (`FitImpl<S, OBB<S>>`),
whatever `eigen_old` deems negligible. -/
theorem C65_fitn (big : ℝ) (absorb : ℝ → ℝ → Bool) {ps : List (V3 ℝ)} {b : OBB ℝ}
    (h : fitn big (Jacobi.eigenOld absorb) ps = some b) : b.WF ∧ ∀ p ∈ ps, p ∈ b.pts := by
  rw [fitn] at h
  cases e : Jacobi.eigenOld absorb (covariance ps) with
  | none => simp only [e] at h; cases h
  | some r =>
    obtain ⟨s, E⟩ := r
    simp only [e] at h
    have ho := axisFromEigen_orthonormal (Jacobi.eigenOld_orthonormal e) s
    rw [← Option.some.inj h]
    exact ⟨ho, fun p hp => fitAxis_points ho hp⟩

/-- **C65** for six points, the last three: two triangles not in one plane. -/
theorem C65_fit6_partial (big : ℝ) {eig : EigenFn ℝ} (he : eig.Exact) {p1 p2 p3 p4 p5 p6 : V3 ℝ}
    (h1 : (p1 - p2).cross (p2 - p3) ≠ 0) (h2 : (p4 - p5).cross (p5 - p6) ≠ 0)
    (hf : ¬ ∃ w : V3 ℝ, w ≠ 0 ∧ ∃ c, ∀ p ∈ [p1, p2, p3, p4, p5, p6], p.dot w = c) {b : OBB ℝ}
    (h : fit6 big eig p1 p2 p3 p4 p5 p6 = some b) : b.WF ∧ ∀ p ∈ [p4, p5, p6], p ∈ b.pts := by
  obtain ⟨w1, m1⟩ := C65_fit3 big h1
  obtain ⟨w2, m2⟩ := C65_fit3 big h2
  have n : ∀ {q1 q2 q3 : V3 ℝ}, (∀ p ∈ [q1, q2, q3], p ∈ (fit3 big q1 q2 q3).pts) → 0 ≤ (fit3 big q1 q2 q3).extent.x := fun hm => by
    obtain ⟨y, h0, -⟩ := hm _ List.mem_cons_self
    exact (abs_nonneg _).trans h0
  have hf' : ¬ Flat (fit3 big p1 p2 p3) (fit3 big p4 p5 p6) := by
    rintro ⟨w, hw, c, hc⟩
    refine hf ⟨w, hw, c, fun p hp => ?_⟩
    simp only [List.mem_cons, List.not_mem_nil, or_false] at hp
    simp only [List.mem_cons, List.not_mem_nil, or_false] at m1 m2
    apply hc
    rcases hp with h | h | h | h | h | h
    · exact Or.inl (m1 p (Or.inl h))
    · exact Or.inl (m1 p (Or.inr (Or.inl h)))
    · exact Or.inl (m1 p (Or.inr (Or.inr h)))
    · exact Or.inr (m2 p (Or.inl h))
    · exact Or.inr (m2 p (Or.inr (Or.inl h)))
    · exact Or.inr (m2 p (Or.inr (Or.inr h)))
  obtain ⟨hw, hs⟩ := C46_second_partial big he (n m1) (n m2) hf' h
  exact ⟨hw, fun p hp => hs (m2 p hp)⟩

/-- **C65** for `fit(ps, n, box)`, all `n` but six: degenerate pairs and triples excepted. Missing: `n = 6`,
where the boxes of two triangles are merged (`C46_near_partial`, `C46_far_partial`), and collinear triples,
for which the claim is false (`C65_violated`). -/
theorem C65_fit_partial (big prec : ℝ) (absorb : ℝ → ℝ → Bool) {ps : List (V3 ℝ)} (h6 : ps.length ≠ 6)
    (h2 : ∀ p1 p2, ps = [p1, p2] → p1 ≠ p2) (h3 : ∀ p1 p2 p3, ps = [p1, p2, p3] → (p1 - p2).cross (p2 - p3) ≠ 0)
    {b : OBB ℝ} (h : fit big prec (Jacobi.eigenOld absorb) ps = some b) : b.WF ∧ ∀ p ∈ ps, p ∈ b.pts := by
  rw [fit.eq_def] at h
  split at h
  · next p =>
    rw [← Option.some.inj h]
    exact ⟨(C65_fit1 p).1, fun q hq => by rw [List.mem_singleton.1 hq]; exact (C65_fit1 p).2⟩
  · next p1 p2 =>
    obtain ⟨k1, k2, k3⟩ := C65_fit2 (h2 p1 p2 rfl) h
    refine ⟨k1, fun q hq => ?_⟩
    simp only [List.mem_cons, List.not_mem_nil, or_false] at hq
    rcases hq with rfl | rfl
    · exact k2
    · exact k3
  · next p1 p2 p3 =>
    rw [← Option.some.inj h]
    exact C65_fit3 big (h3 p1 p2 p3 rfl)
  · exact absurd rfl h6
  · exact C65_fitn big absorb h

/-- Four points whose covariance is diagonal. -/
example (big prec : ℝ) (absorb : ℝ → ℝ → Bool) : ∃ b, fit big prec (Jacobi.eigenOld absorb)
    [⟨2, 0, 0⟩, ⟨-2, 0, 0⟩, ⟨0, 1, 0⟩, ⟨0, -1, 0⟩] = some b := by
  have hc : covariance ([⟨2, 0, 0⟩, ⟨-2, 0, 0⟩, ⟨0, 1, 0⟩, ⟨0, -1, 0⟩] : List (V3 ℝ)) = ⟨⟨8, 0, 0⟩, ⟨0, 2, 0⟩, ⟨0, 0, 0⟩⟩ := by
    rw [covariance]
    simp only [List.map_cons, List.map_nil, List.foldl_cons, List.foldl_nil, List.length_cons, List.length_nil, M3.mk.injEq, V3.mk.injEq]
    norm_num
  simp only [fit, fitn, hc]
  rw [Jacobi.eigenOld_diag absorb ⟨8, 2, 0⟩]
  exact ⟨_, rfl⟩

example : ((⟨0, 0, 0⟩ : V3 ℝ) - ⟨1, 0, 0⟩).cross (⟨1, 0, 0⟩ - ⟨0, 1, 0⟩) ≠ 0 := fun h => by
  have := congrArg V3.z h
  norm_num [V3.cross] at this

/-- The box fitted to three points of the line `y = 5` is a segment of the line `y = 0`. -/
theorem fit3_collinear {big : ℝ} (hb : 10 ≤ big) : fit3 big ⟨0, 5, 0⟩ ⟨1, 5, 0⟩ ⟨2, 5, 0⟩ =
    ⟨⟨⟨1, 0, 0⟩, ⟨0, 0, 0⟩, ⟨0, 0, 0⟩⟩, ⟨1, 0, 0⟩, ⟨1, 0, 0⟩⟩ := by
  have hx : axes3 ⟨0, 5, 0⟩ ⟨1, 5, 0⟩ ⟨2, 5, 0⟩ = ⟨⟨1, 0, 0⟩, ⟨0, 0, 0⟩, ⟨0, 0, 0⟩⟩ := by
    have e0 : (⟨0, 5, 0⟩ - ⟨1, 5, 0⟩ : V3 ℝ) = ⟨-1, 0, 0⟩ := by apply V3.ext' <;> norm_num
    have e1 : (⟨1, 5, 0⟩ - ⟨2, 5, 0⟩ : V3 ℝ) = ⟨-1, 0, 0⟩ := by apply V3.ext' <;> norm_num
    have e2 : (⟨2, 5, 0⟩ - ⟨0, 5, 0⟩ : V3 ℝ) = ⟨2, 0, 0⟩ := by apply V3.ext' <;> norm_num
    have hc : (⟨-1, 0, 0⟩ : V3 ℝ).cross ⟨-1, 0, 0⟩ = 0 := by apply V3.ext' <;> norm_num [V3.cross]
    have hz : (0 : V3 ℝ).normalized = 0 := by rw [V3.normalized, if_pos V3.nrm_zero]
    have hn : (⟨2, 0, 0⟩ : V3 ℝ).nrm = 2 := V3.nrm_unique (by norm_num) (by norm_num [V3.dot])
    have h2 : (⟨2, 0, 0⟩ : V3 ℝ).normalized = ⟨1, 0, 0⟩ := by
      rw [V3.normalized, if_neg (by rw [hn]; norm_num), hn]; apply V3.ext' <;> norm_num
    rw [axes3, e0, e1, e2]
    simp only [hc, hz]
    rw [if_pos (by norm_num [V3.dot]), h2]
    norm_num [ofCols, V3.cross]
  rw [fit3, hx, fitAxis]
  have b0 : bounds big (⟨1, 0, 0⟩ : V3 ℝ) [⟨0, 5, 0⟩, ⟨1, 5, 0⟩, ⟨2, 5, 0⟩] = (0, 2) := by
    apply bounds_eq (by linarith) (by linarith) <;> norm_num [V3.dot]
  have b1 : bounds big (⟨0, 0, 0⟩ : V3 ℝ) [⟨0, 5, 0⟩, ⟨1, 5, 0⟩, ⟨2, 5, 0⟩] = (0, 0) := by
    apply bounds_eq (by linarith) (by linarith) <;> norm_num [V3.dot]
  simp only [M3.col, V3.get, b0, b1]
  simp only [OBB.mk.injEq, M3.mulVec, V3.dot, V3.mk.injEq]
  norm_num

/-- **C65 is violated** for three different points on a line: two of the directions are zero vectors, the
centre is computed from projections on them, and the box does not overlap a box around the middle point. -/
theorem C65_violated {big : ℝ} (hb : 10 ≤ big) (prec : ℝ) (eig : EigenFn ℝ) :
    ∃ p1 p2 p3 : V3 ℝ, p1 ≠ p2 ∧ p2 ≠ p3 ∧ p1 ≠ p3 ∧ ∃ b, fit big prec eig [p1, p2, p3] = some b ∧ p2 ∉ b.pts ∧
      ∃ b' : OBB ℝ, b'.WF ∧ p2 ∈ b'.pts ∧ b'.overlap b = false := by
  refine ⟨⟨0, 5, 0⟩, ⟨1, 5, 0⟩, ⟨2, 5, 0⟩, by simp, by simp, by simp, _, by rw [fit, fit3_collinear hb], ?_,
    ⟨M3.one, ⟨1, 5, 0⟩, ⟨1, 1, 1⟩⟩, M3.orthonormal_one, ?_, ?_⟩
  · rintro ⟨y, -, -, -, e⟩
    have := congrArg V3.y e
    norm_num [M3.col, V3.get] at this
  · exact ⟨0, by simp, by simp, by simp, by apply V3.ext' <;> simp⟩
  · rw [overlap, Bool.not_eq_false', disjoint]
    simp only [Bool.or_eq_true, decide_eq_true_eq]
    exact Or.inl (Or.inl (Or.inl (Or.inl (Or.inl (Or.inl (Or.inl (Or.inl (Or.inl (Or.inl (Or.inl (Or.inl (Or.inr (by
      norm_num [M3.col, V3.dot, V3.get, M3.tr, M3.mul, M3.get, M3.row, M3.one, reps])))))))))))))

/-! ### The hypotheses of C46 are met -/

/-- A solid box and a distant point: eigenvectors exist and the sum is defined. -/
example : Solid ⟨M3.one, 0, ⟨3, 2, 1⟩⟩ ∧ (⟨M3.one, 0, ⟨3, 2, 1⟩⟩ : OBB ℝ).WF ∧ (⟨M3.one, 0, ⟨3, 2, 1⟩⟩ : OBB ℝ).axis.det = 1 :=
  ⟨by norm_num [Solid], M3.orthonormal_one, by norm_num [M3.det, M3.one, M3.col, V3.get, V3.dot, V3.cross]⟩
example (big : ℝ) (eig : EigenFn ℝ) : ∃ b, addPoint big eig ⟨M3.one, 0, ⟨3, 2, 1⟩⟩ ⟨4, 0, 0⟩ = some b := by
  have hsub : (0 - ⟨4, 0, 0⟩ : V3 ℝ) = ⟨-4, 0, 0⟩ := by apply V3.ext' <;> simp
  have hn : (⟨-4, 0, 0⟩ : V3 ℝ).nrm = 4 := V3.nrm_unique (by norm_num) (by norm_num [V3.dot])
  rw [addPoint, add, hsub, hn, if_neg (by norm_num)]
  exact ⟨_, rfl⟩

end OBB
end Fcl
