import Verif.OBB.LargeDist

/-!
# Model of the functions that fit an oriented box to points

`OBB_fit_functions` and `Fitter<S, OBB<S>>` (`include/fcl/math/bv/utility-inl.h:60-150, 556-583`) and
`FitImpl<S, OBB<S>>` (`include/fcl/geometry/bvh/detail/BV_fitter-inl.h:292-321`).
-/

namespace Fcl
namespace OBB

/-- Eigen's `unitOrthogonal()` of a 3-vector. `prec` is the precision of `isMuchSmallerThan(x, z)`,
`|x| ≤ |z| * prec`. `none`: division by a zero norm. -/
noncomputable def unitOrthogonal (prec : ℝ) (v : V3 ℝ) : Option (V3 ℝ) :=
  if ¬ |v.x| ≤ |v.z| * prec ∨ ¬ |v.y| ≤ |v.z| * prec then
    let n := Real.sqrt (v.x * v.x + v.y * v.y)
    if n = 0 then none else some ⟨-v.y / n, v.x / n, 0⟩
  else
    let n := Real.sqrt (v.y * v.y + v.z * v.z)
    if n = 0 then none else some ⟨0, -v.z / n, v.y / n⟩

/-- `generateCoordinateSystem(x_axis)`, `include/fcl/math/geometry-inl.h:645-654`. -/
noncomputable def coordinateSystem (prec : ℝ) (x_axis : V3 ℝ) : Option (M3 ℝ) :=
  let c0 := x_axis.normalized
  match unitOrthogonal prec c0 with
  | none => none
  | some c1 => some (ofCols c0 c1 (c0.cross c1).normalized)

/-- `fit1`, `utility-inl.h:64-71`. -/
noncomputable def fit1 (p : V3 ℝ) : OBB ℝ := ⟨M3.one, p, 0⟩

/-- `fit2`, `utility-inl.h:74-88`. -/
noncomputable def fit2 (prec : ℝ) (p1 p2 : V3 ℝ) : Option (OBB ℝ) :=
  let p1p2 := p1 - p2
  let len := p1p2.nrm
  match coordinateSystem prec p1p2 with
  | none => none
  | some axis => some ⟨axis, (1/2 : ℝ) • (p1 + p2), ⟨len * (1/2), 0, 0⟩⟩

/-- The axes of `fit3`, `utility-inl.h:96-117`; also of `RSS` and `kIOS` (`220-262`, `393-425`). -/
noncomputable def axes3 (p1 p2 p3 : V3 ℝ) : M3 ℝ :=
  let e0 := p1 - p2
  let e1 := p2 - p3
  let e2 := p3 - p1
  let l0 := e0.dot e0
  let l1 := e1.dot e1
  let l2 := e2.dot e2
  let emax := if l2 > (if l1 > l0 then l1 else l0) then e2 else if l1 > l0 then e1 else e0
  let c2 := (e0.cross e1).normalized
  let c0 := emax.normalized
  ofCols c0 (c2.cross c0) c2

/-- `fit3`, `utility-inl.h:91-120`. -/
noncomputable def fit3 (big : ℝ) (p1 p2 p3 : V3 ℝ) : OBB ℝ := fitAxis big (axes3 p1 p2 p3) [p1, p2, p3]

/-- `fit6`, `utility-inl.h:123-132`. -/
noncomputable def fit6 (big : ℝ) (eig : EigenFn ℝ) (p1 p2 p3 p4 p5 p6 : V3 ℝ) : Option (OBB ℝ) :=
  add big eig (fit3 big p1 p2 p3) (fit3 big p4 p5 p6)

/-- `fitn`, `utility-inl.h:135-150`, and `FitImpl<S, OBB<S>>::run`, `BV_fitter-inl.h:292-321`, as functions of
the points read (for a mesh: the vertices of the triangles of the list, in both frames if there is a
previous one). `none`: `eigen_old` leaves its outputs unset. -/
noncomputable def fitn (big : ℝ) (eig : EigenFn ℝ) (ps : List (V3 ℝ)) : Option (OBB ℝ) :=
  match eig (covariance ps) with
  | none => none
  | some (s, E) => some (fitAxis big (axisFromEigen E s) ps)

/-- `Fitter<S, OBB<S>>::fit(ps, n, bv)`, `utility-inl.h:556-583`: `fit(ps, n, bv)` of the interface. -/
noncomputable def fit (big prec : ℝ) (eig : EigenFn ℝ) (ps : List (V3 ℝ)) : Option (OBB ℝ) :=
  match ps with
  | [p] => some (fit1 p)
  | [p1, p2] => fit2 prec p1 p2
  | [p1, p2, p3] => some (fit3 big p1 p2 p3)
  | [p1, p2, p3, p4, p5, p6] => fit6 big eig p1 p2 p3 p4 p5 p6
  | ps => fitn big eig ps

/-! ## The axes are orthonormal -/

theorem unitOrthogonal_some {prec : ℝ} {v w : V3 ℝ} (h : unitOrthogonal prec v = some w) : w.dot w = 1 ∧ v.dot w = 0 := by
  have key : ∀ {a b n : ℝ}, Real.sqrt (a * a + b * b) = n → n ≠ 0 → a * a + b * b = n * n := fun {a b n} e _ => by
    rw [← e, Real.mul_self_sqrt (by nlinarith [mul_self_nonneg a, mul_self_nonneg b])]
  rw [unitOrthogonal] at h
  split at h
  · obtain ⟨n, hn⟩ : ∃ n, Real.sqrt (v.x * v.x + v.y * v.y) = n := ⟨_, rfl⟩
    simp only [hn] at h
    split at h
    · cases h
    · next h0 =>
      have e := key hn h0
      rw [← Option.some.inj h]
      simp only [V3.dot]
      constructor
      · field_simp; linarith
      · field_simp; ring
  · obtain ⟨n, hn⟩ : ∃ n, Real.sqrt (v.y * v.y + v.z * v.z) = n := ⟨_, rfl⟩
    simp only [hn] at h
    split at h
    · cases h
    · next h0 =>
      have e := key hn h0
      rw [← Option.some.inj h]
      simp only [V3.dot]
      constructor
      · field_simp; linarith
      · field_simp; ring

theorem unitOrthogonal_isSome {prec : ℝ} (hp : 0 ≤ prec) {v : V3 ℝ} (hv : v ≠ 0) : ∃ w, unitOrthogonal prec v = some w := by
  rw [unitOrthogonal]
  have nz : ∀ {a b : ℝ}, Real.sqrt (a * a + b * b) = 0 → a = 0 ∧ b = 0 := fun {a b} h => by
    have := Real.sqrt_eq_zero'.1 h
    constructor <;> nlinarith [mul_self_nonneg a, mul_self_nonneg b, sq_nonneg a, sq_nonneg b]
  split
  · next h =>
    show ∃ w, (if Real.sqrt (v.x * v.x + v.y * v.y) = 0 then none else _) = some w
    split
    · next h0 =>
      obtain ⟨hx, hy⟩ := nz h0
      rw [hx, hy, abs_zero] at h
      have := mul_nonneg (abs_nonneg v.z) hp
      tauto
    · exact ⟨_, rfl⟩
  · next h =>
    show ∃ w, (if Real.sqrt (v.y * v.y + v.z * v.z) = 0 then none else _) = some w
    split
    · next h0 =>
      obtain ⟨hy, hz⟩ := nz h0
      push Not at h
      rw [hz, abs_zero, zero_mul] at h
      exact absurd (V3.ext' (by simpa using le_antisymm h.1 (abs_nonneg _)) hy hz) hv
    · exact ⟨_, rfl⟩

theorem normalized_dot {v : V3 ℝ} (h : v ≠ 0) : v.normalized.dot v.normalized = 1 := by
  rw [← V3.nrm_mul_self, V3.nrm_normalized h, mul_one]

theorem cross_ne_zero {u v : V3 ℝ} (uu : u.dot u = 1) (vv : v.dot v = 1) (uv : u.dot v = 0) :
    (u.cross v).dot (u.cross v) = 1 := by
  simp only [V3.dot, V3.cross] at *
  linear_combination (v.x * v.x + v.y * v.y + v.z * v.z) * uu + vv - (u.x * v.x + u.y * v.y + u.z * v.z) * uv

theorem normalized_unit {v : V3 ℝ} (h : v.dot v = 1) : v.normalized = v := by
  have hn : v.nrm = 1 := V3.nrm_unique zero_le_one (by rw [h]; ring)
  rw [V3.normalized, if_neg (by rw [hn]; norm_num), hn]
  apply V3.ext' <;> simp

theorem coordinateSystem_orthonormal {prec : ℝ} {v : V3 ℝ} (hv : v ≠ 0) {axis : M3 ℝ}
    (h : coordinateSystem prec v = some axis) : axis.Orthonormal ∧ axis.col 0 = v.normalized := by
  rw [coordinateSystem] at h
  cases e : unitOrthogonal prec v.normalized with
  | none => simp only [e] at h; cases h
  | some c1 =>
    simp only [e] at h
    obtain ⟨h1, h2⟩ := unitOrthogonal_some e
    have h0 := normalized_dot hv
    rw [normalized_unit (cross_ne_zero h0 h1 h2)] at h
    rw [← Option.some.inj h]
    exact ⟨ofCols_cross h0 h1 h2, rfl⟩

theorem normalized_smul {v : V3 ℝ} (h : v ≠ 0) : v = v.nrm • v.normalized := by
  have hn := (V3.nrm_pos h).ne'
  rw [V3.normalized, if_neg hn]
  apply V3.ext' <;> simp <;> field_simp

theorem normalized_perp {u v : V3 ℝ} (h : u.dot v = 0) : u.normalized.dot v.normalized = 0 := by
  simp only [V3.normalized]
  split <;> split <;> simp [V3.smul_dot, V3.dot_smul, h]

/-- The three points span a plane. -/
theorem axes3_orthonormal {p1 p2 p3 : V3 ℝ} (h : (p1 - p2).cross (p2 - p3) ≠ 0) : (axes3 p1 p2 p3).Orthonormal := by
  rw [axes3]
  obtain ⟨em, hem⟩ : ∃ em, (if (p3 - p1).dot (p3 - p1) > (if (p2 - p3).dot (p2 - p3) > (p1 - p2).dot (p1 - p2)
      then (p2 - p3).dot (p2 - p3) else (p1 - p2).dot (p1 - p2)) then p3 - p1 else
      if (p2 - p3).dot (p2 - p3) > (p1 - p2).dot (p1 - p2) then p2 - p3 else p1 - p2) = em := ⟨_, rfl⟩
  simp only [hem]
  have key : ((p1 - p2).cross (p2 - p3)).dot em = 0 ∧ em ≠ 0 := by
    have e1 : p1 - p2 ≠ 0 := fun h0 => h (by rw [h0]; apply V3.ext' <;> simp [V3.cross])
    have e2 : p2 - p3 ≠ 0 := fun h0 => h (by rw [h0]; apply V3.ext' <;> simp [V3.cross])
    have e3 : p3 - p1 ≠ 0 := fun h0 => h (by
      have hx : p3 = p1 := by
        have := congrArg V3.x h0; have := congrArg V3.y h0; have := congrArg V3.z h0
        simp at *; apply V3.ext' <;> linarith
      rw [hx]; apply V3.ext' <;> simp [V3.cross] <;> ring)
    rw [← hem]
    have k1 : ((p1 - p2).cross (p2 - p3)).dot (p1 - p2) = 0 := by simp [V3.cross, V3.dot]; ring
    have k2 : ((p1 - p2).cross (p2 - p3)).dot (p2 - p3) = 0 := by simp [V3.cross, V3.dot]; ring
    have k3 : ((p1 - p2).cross (p2 - p3)).dot (p3 - p1) = 0 := by simp [V3.cross, V3.dot]; ring
    split <;> split <;> first | exact ⟨k1, e1⟩ | exact ⟨k2, e2⟩ | exact ⟨k3, e3⟩
  have n2 := normalized_dot h
  have n0 := normalized_dot key.2
  have n20 := normalized_perp key.1
  generalize ((p1 - p2).cross (p2 - p3)).normalized = c2 at *
  generalize em.normalized = c0 at *
  refine ofCols_orthonormal n0 (cross_ne_zero n2 n0 n20) n2 ?_ (by rw [V3.dot_comm]; exact n20) ?_ <;>
    simp only [V3.dot, V3.cross] <;> ring

/-- `fit2` of different points. -/
theorem fit2_points {prec : ℝ} {p1 p2 : V3 ℝ} (h : p1 ≠ p2) {b : OBB ℝ} (hb : fit2 prec p1 p2 = some b) :
    b.axis.Orthonormal ∧ p1 ∈ b.pts ∧ p2 ∈ b.pts := by
  have hv : p1 - p2 ≠ 0 := fun h0 => h (by
    have := congrArg V3.x h0; have := congrArg V3.y h0; have := congrArg V3.z h0
    simp at *; apply V3.ext' <;> linarith)
  rw [fit2] at hb
  cases e : coordinateSystem prec (p1 - p2) with
  | none => simp only [e] at hb; cases hb
  | some axis =>
    simp only [e] at hb
    obtain ⟨ho, h0⟩ := coordinateSystem_orthonormal hv e
    rw [← Option.some.inj hb]
    have hs := normalized_smul hv
    have hn := V3.nrm_nonneg (p1 - p2)
    have hh : |(p1 - p2).nrm * (1/2)| ≤ (p1 - p2).nrm * (1/2) := (abs_of_nonneg (by positivity)).le
    refine ⟨ho, ⟨⟨(p1 - p2).nrm * (1/2), 0, 0⟩, hh, by simp, by simp, ?_⟩,
      ⟨⟨-((p1 - p2).nrm * (1/2)), 0, 0⟩, by rw [abs_neg]; exact hh, by simp, by simp, ?_⟩⟩
    · simp only [h0]
      have hx := congrArg V3.x hs; have hy := congrArg V3.y hs; have hz := congrArg V3.z hs
      simp at hx hy hz
      apply V3.ext' <;> simp <;> linarith
    · simp only [h0]
      have hx := congrArg V3.x hs; have hy := congrArg V3.y hs; have hz := congrArg V3.z hs
      simp at hx hy hz
      apply V3.ext' <;> simp <;> linarith

end OBB
end Fcl
