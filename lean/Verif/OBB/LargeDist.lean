import Verif.OBB.AxisLemmas

/-!
# Enclosure by the boxes fitted along given directions, and by `merge_largedist`
-/

namespace Fcl
namespace OBB

section Field
variable {K : Type*} [Field K] [LinearOrder K] [IsStrictOrderedRing K]

theorem row_dot {E : M3 K} (h : E.Orthonormal) (i j : Fin 3) : (E.row i).dot (E.row j) = if i = j then 1 else 0 := by
  obtain ⟨⟨a, b, c⟩, ⟨d, e, f⟩, ⟨g, k, l⟩⟩ := E
  obtain ⟨-, ⟨h1, h2, h3⟩, h4, h5, h6⟩ := h.eqs
  fin_cases i <;> fin_cases j <;> simp [M3.row, V3.dot] <;> linarith

theorem row_self {E : M3 K} (h : E.Orthonormal) (i : Fin 3) : (E.row i).dot (E.row i) = 1 := by
  rw [row_dot h, if_pos rfl]
theorem row_ne {E : M3 K} (h : E.Orthonormal) {i j : Fin 3} (hij : i ≠ j) : (E.row i).dot (E.row j) = 0 := by
  rw [row_dot h, if_neg hij]

/-- Three perpendicular unit vectors as columns. -/
theorem ofCols_orthonormal {u v w : V3 K} (uu : u.dot u = 1) (vv : v.dot v = 1) (ww : w.dot w = 1)
    (uv : u.dot v = 0) (uw : u.dot w = 0) (vw : v.dot w = 0) : (ofCols u v w).Orthonormal := by
  apply M3.orthonormal_of_cols
  simp only [V3.dot] at *
  simp only [ofCols, M3.mul, M3.tr, M3.col, V3.get, V3.dot, M3.one, M3.mk.injEq, V3.mk.injEq]
  refine ⟨⟨?_, ?_, ?_⟩, ⟨?_, ?_, ?_⟩, ?_, ?_, ?_⟩ <;> linarith

/-- Two perpendicular unit vectors and their cross product. -/
theorem ofCols_cross {u v : V3 K} (uu : u.dot u = 1) (vv : v.dot v = 1) (uv : u.dot v = 0) :
    (ofCols u v (u.cross v)).Orthonormal := by
  refine ofCols_orthonormal uu vv ?_ uv ?_ ?_ <;> simp only [V3.dot, V3.cross] at *
  · linear_combination (v.x * v.x + v.y * v.y + v.z * v.z) * uu + vv - (u.x * v.x + u.y * v.y + u.z * v.z) * uv
  · ring
  · ring

/-- The box fitted along orthonormal directions contains the points. -/
theorem fitAxis_points {big : K} {axis : M3 K} (ha : axis.Orthonormal) {ps : List (V3 K)} {p : V3 K} (hp : p ∈ ps) :
    p ∈ (fitAxis big axis ps).pts := mem_fitAxis ha fun _ => bounds_spec hp

/-- ... and the boxes whose vertices are among them. -/
theorem fitAxis_box {big : K} {axis : M3 K} (ha : axis.Orthonormal) {ps : List (V3 K)} {b : OBB K}
    (hb : ∀ v ∈ b.vertices, v ∈ ps) : b.pts ⊆ (fitAxis big axis ps).pts := fun _ hp =>
  mem_fitAxis ha fun _ => ⟨le_dot_of_vertices (fun v hv => (bounds_spec (hb v hv)).1) hp,
    dot_le_of_vertices (fun v hv => (bounds_spec (hb v hv)).2) hp⟩

/-- The order of the eigenvalues. -/
theorem midMax_spec (s : V3 K) : (midMax s).1 ≠ (midMax s).2 ∧ s.get (midMax s).1 ≤ s.get (midMax s).2 ∧
    ∃ lo, lo ≠ (midMax s).1 ∧ lo ≠ (midMax s).2 ∧ s.get lo ≤ s.get (midMax s).1 := by
  obtain ⟨x, y, z⟩ := s
  simp only [midMax]
  by_cases h : x > y
  · simp only [h, if_true, V3.get]
    by_cases h1 : z < y
    · simp only [h1, if_true, V3.get]
      exact ⟨by decide, h.le, 2, by decide, by decide, h1.le⟩
    · simp only [h1, if_false, V3.get]
      by_cases h2 : z > x
      · simp only [h2, if_true, V3.get]
        exact ⟨by decide, h2.le, 1, by decide, by decide, h.le⟩
      · simp only [h2, if_false, V3.get]
        exact ⟨by decide, not_lt.1 h2, 1, by decide, by decide, not_lt.1 h1⟩
  · simp only [h, if_false, V3.get]
    by_cases h1 : z < x
    · simp only [h1, if_true, V3.get]
      exact ⟨by decide, not_lt.1 h, 2, by decide, by decide, h1.le⟩
    · simp only [h1, if_false, V3.get]
      by_cases h2 : z > y
      · simp only [h2, if_true, V3.get]
        exact ⟨by decide, h2.le, 0, by decide, by decide, not_lt.1 h⟩
      · simp only [h2, if_false, V3.get]
        exact ⟨by decide, not_lt.1 h2, 0, by decide, by decide, not_lt.1 h1⟩

theorem axisFromEigen_orthonormal {E : M3 K} (h : E.Orthonormal) (s : V3 K) : (axisFromEigen E s).Orthonormal :=
  ofCols_cross (row_self h _) (row_self h _) (row_ne h (midMax_spec s).1.symm)

end Field

theorem covariance_sym (ps : List (V3 ℝ)) (u v : V3 ℝ) : ((covariance ps).mulVec u).dot v = ((covariance ps).mulVec v).dot u := by
  rw [covariance_form, covariance_form]
  simp only [mul_comm]

theorem covariance_nonneg {ps : List (V3 ℝ)} (hn : ps ≠ []) (u : V3 ℝ) : 0 ≤ ((covariance ps).mulVec u).dot u := by
  have hl : (0 : ℝ) < ps.length := by exact_mod_cast List.length_pos_of_ne_nil hn
  obtain ⟨c, hc⟩ : ∃ c, (ps.map fun p => p.dot u).sum / ps.length = c := ⟨_, rfl⟩
  have hS : (ps.map fun p => p.dot u).sum = c * ps.length := by rw [← hc]; field_simp
  rw [covariance_form, hS]
  have e := sum_sq ps (fun p => p.dot u) c
  rw [hS] at e
  have e0 := (sum_nonneg_zero (fun p => (p.dot u - c) * (p.dot u - c)) ps fun q _ => mul_self_nonneg _).1
  have : c * ps.length * (c * ps.length) / ps.length = c * c * ps.length := by field_simp
  rw [this]; linarith

/-- The directions of `merge_largedist` are orthonormal unless the points lie in a plane along `u`. -/
theorem large_axis {vs : List (V3 ℝ)} (hn : vs ≠ []) {u : V3 ℝ} (hu : u.dot u = 1) {s : V3 ℝ} {E : M3 ℝ} (hE : E.Orthonormal)
    (he : ∀ j, (covariance (vs.map fun v => v - (v.dot u) • u)).mulVec (E.row j) = s.get j • E.row j) :
    (ofCols u (E.row (midMax s).2) (E.row (midMax s).1)).Orthonormal ∨
    ∃ w : V3 ℝ, w ≠ 0 ∧ w.dot u = 0 ∧ ∃ c, ∀ v ∈ vs, v.dot w = c := by
  obtain ⟨ps, hps⟩ : ∃ ps, (vs.map fun v => v - (v.dot u) • u) = ps := ⟨_, rfl⟩
  rw [hps] at he
  have hpn : ps ≠ [] := by rw [← hps]; simpa using hn
  have hk : ∀ p ∈ ps, p.dot u = 0 := by
    rw [← hps]; intro p hp
    obtain ⟨v, -, rfl⟩ := List.mem_map.1 hp
    rw [V3.sub_dot, V3.smul_dot, hu]; ring
  have eig : ∀ j, s.get j = ((covariance ps).mulVec (E.row j)).dot (E.row j) := fun j => by
    rw [he, V3.smul_dot, row_self hE]; ring
  have perp : ∀ j, s.get j ≠ 0 → u.dot (E.row j) = 0 := fun j hj => by
    have h1 := covariance_kernel hk (E.row j)
    rw [covariance_sym, he, V3.smul_dot, V3.dot_comm] at h1
    exact (mul_eq_zero.1 h1).resolve_left hj
  obtain ⟨hne, hle, lo, hlo1, hlo2, hlo⟩ := midMax_spec s
  generalize (midMax s).1 = mid at *
  generalize (midMax s).2 = mx at *
  by_cases hm : s.get mid = 0
  · right
    have hl : s.get lo = 0 := le_antisymm (by rw [hm] at hlo; exact hlo) (by rw [eig]; exact covariance_nonneg hpn _)
    obtain ⟨c1, h1⟩ := covariance_flat hpn (by rw [← eig]; exact hm)
    obtain ⟨c2, h2⟩ := covariance_flat hpn (by rw [← eig]; exact hl)
    have back : ∀ v ∈ vs, ∀ w : V3 ℝ, w.dot u = 0 → v.dot w = (v - (v.dot u) • u).dot w := fun v _ w hw => by
      rw [V3.sub_dot, V3.smul_dot, V3.dot_comm u w, hw]; ring
    have hmem : ∀ v ∈ vs, v - (v.dot u) • u ∈ ps := fun v hv => by rw [← hps]; exact List.mem_map_of_mem (f := fun v => v - (v.dot u) • u) hv
    by_cases h0 : (E.row mid).dot u = 0
    · refine ⟨E.row mid, fun h => ?_, h0, c1, fun v hv => by rw [back v hv _ h0]; exact h1 _ (hmem v hv)⟩
      have := row_self hE mid
      rw [h] at this; simp [V3.dot] at this
    · have hw : (((E.row lo).dot u) • E.row mid - ((E.row mid).dot u) • E.row lo).dot u = 0 := by
        rw [V3.sub_dot, V3.smul_dot, V3.smul_dot]; ring
      refine ⟨((E.row lo).dot u) • E.row mid - ((E.row mid).dot u) • E.row lo, fun h => ?_, hw,
        (E.row lo).dot u * c1 - (E.row mid).dot u * c2, fun v hv => ?_⟩
      · have := congrArg (fun w : V3 ℝ => w.dot (E.row lo)) h
        simp only [V3.sub_dot, V3.smul_dot, row_self hE, row_ne hE hlo1.symm] at this
        apply h0
        simp [V3.dot] at this ⊢
        linarith
      · rw [back v hv _ hw, V3.dot_sub, V3.dot_smul, V3.dot_smul, h1 _ (hmem v hv), h2 _ (hmem v hv)]
  · left
    have hm0 : 0 < s.get mid := lt_of_le_of_ne (by rw [eig]; exact covariance_nonneg hpn _) (Ne.symm hm)
    exact ofCols_orthonormal hu (row_self hE _) (row_self hE _) (perp _ (hm0.trans_le hle).ne') (perp _ hm)
      (row_ne hE hne.symm)

end OBB
end Fcl
