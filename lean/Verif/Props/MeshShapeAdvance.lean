import Verif.Motion.MeshShape
import Verif.Props.Continuous
import Verif.Props.SphereTriangle

/-!
# C98: conservative advancement between a mesh and a shape

The direction of the motion bounds is taken to (from) the image of a corner of the triangle under the transform of the shape instead of
the nearest point of the shape. So the bounds are taken along a direction that has nothing to do with the way to the triangle, and a
shape passes through a mesh unseen.
-/

namespace Fcl.Continuous
open V3

/-- A triangle in the plane `x = 5` about the point (5, 0, 0). -/
def exPlate : Tri ℝ := ⟨⟨5, -4, -4⟩, ⟨5, 4, -4⟩, ⟨5, 0, 4⟩⟩

theorem exPlate_area : HasArea exPlate.a exPlate.b exPlate.c := by
  intro h
  have := congrArg V3.x h
  norm_num [exPlate, cross] at this

theorem exPlate_mid : (⟨5, 0, 0⟩ : V3 ℝ) ∈ exPlate.pts :=
  (hull_triangle _ _ _ _).2 ⟨1 / 4, 1 / 4, 1 / 2, by norm_num, by norm_num, by norm_num, by norm_num, by
    apply V3.ext' <;> norm_num [exPlate]⟩

/-- The distance of the unit sphere about a point of the first axis from the triangle. -/
theorem exPlate_dist {x : ℝ} (h : 1 < |5 - x|) : ∃ p, Prim.sphereTrianglePts 1 ⟨M3.one, ⟨x, 0, 0⟩⟩ exPlate.a exPlate.b exPlate.c =
    ⟨true, some (|5 - x| - 1), some (p, ⟨5, 0, 0⟩)⟩ := by
  obtain ⟨l0, l1, l2, ls, lv, ln, -⟩ := Proj.triangle_spec (⟨x, 0, 0⟩ : V3 ℝ) (area_pos.1 exPlate_area)
  rw [Prim.sphereTrianglePts]
  simp only
  have hmin := ln (1 / 4) (1 / 4) (1 / 2) (by norm_num) (by norm_num) (by norm_num) (by norm_num)
  generalize Proj.triangle exPlate.a exPlate.b exPlate.c ⟨x, 0, 0⟩ = o at *
  have ex : o.par 0 = 1 - o.par 1 - o.par 2 := by linarith
  rw [lv] at hmin
  simp only [exPlate, dot, ex, add_x, add_y, add_z, sub_x, sub_y, sub_z, smul_x, smul_y, smul_z] at hmin
  have hz : (-4 + 8 * o.par 2) * (-4 + 8 * o.par 2) + (-4 + 8 * o.par 1 + 4 * o.par 2) * (-4 + 8 * o.par 1 + 4 * o.par 2) ≤ 0 := by
    nlinarith
  have h2 : o.par 2 = 1 / 2 := by
    have : (-4 + 8 * o.par 2) * (-4 + 8 * o.par 2) = 0 :=
      le_antisymm (by nlinarith [mul_self_nonneg (-4 + 8 * o.par 1 + 4 * o.par 2)]) (mul_self_nonneg _)
    have := mul_self_eq_zero.1 this
    linarith
  have h1 : o.par 1 = 1 / 4 := by
    rw [h2] at hz
    have : (-4 + 8 * o.par 1 + 4 * (1 / 2)) * (-4 + 8 * o.par 1 + 4 * (1 / 2)) = 0 :=
      le_antisymm (by nlinarith) (mul_self_nonneg _)
    have := mul_self_eq_zero.1 this
    linarith
  have h0 : o.par 0 = 1 / 4 := by rw [ex, h1, h2]; norm_num
  have hd : o.dist = |5 - x| * |5 - x| := by
    rw [lv, abs_mul_abs_self]
    simp only [exPlate, dot, h0, h1, h2, add_x, add_y, add_z, sub_x, sub_y, sub_z, smul_x, smul_y, smul_z]
    ring
  have hy : o.par 0 • exPlate.a + o.par 1 • exPlate.b + o.par 2 • exPlate.c = ⟨5, 0, 0⟩ := by
    apply V3.ext' <;> norm_num [exPlate, h0, h1, h2]
  rw [hy, hd, if_pos (by nlinarith), Real.sqrt_mul_self (abs_nonneg _)]
  exact ⟨_, rfl⟩

theorem exPlate_still (v : V3 ℝ) : (⟨M3.one, 0⟩ : Pose ℝ).apply v = v := by
  rw [Pose.apply, M3.one_mulVec]; apply V3.ext' <;> simp

/-- The sphere touches the triangle on its way. -/
theorem exPlate_touch : Touch ((exMove 0 0).bodyAt exPlate.pts (1 / 2)) ((exMove 0 ⟨10, 0, 0⟩).bodyAt (Geo.sphere 1).pts (1 / 2)) := by
  rw [Motion.bodyAt, Motion.bodyAt, exMove_at (by norm_num), exMove_at (by norm_num)]
  refine ⟨⟨5, 0, 0⟩, ⟨_, exPlate_mid, ?_⟩, 0, ?_, ?_⟩
  · rw [M3.one_mulVec]; apply V3.ext' <;> simp
  · show (0 : V3 ℝ).dot 0 ≤ 1 * 1
    simp [V3.dot]
  · rw [M3.one_mulVec]; apply V3.ext' <;> norm_num

theorem normal_flat {y z : ℝ} : (⟨0, y, z⟩ : V3 ℝ).normalized.x = 0 := by
  rw [V3.normalized]; split_ifs <;> simp

/-- **A shape passes through a mesh unseen.** A resting triangle, and a unit sphere that goes through its middle. The bounds are taken along a
direction across the motion, they are zero, the first step is a whole unit of time, and no contact is reported. -/
theorem C98_violated_mesh_shape {hit : Pose ℝ → Pose ℝ → Bool} (hh : hit ⟨M3.one, 0⟩ ⟨M3.one, 0⟩ = false) (nz : Bool) (junk : ℝ × V3 ℝ × V3 ℝ) (b2 : RSS ℝ)
    (fuel : ℕ) (r0 : CCResult) : ∃ o s1 s2,
    meshShape hit nz (Prim.sphereTrianglePts 1) junk b2 exPlate (exMove 0 0) (exMove 0 ⟨10, 0, 0⟩) (fuel + 2) (exMove 0 0).init
      (exMove 0 ⟨10, 0, 0⟩).init r0 = some (o, s1, s2) ∧ o.isCollide = false ∧
    TouchAt (exMove 0 0) (exMove 0 ⟨10, 0, 0⟩) exPlate.pts (Geo.sphere 1).pts (1 / 2) := by
  have i1 : (exMove 0 0).init = ⟨⟨M3.one, 0⟩, 0⟩ := rfl
  have i2 : (exMove 0 ⟨10, 0, 0⟩).init = ⟨⟨M3.one, 0⟩, 0⟩ := rfl
  have e1 : (exMove 0 0).integrate 1 = ⟨⟨M3.one, 0⟩, 0⟩ := by
    rw [exMove_at le_rfl]; congr 2; apply V3.ext' <;> simp
  obtain ⟨p, hp⟩ := exPlate_dist (x := 0) (by norm_num)
  have s1 : meshShapeRound nz (Prim.sphereTrianglePts 1) junk b2 (exMove 0 0) (exMove 0 ⟨10, 0, 0⟩) exPlate ⟨⟨M3.one, 0⟩, 0⟩ ⟨⟨M3.one, 0⟩, 0⟩ =
      (1, exPlate) := by
    have hp' : Prim.sphereTrianglePts 1 ⟨M3.one, 0⟩ exPlate.a exPlate.b exPlate.c = _ := hp
    simp only [meshShapeRound, exPlate_still, hp', triOut, Option.getD_some, exMove_bound]
    have hn : exPlate.b - ⟨5, 0, 0⟩ = ⟨0, 4, -4⟩ := by apply V3.ext' <;> norm_num [exPlate]
    rw [hn]
    have hx := normal_flat (y := 4) (z := -4)
    generalize (⟨0, 4, -4⟩ : V3 ℝ).normalized = n at hx
    refine Prod.ext ?_ rfl
    norm_num [stepTime, exMove, Motion.translation, V3.dot, hx]
  obtain ⟨x, hx1, y, s2⟩ : ∃ x, x ≤ 1 ∧ ∃ y, meshShapeRound nz (Prim.sphereTrianglePts 1) junk b2 (exMove 0 0) (exMove 0 ⟨10, 0, 0⟩) exPlate
      ⟨⟨M3.one, 0⟩, 0⟩ ((exMove 0 ⟨10, 0, 0⟩).integrate 1) = (x, y) := ⟨_, stepTime_le_one _ _ _, _, rfl⟩
  refine ⟨⟨false, 1, r0.tf1, r0.tf2⟩, ⟨⟨M3.one, 0⟩, 0⟩, (exMove 0 ⟨10, 0, 0⟩).integrate 1, ?_, rfl, exPlate_touch⟩
  simp only [meshShape, conservative, i1, i2, hh, Bool.false_eq_true, if_false, false_or]
  have c1 : ¬ (1 : ℝ) ≤ 1 / 10000 := by norm_num
  have c2 : ¬ (1 : ℝ) > 1 := by norm_num
  simp only [advance, s1, zero_add, meshShapeErr, if_neg c1, if_neg c2, e1, s2]
  split_ifs with h3 h4
  · simp
  · simp
  · exact absurd (by have := not_le.1 h3; linarith [show (0 : ℝ) < 1 / 10000 by norm_num]) h4

/-- **The same with the shape first.** -/
theorem C98_violated_shape_mesh {hit : Pose ℝ → Pose ℝ → Bool} (hh : hit ⟨M3.one, 0⟩ ⟨M3.one, 0⟩ = false) (nz : Bool) (junk : ℝ × V3 ℝ × V3 ℝ) (b1 : RSS ℝ)
    (fuel : ℕ) (r0 : CCResult) : ∃ o s1 s2,
    shapeMesh hit nz (Prim.sphereTrianglePts 1) junk b1 exPlate (exMove 0 ⟨10, 0, 0⟩) (exMove 0 0) (fuel + 2) (exMove 0 ⟨10, 0, 0⟩).init
      (exMove 0 0).init r0 = some (o, s1, s2) ∧ o.isCollide = false ∧
    TouchAt (exMove 0 ⟨10, 0, 0⟩) (exMove 0 0) (Geo.sphere 1).pts exPlate.pts (1 / 2) := by
  have i1 : (exMove 0 0).init = ⟨⟨M3.one, 0⟩, 0⟩ := rfl
  have i2 : (exMove 0 ⟨10, 0, 0⟩).init = ⟨⟨M3.one, 0⟩, 0⟩ := rfl
  have e1 : (exMove 0 0).integrate 1 = ⟨⟨M3.one, 0⟩, 0⟩ := by
    rw [exMove_at le_rfl]; congr 2; apply V3.ext' <;> simp
  obtain ⟨p, hp⟩ := exPlate_dist (x := 0) (by norm_num)
  have s1 : shapeMeshRound nz (Prim.sphereTrianglePts 1) junk b1 (exMove 0 ⟨10, 0, 0⟩) (exMove 0 0) exPlate ⟨⟨M3.one, 0⟩, 0⟩ ⟨⟨M3.one, 0⟩, 0⟩ =
      (1, exPlate) := by
    have hp' : Prim.sphereTrianglePts 1 ⟨M3.one, 0⟩ exPlate.a exPlate.b exPlate.c = _ := hp
    simp only [shapeMeshRound, exPlate_still, hp', triOut, Option.getD_some, exMove_bound]
    have hn : (⟨5, 0, 0⟩ : V3 ℝ) - exPlate.a = ⟨0, 4, 4⟩ := by apply V3.ext' <;> norm_num [exPlate]
    rw [hn]
    have hx := normal_flat (y := 4) (z := 4)
    generalize (⟨0, 4, 4⟩ : V3 ℝ).normalized = n at hx
    refine Prod.ext ?_ rfl
    norm_num [stepTime, exMove, Motion.translation, V3.dot, hx]
  obtain ⟨x, hx1, y, s2⟩ : ∃ x, x ≤ 1 ∧ ∃ y, shapeMeshRound nz (Prim.sphereTrianglePts 1) junk b1 (exMove 0 ⟨10, 0, 0⟩) (exMove 0 0) exPlate
      ((exMove 0 ⟨10, 0, 0⟩).integrate 1) ⟨⟨M3.one, 0⟩, 0⟩ = (x, y) := ⟨_, stepTime_le_one _ _ _, _, rfl⟩
  obtain ⟨q, hq, hq'⟩ := exPlate_touch
  refine ⟨⟨false, 1, r0.tf1, r0.tf2⟩, (exMove 0 ⟨10, 0, 0⟩).integrate 1, ⟨⟨M3.one, 0⟩, 0⟩, ?_, rfl, ⟨q, hq', hq⟩⟩
  simp only [shapeMesh, conservative, i1, i2, hh, Bool.false_eq_true, if_false, false_or]
  have c1 : ¬ (1 : ℝ) ≤ 1 / 10000 := by norm_num
  have c2 : ¬ (1 : ℝ) > 1 := by norm_num
  simp only [advance, s1, zero_add, meshShapeErr, if_neg c1, if_neg c2, e1, s2]
  split_ifs with h3 h4
  · simp
  · simp
  · exact absurd (by have := not_le.1 h3; linarith [show (0 : ℝ) < 1 / 10000 by norm_num]) h4

/-- The hypothesis on `hit` holds for the query itself, which for one triangle and a sphere is `sphereTriangleIntersect`. -/
theorem exPlate_hit {eps : ℝ} (h0 : 0 < eps) (h1 : eps < 1) :
    (Prim.sphereTriangleIntersect eps 1 ⟨M3.one, 0⟩ exPlate.a exPlate.b exPlate.c).1 = false := by
  have k := (Prim.C93_intersect h0 zero_le_one ⟨M3.one, 0⟩ exPlate_area).1
  rw [← Bool.not_eq_true, k]
  rintro ⟨x, hx, hd⟩
  obtain ⟨u, v, w, -, -, -, hs, rfl⟩ := (hull_triangle _ _ _ _).1 hx
  rw [Prim.dist_lt_iff (by linarith)] at hd
  simp only [exPlate, dot, add_x, add_y, add_z, sub_x, sub_y, sub_z, smul_x, smul_y, smul_z, zero_x, zero_y, zero_z] at hd
  have e : u * 5 + v * 5 + w * 5 - 0 = 5 := by linear_combination 5 * hs
  rw [e] at hd
  nlinarith [mul_self_nonneg (u * -4 + v * 4 + w * 0 - 0), mul_self_nonneg (u * -4 + v * -4 + w * 4 - 0)]

end Fcl.Continuous
