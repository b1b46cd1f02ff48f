import Verif.Mass.Shapes

/-!
# C108: volume, centre of mass and inertia of the primitive shapes

The specification (`Mass/Spec.lean`) is made of integrals over the point set of the shape. The sizes are positive; a shape
of size 0 has no volume.
-/

namespace Fcl
namespace Mass
open Real

/-- The shape is one of the six solid primitives, with positive sizes. -/
def Sized : Geo ℝ → Prop
  | .box s => 0 < s.x ∧ 0 < s.y ∧ 0 < s.z
  | .sphere r => 0 < r
  | .ellipsoid s => 0 < s.x ∧ 0 < s.y ∧ 0 < s.z
  | .capsule r lz => 0 < r ∧ 0 < lz
  | .cone r lz => 0 < r ∧ 0 < lz
  | .cylinder r lz => 0 < r ∧ 0 < lz
  | _ => False

/-- The moments of the shape, in terms of the results of the code. -/
theorem moments_of {g : Geo ℝ} (h : Sized g) : ∃ xx yy zz, Moments g.pts (volume g) (volume g * (com g).x) (volume g * (com g).y)
    (volume g * (com g).z) xx yy zz 0 0 0 ∧ inertia g = diag (yy + zz) (xx + zz) (xx + yy) := by
  match g, h with
  | .box s, ⟨h1, h2, h3⟩ =>
    refine ⟨s.x ^ 3 * s.y * s.z / 12, s.x * s.y ^ 3 * s.z / 12, s.x * s.y * s.z ^ 3 / 12, ?_, ?_⟩
    · convert box_moments h1 h2 h3 using 1 <;> first | rfl | simp [volume, com]
    · simp only [inertia, volume, diag]; congr 2 <;> ring
  | .sphere r, hr =>
    refine ⟨4 * π * r ^ 5 / 15, 4 * π * r ^ 5 / 15, 4 * π * r ^ 5 / 15, ?_, ?_⟩
    · have := ellipsoid_moments (s := ⟨r, r, r⟩) hr hr hr
      rw [← ball_eq_ellipsoid hr] at this
      convert this using 1 <;> first | rfl | (simp only [volume, com]; ring)
    · simp only [inertia, volume, diag]; congr 2 <;> ring
  | .ellipsoid s, ⟨h1, h2, h3⟩ =>
    refine ⟨4 * π * s.x ^ 3 * s.y * s.z / 15, 4 * π * s.x * s.y ^ 3 * s.z / 15, 4 * π * s.x * s.y * s.z ^ 3 / 15, ?_, ?_⟩
    · convert ellipsoid_moments h1 h2 h3 using 1 <;> first | rfl | (simp only [volume, com]; ring)
    · simp only [inertia, volume, diag]; congr 2 <;> ring
  | .capsule r lz, ⟨hr, hl⟩ =>
    refine ⟨π * r ^ 4 * (lz / 4 + 4 * r / 15), π * r ^ 4 * (lz / 4 + 4 * r / 15),
      π * r ^ 2 * (lz ^ 3 / 12 + r * lz ^ 2 / 3 + r ^ 2 * lz / 2 + 4 * r ^ 3 / 15), ?_, ?_⟩
    · convert capsule_moments hr hl using 1 <;> first | rfl | (simp only [volume, com]; ring)
    · simp only [inertia, diag]; congr 2 <;> ring
  | .cone r lz, ⟨hr, hl⟩ =>
    refine ⟨π * r ^ 4 * lz / 20, π * r ^ 4 * lz / 20, π * r ^ 2 * lz ^ 3 / 30, ?_, ?_⟩
    · convert cone_moments hr hl using 1 <;> first | rfl | (simp only [volume, com]; ring)
    · simp only [inertia, volume, diag]; congr 2 <;> ring
  | .cylinder r lz, ⟨hr, hl⟩ =>
    refine ⟨π * r ^ 4 * lz / 4, π * r ^ 4 * lz / 4, π * r ^ 2 * lz ^ 3 / 12, ?_, ?_⟩
    · convert cylinder_moments hr hl using 1 <;> first | rfl | (simp only [volume, com]; ring)
    · simp only [inertia, volume, diag]; congr 2 <;> ring

/-- **C108.** The point set of the shape is bounded and closed, so the integrals below exist. -/
theorem C108_solid {g : Geo ℝ} (h : Sized g) : Solid g.pts := by
  obtain ⟨_, _, _, m, _⟩ := moments_of h
  exact m.solid

/-- **C108.** `computeVolume` is the volume of the shape. -/
theorem C108_volume {g : Geo ℝ} (h : Sized g) : IsVolume g.pts (volume g) := by
  obtain ⟨_, _, _, m, _⟩ := moments_of h
  exact m.v.symm

/-- **C108.** `computeCOM` is the centre of mass of the shape, and the volume is positive, so that there is no other. -/
theorem C108_com {g : Geo ℝ} (h : Sized g) : IsCOM g.pts (com g) ∧ 0 < volume g := by
  obtain ⟨_, _, _, m, _⟩ := moments_of h
  refine ⟨⟨by rw [m.v, m.x], by rw [m.v, m.y], by rw [m.v, m.z]⟩, ?_⟩
  have := Real.pi_pos
  match g, h with
  | .box s, ⟨h1, h2, h3⟩ => simp only [volume]; positivity
  | .sphere r, (h1 : 0 < r) => simp only [volume]; positivity
  | .ellipsoid s, ⟨h1, h2, h3⟩ => simp only [volume]; positivity
  | .capsule r lz, ⟨hr, hl⟩ => simp only [volume]; positivity
  | .cone r lz, ⟨hr, hl⟩ => simp only [volume]; positivity
  | .cylinder r lz, ⟨hr, hl⟩ => simp only [volume]; positivity

/-- **C108.** `computeMomentofInertia` is the inertia of the shape about the origin of its frame, for density 1. -/
theorem C108_inertia {g : Geo ℝ} (h : Sized g) : IsInertia g.pts ⟨0, 0, 0⟩ (inertia g) := by
  obtain ⟨_, _, _, m, e⟩ := moments_of h
  rw [e]
  exact m.inertia _ _ (by simp [diag]) (by simp [diag]) (by simp [diag]) (by simp [diag]) (by simp [diag]) (by simp [diag])
    (by simp [diag]) (by simp [diag]) (by simp [diag])

/-- **C108.** `computeMomentofInertiaRelatedToCOM` is the inertia about the centre of mass. -/
theorem C108_about_com {g : Geo ℝ} (h : Sized g) : IsInertia g.pts (com g) (aboutCOM (inertia g) (com g) (volume g)) := by
  obtain ⟨_, _, _, m, _⟩ := moments_of h
  exact m.aboutCOM (C108_inertia h) (C108_com h).1

/-- **C108.** `computeMomentofInertiaRelatedToCOM` for any geometry, user-defined ones among them: if the three functions return the
volume, the centre of mass and the inertia about the origin of some solid, then it returns the inertia about the centre of mass. -/
theorem C108_parallel_axis {X : Set (V3 ℝ)} (hX : Solid X) {C : M3 ℝ} {c : V3 ℝ} {v : ℝ} (hC : IsInertia X ⟨0, 0, 0⟩ C) (hc : IsCOM X c)
    (hv : IsVolume X v) : IsInertia X c (aboutCOM C c v) := by
  have m : Moments X v _ _ _ _ _ _ _ _ _ := ⟨hX, hv.symm, rfl, rfl, rfl, rfl, rfl, rfl, rfl, rfl, rfl⟩
  exact m.aboutCOM hC hc

/-- A cone of radius 1 and height 4 has its centre of mass one below the middle of its axis. -/
example : IsCOM (Shape.cone 1 4) ⟨0, 0, -1⟩ := by
  have := (C108_com (g := .cone 1 4) ⟨by norm_num, by norm_num⟩).1
  norm_num [com] at this
  exact this

/-- Its inertia about that point. -/
example : IsInertia (Shape.cone 1 4) ⟨0, 0, -1⟩ (diag (π) (π) (2 * π / 5)) := by
  have := C108_about_com (g := .cone 1 4) ⟨by norm_num, by norm_num⟩
  convert this using 1
  · rfl
  · norm_num [com]
  · simp only [com, inertia, aboutCOM, volume, diag]; congr 2 <;> norm_num <;> ring

end Mass
end Fcl
