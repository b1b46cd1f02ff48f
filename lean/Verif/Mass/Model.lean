import Verif.Geom.Shapes
import Mathlib.Analysis.SpecialFunctions.Trigonometric.Basic

/-!
# Model of the mass properties of the shapes

`computeVolume`, `computeCOM`, `computeMomentofInertia` of include/fcl/geometry/shape/*-inl.h and
`computeMomentofInertiaRelatedToCOM` of include/fcl/geometry/collision_geometry-inl.h, over the reals. `constants<S>::pi()`
is π, and decimal constants are exact. `Convex` and the meshes are in `Mass/PolyModel.lean`.
-/

namespace Fcl
namespace Mass
open Real

/-- `Vector3(a, b, c).asDiagonal()`. -/
noncomputable def diag (a b c : ℝ) : M3 ℝ := ⟨⟨a, 0, 0⟩, ⟨0, b, 0⟩, ⟨0, 0, c⟩⟩

/-- `computeVolume`: box-inl.h 98-102, sphere-inl.h 87-91, ellipsoid-inl.h 102-107, capsule-inl.h 82-86, cone-inl.h 82-86,
cylinder-inl.h 82-86; the others inherit collision_geometry-inl.h 134-138. -/
noncomputable def volume : Geo ℝ → ℝ
  | .box s => s.x * s.y * s.z
  | .sphere r => 4 * π * r * r * r / 3
  | .ellipsoid s => 4 * π * s.x * s.y * s.z / 3
  | .capsule r lz => π * r * r * (lz + r * 4 / 3)
  | .cone r lz => π * r * r * lz / 3
  | .cylinder r lz => π * r * r * lz
  | _ => 0

/-- `computeCOM`: cone-inl.h 100-104, collision_geometry-inl.h 120-124. -/
noncomputable def com : Geo ℝ → V3 ℝ
  | .cone _ lz => ⟨0, 0, -0.25 * lz⟩
  | _ => ⟨0, 0, 0⟩

/-- `computeMomentofInertia`: box-inl.h 105-117, sphere-inl.h 78-84, ellipsoid-inl.h 89-99, capsule-inl.h 90-103,
cone-inl.h 89-97, cylinder-inl.h 89-97, collision_geometry-inl.h 127-131. -/
noncomputable def inertia : Geo ℝ → M3 ℝ
  | .box s =>
    let v := volume (.box s)
    let a2 := s.x * s.x * v
    let b2 := s.y * s.y * v
    let c2 := s.z * s.z * v
    diag ((b2 + c2) / 12) ((a2 + c2) / 12) ((a2 + b2) / 12)
  | .sphere r =>
    let i := 0.4 * r * r * volume (.sphere r)
    diag i i i
  | .ellipsoid s =>
    let v := volume (.ellipsoid s)
    let a2 := s.x * s.x * v
    let b2 := s.y * s.y * v
    let c2 := s.z * s.z * v
    diag (0.2 * (b2 + c2)) (0.2 * (a2 + c2)) (0.2 * (a2 + b2))
  | .capsule r lz =>
    let l2 := lz * lz
    let r2 := r * r
    let vCyl := r2 * lz * π
    let vSph := r2 * r * π * 4 / 3
    let ix := vCyl * (l2 / 12 + r2 / 4) + vSph * (0.4 * r2 + 0.25 * l2 + 3 * r * lz / 8)
    let iz := (0.5 * vCyl + 0.4 * vSph) * r2
    diag ix ix iz
  | .cone r lz =>
    let v := volume (.cone r lz)
    let ix := v * (0.1 * lz * lz + 3 * r * r / 20)
    let iz := 0.3 * v * r * r
    diag ix ix iz
  | .cylinder r lz =>
    let v := volume (.cylinder r lz)
    let ix := v * (3 * r * r + lz * lz) / 12
    let iz := v * r * r / 2
    diag ix ix iz
  | _ => diag 0 0 0

/-- `computeMomentofInertiaRelatedToCOM`, collision_geometry-inl.h 141-167, from the three results. -/
noncomputable def aboutCOM (C : M3 ℝ) (c : V3 ℝ) (V : ℝ) : M3 ℝ :=
  ⟨⟨C.r0.x - V * (c.y * c.y + c.z * c.z), C.r0.y + V * c.x * c.y, C.r0.z + V * c.x * c.z⟩,
   ⟨C.r1.x + V * c.y * c.x, C.r1.y - V * (c.x * c.x + c.z * c.z), C.r1.z + V * c.y * c.z⟩,
   ⟨C.r2.x + V * c.z * c.x, C.r2.y + V * c.z * c.y, C.r2.z - V * (c.x * c.x + c.y * c.y)⟩⟩

end Mass
end Fcl
