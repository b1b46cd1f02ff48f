import Verif.Base.Vec
import Verif.BVH.MeshSpec

/-!
# What the geometric shapes are (specification)

Point sets in the frame of the shape, as documented in include/fcl/geometry/shape/*.h; none of the code is used.
-/

namespace Fcl
namespace Shape
variable {K : Type*} [Field K] [LinearOrder K]

/-- `Sphere`: the ball around the origin. -/
def ball (r : K) : Set (V3 K) := {p | p.x * p.x + p.y * p.y + p.z * p.z ≤ r * r}

/-- `Box`: centred at the origin, side lengths along the axes. -/
def box (side : V3 K) : Set (V3 K) :=
  {p | (-(side.x / 2) ≤ p.x ∧ p.x ≤ side.x / 2) ∧ (-(side.y / 2) ≤ p.y ∧ p.y ≤ side.y / 2) ∧
    (-(side.z / 2) ≤ p.z ∧ p.z ≤ side.z / 2)}

/-- `Capsule`: all points within the radius of the segment of length `lz` on the z axis. -/
def capsule (r lz : K) : Set (V3 K) :=
  {p | ∃ c, -(lz / 2) ≤ c ∧ c ≤ lz / 2 ∧ p.x * p.x + p.y * p.y + (p.z - c) * (p.z - c) ≤ r * r}

/-- `Cylinder`: around the z axis. -/
def cylinder (r lz : K) : Set (V3 K) := {p | p.x * p.x + p.y * p.y ≤ r * r ∧ -(lz / 2) ≤ p.z ∧ p.z ≤ lz / 2}

/-- `Cone`: the segments from the tip at height `lz / 2` to the disc at height `-lz / 2`. -/
def cone (r lz : K) : Set (V3 K) :=
  {p | ∃ s x y, 0 ≤ s ∧ s ≤ 1 ∧ x * x + y * y ≤ r * r ∧ p = ⟨s * x, s * y, lz / 2 - s * lz⟩}

/-- `Ellipsoid`: the ball of radius 1, stretched along the axes. -/
def ellipsoid (radii : V3 K) : Set (V3 K) :=
  {p | ∃ q : V3 K, q.x * q.x + q.y * q.y + q.z * q.z ≤ 1 ∧ p = ⟨radii.x * q.x, radii.y * q.y, radii.z * q.z⟩}

/-- `Halfspace`. -/
def halfspace (n : V3 K) (d : K) : Set (V3 K) := {p | n.x * p.x + n.y * p.y + n.z * p.z ≤ d}

/-- `Plane`. -/
def plane (n : V3 K) (d : K) : Set (V3 K) := {p | n.x * p.x + n.y * p.y + n.z * p.z = d}

/-- `TriangleP`. -/
def triangle (a b c : V3 K) : Set (V3 K) := {p | HullOf [a, b, c] p}

/-- `Convex`: the convex hull of the vertices. -/
def convex (vs : List (V3 K)) : Set (V3 K) := {p | HullOf vs p}

end Shape

/-- A geometric shape with its parameters. -/
inductive Geo (K : Type*)
  | box (side : V3 K)
  | sphere (r : K)
  | capsule (r lz : K)
  | cylinder (r lz : K)
  | cone (r lz : K)
  | ellipsoid (radii : V3 K)
  | halfspace (n : V3 K) (d : K)
  | plane (n : V3 K) (d : K)
  | triangle (a b c : V3 K)
  | convex (vs : List (V3 K))

namespace Geo
variable {K : Type*} [Field K] [LinearOrder K]

/-- The points of the shape in its own frame. -/
def pts : Geo K → Set (V3 K)
  | box side => Shape.box side
  | sphere r => Shape.ball r
  | capsule r lz => Shape.capsule r lz
  | cylinder r lz => Shape.cylinder r lz
  | cone r lz => Shape.cone r lz
  | ellipsoid radii => Shape.ellipsoid radii
  | halfspace n d => Shape.halfspace n d
  | plane n d => Shape.plane n d
  | triangle a b c => Shape.triangle a b c
  | convex vs => Shape.convex vs

/-- Sensible parameters: sizes are not negative, and the normals have unit length, as the constructors make them. -/
def WF : Geo K → Prop
  | box s => 0 ≤ s.x ∧ 0 ≤ s.y ∧ 0 ≤ s.z
  | sphere r => 0 ≤ r
  | capsule r lz => 0 ≤ r ∧ 0 ≤ lz
  | cylinder r lz => 0 ≤ r ∧ 0 ≤ lz
  | cone r lz => 0 ≤ r ∧ 0 ≤ lz
  | ellipsoid s => 0 ≤ s.x ∧ 0 ≤ s.y ∧ 0 ≤ s.z
  | halfspace n _ => n.x * n.x + n.y * n.y + n.z * n.z = 1
  | plane n _ => n.x * n.x + n.y * n.y + n.z * n.z = 1
  | triangle _ _ _ => True
  | convex _ => True

/-- The shape is bounded. -/
def Bounded : Geo K → Prop
  | halfspace _ _ => False
  | plane _ _ => False
  | _ => True

end Geo

/-- The shape `S` at the place given by a linear map and a translation. -/
def Placed {K : Type*} [Field K] (R : M3 K) (t : V3 K) (S : Set (V3 K)) : Set (V3 K) :=
  {q | ∃ p ∈ S, q = R.mulVec p + t}

end Fcl
