import Verif.BVH.MeshShapeDist
import Verif.BVH.MeshShapeSpec
import Verif.BVH.MeshDistSpec

/-!
# What is asked of the distance of a mesh and a shape
-/

namespace Fcl
variable {V O : Type*}

/-- What the result `r'` of a query that started with the result `r` has to be when the triangles `A i` of a mesh together are `d`
away from the shape `B`: the smaller of the two distances; the old result if it is not improved; otherwise the two objects, a
triangle at that distance, no primitive of the shape, and two points at that distance, each in the frame of its object. -/
structure ShapeDistFound (n : ℕ) (A : ℕ → Set (V3 ℝ)) (B : Set (V3 ℝ)) (tf1 tf2 : Pose ℝ) (o1 o2 : O) (d : ℝ) (r r' : MeshDistResult O) : Prop where
  min : r'.minDist = min r.minDist d
  old : r.minDist ≤ d → r' = r
  objs : d < r.minDist → r'.o1 = some o1 ∧ r'.o2 = some o2 ∧ r'.b2 = -1
  prim : d < r.minDist → ∃ i < n, r'.b1 = i ∧ IsDist (A i) B d (tf1.apply r'.nearest.1) (tf2.apply r'.nearest.2)

namespace OVol

/-- From the arrays of a mesh to the result of `distance` with a sphere that touches no triangle and whose volume `bv` could be
computed. -/
def DistancesSphere (vol : OVol V) (near : ℝ → Pose ℝ → Prop) (bv : ℝ → Pose ℝ → Option V) (g : Geom ℝ) : Prop :=
  vol.Built g fun t => ∀ (tf1 tf2 : Pose ℝ), tf1.Rigid → tf2.Rigid → ∀ (rad : ℝ), 0 ≤ rad → near rad tf2 → ∀ (bv2 : V), bv rad tf2 = some bv2 →
    ∀ (B : Set (V3 ℝ)), B = Placed tf2.R tf2.t (Geo.sphere rad).pts → (∀ i < g.numPrims, ¬ Touch (g.placed tf1 i) B) →
    ∃ d p q, 0 < d ∧ IsDist (unionOf g.numPrims (g.placed tf1)) B d p q ∧
      ∀ (o1 o2 : ℕ) (junk0 : ℝ × V3 ℝ × V3 ℝ) (junk : ℕ → ℝ × V3 ℝ × V3 ℝ) (r : MeshDistResult ℕ), 0 < r.minDist →
      ∃ r', vol.shapeDistance g.numPrims o1 g t tf1 o2 bv2 (sphereMeshDist rad tf2 g tf1) junk0 junk r = .result r' ∧
        ShapeDistFound g.numPrims (g.placed tf1) B tf1 tf2 o1 o2 d r r'

end OVol
end Fcl
