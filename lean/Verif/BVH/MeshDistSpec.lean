import Verif.BVH.MeshDist
import Verif.Props.OrientedMesh
import Verif.Geom.QuerySpec

/-! # Vocabulary for the distance of two meshes -/

namespace Fcl
variable {O : Type*}

/-- Every triangle is degenerate or has a normal whose square is greater than `thin`. -/
def Geom.Thick (thin : ℝ) (g : Geom ℝ) : Prop :=
  ∀ i < g.numPrims, (g.tri i).nor ≠ 0 → thin < (g.tri i).nor.dot (g.tri i).nor

/-- The union of the first `n` sets. -/
def unionOf (n : ℕ) (A : ℕ → Set (V3 ℝ)) : Set (V3 ℝ) := {x | ∃ i < n, x ∈ A i}

/-- What the result `r'` of a query that started with the result `r` has to be when the sets `A i` and `B j` together are
`d` apart: the smaller of the two distances; the old result if it is not improved; otherwise the two objects and two
primitives at that distance, and, if asked for, points of these primitives, which are at that distance unless it is 0. -/
structure MeshFound (n1 n2 : ℕ) (A B : ℕ → Set (V3 ℝ)) (points : Bool) (o1 o2 : O) (d : ℝ) (r r' : MeshDistResult O) : Prop where
  min : r'.minDist = min r.minDist d
  old : r.minDist ≤ d → r' = r
  objs : d < r.minDist → r'.o1 = some o1 ∧ r'.o2 = some o2
  prims : d < r.minDist → ∃ i < n1, ∃ j < n2, r'.b1 = i ∧ r'.b2 = j ∧ (∃ p q, IsDist (A i) (B j) d p q) ∧
    (points = true → r'.nearest.1 ∈ A i ∧ r'.nearest.2 ∈ B j ∧ (0 < d → r'.nearest.1.dist r'.nearest.2 = d))
  unasked : points = false → r'.nearest = r.nearest

end Fcl
