import Verif.Geom.QuerySpec
import Verif.Geom.Space

/-!
# What the collision of two boxes is to tell (specification)
-/

namespace Fcl
namespace BoxBox

/-- The points of a box at a pose. -/
def BoxAt (side : V3 ℝ) (X : Pose ℝ) : Set (V3 ℝ) := Placed X.R X.t (Geo.box side).pts

/-- The direction `L` separates the sets, but the gap that it shows is at most `m` (times the length of `L`). -/
def Slit (A B : Set (V3 ℝ)) (L : V3 ℝ) (m : ℝ) : Prop :=
  (∀ p ∈ A, ∀ q ∈ B, 0 < L.dot (q - p)) ∧ ∃ p ∈ A, ∃ q ∈ B, L.dot (q - p) ≤ m

/-- Up to `m` the sets touch: they do, or there is only a slit of `m` between them, in a direction that is perpendicular to
an edge of each of the two boxes. -/
def NearTouch (s1 : V3 ℝ) (X1 : Pose ℝ) (s2 : V3 ℝ) (X2 : Pose ℝ) (m : ℝ) : Prop :=
  Touch (BoxAt s1 X1) (BoxAt s2 X2) ∨
    ∃ i j : Fin 3, ∃ k : ℝ, (k = 1 ∨ k = -1) ∧ Slit (BoxAt s1 X1) (BoxAt s2 X2) (k • (X1.R.col i).cross (X2.R.col j)) m

/-- The tolerance: ten times the machine epsilon, times the longest half side or 1, times the sum of the half sides. -/
noncomputable def slack (eps : ℝ) (s1 s2 : V3 ℝ) : ℝ :=
  10 * eps * max 1 (max (max (max (s1.x / 2) (s1.y / 2)) (s1.z / 2)) (max (max (s2.x / 2) (s2.y / 2)) (s2.z / 2))) *
    ((s1.x + s1.y + s1.z + s2.x + s2.y + s2.z) / 2)

/-- Every side of the second box is parallel to a side of the first. -/
def Aligned (X1 X2 : Pose ℝ) : Prop := ∀ j : Fin 3, ∃ i : Fin 3, ∃ k : ℝ, X2.R.col j = k • X1.R.col i

/-- A contact: half the depth along the normal from the position is a point of the first set, half the depth against the normal one
of the second. So moving the second set along the normal by the depth makes the two points meet. -/
structure IsContact (A B : Set (V3 ℝ)) (c : CPoint) : Prop where
  nonneg : 0 ≤ c.depth
  first : c.pos + (c.depth / 2) • c.normal ∈ A
  second : c.pos - (c.depth / 2) • c.normal ∈ B

/-- The point is on the line through an edge of the box that is parallel to side `i`. -/
def OnEdgeLine (side : V3 ℝ) (X : Pose ℝ) (i : Fin 3) (p : V3 ℝ) : Prop :=
  ∃ x : V3 ℝ, (∀ j, j ≠ i → |x.get j| = side.get j / 2) ∧ p = X.R.mulVec x + X.t

/-- The point is a corner of the box, and no point of the box is further in direction `n`. -/
def FurthestCorner (side : V3 ℝ) (X : Pose ℝ) (n v : V3 ℝ) : Prop :=
  (∃ y : V3 ℝ, (∀ i, |y.get i| = side.get i / 2) ∧ v = X.R.mulVec y + X.t) ∧ ∀ p ∈ BoxAt side X, n.dot p ≤ n.dot v

/-- The point is straight below or above the inside of the two faces of the box that are perpendicular to side `k`. -/
def Facing (side : V3 ℝ) (X : Pose ℝ) (k : Fin 3) (v : V3 ℝ) : Prop :=
  ∀ i, i ≠ k → |(X.R.col i).dot (v - X.t)| < side.get i / 2

end BoxBox
end Fcl
