import Verif.RSS.Model

/-!
# What a rectangle swept sphere is
-/

namespace Fcl
namespace RSS
variable {K : Type*} [Field K] [LinearOrder K]

/-- The points of the rectangle: from the corner along the first two directions. -/
def rect (b : RSS K) : Set (V3 K) :=
  {p | ∃ x y : K, 0 ≤ x ∧ x ≤ b.l0 ∧ 0 ≤ y ∧ y ≤ b.l1 ∧ p = b.To + x • b.axis.col 0 + y • b.axis.col 1}

/-- The points of the volume: at most `r` from a point of the rectangle. -/
def pts (b : RSS K) : Set (V3 K) := {p | ∃ c ∈ b.rect, (p - c).dot (p - c) ≤ b.r * b.r}

/-- The directions are pairwise perpendicular unit vectors; sides and radius are not negative. -/
structure WF (b : RSS K) : Prop where
  axis : b.axis.Orthonormal
  l0 : 0 ≤ b.l0
  l1 : 0 ≤ b.l1
  r : 0 ≤ b.r

namespace Rects

/-- The first rectangle of `rectDistance`: in the plane `z = 0`. -/
def left (q : Rects K) : Set (V3 K) := {p | ∃ x y : K, 0 ≤ x ∧ x ≤ q.a0 ∧ 0 ≤ y ∧ y ≤ q.a1 ∧ p = ⟨x, y, 0⟩}

/-- The second rectangle of `rectDistance`. -/
def right (q : Rects K) : Set (V3 K) :=
  {p | ∃ x y : K, 0 ≤ x ∧ x ≤ q.b0 ∧ 0 ≤ y ∧ y ≤ q.b1 ∧ p = q.T + x • q.R.col 0 + y • q.R.col 1}

/-- `rectDistance` is called with a rotation and sides that are not negative. -/
structure WF (q : Rects K) : Prop where
  rot : q.R.Orthonormal
  a0 : 0 ≤ q.a0
  a1 : 0 ≤ q.a1
  b0 : 0 ≤ q.b0
  b1 : 0 ≤ q.b1

end Rects
end RSS
end Fcl
