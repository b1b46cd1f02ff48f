import Verif.OBB.Model

/-!
# What an oriented box is

The specification side of the oriented box properties: the points of a box, and enclosure.
-/

namespace Fcl
namespace OBB
variable {K : Type*} [Field K] [LinearOrder K]

/-- The points of an oriented box: the centre plus at most `extent` along each direction. -/
def pts (b : OBB K) : Set (V3 K) :=
  {p | ∃ y : V3 K, |y.x| ≤ b.extent.x ∧ |y.y| ≤ b.extent.y ∧ |y.z| ≤ b.extent.z ∧
    p = b.To + y.x • b.axis.col 0 + y.y • b.axis.col 1 + y.z • b.axis.col 2}

/-- The directions are pairwise perpendicular unit vectors. -/
def WF (b : OBB K) : Prop := b.axis.Orthonormal

end OBB
end Fcl
