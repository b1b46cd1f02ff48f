import Verif.Geom.QuerySpec
import Verif.Geom.Space

/-!
# What a contact with a half-space or a plane should be (specification)
-/

namespace Fcl

/-- The contact point lies half way between a point `p` of the first shape that is, up to `e`, the deepest in the direction
of the normal, and the place to which `p` gets when the shape is pulled out. -/
def Halfway (e : ℝ) (A : Set (V3 ℝ)) (k : CPoint) : Prop :=
  ∃ p ∈ A, (∀ q ∈ A, k.normal.dot q ≤ k.normal.dot p + e) ∧ k.pos = p - (k.depth / 2) • k.normal

/-- A good contact of the set `A` with the half-space `B`: the depth is the penetration depth, moving the half-space along
the normal by more than the depth separates the two, and the contact point lies in the half-space, half way out from the
deepest point of `A`. -/
structure HalfspaceContact (A B : Set (V3 ℝ)) (k : CPoint) : Prop where
  depth : IsDepth A B k.depth
  normal : SeparatesAlong A B k.normal k.depth
  halfway : Halfway 0 A k
  inside : k.pos ∈ B

/-- A good contact of the set `A` with the plane `B`, but for the position of the contact point: the depth is the
penetration depth, and moving the plane along the normal by more than the depth separates the two. -/
structure PlaneContact (A B : Set (V3 ℝ)) (k : CPoint) : Prop where
  depth : IsDepth A B k.depth
  normal : SeparatesAlong A B k.normal k.depth
  onPlane : k.pos ∈ B

/-- A good contact of the set `A` with the half-space `B`, but for the position: the contact point is half as deep as the
deepest point of `A`, and it is a point of `A` unless `A` lies completely in the half-space. -/
structure HalfspaceContactMid (A B : Set (V3 ℝ)) (k : CPoint) : Prop where
  depth : IsDepth A B k.depth
  normal : SeparatesAlong A B k.normal k.depth
  halfDeep : ∃ p ∈ A, (∀ q ∈ A, k.normal.dot q ≤ k.normal.dot p) ∧ k.normal.dot k.pos = k.normal.dot p - k.depth / 2
  inside : k.pos ∈ B
  member : ¬ A ⊆ B → k.pos ∈ A

/-- The cosine of the angle between the direction `u` of a shape at pose `X1` and the normal of a half-space or plane
at `X2`. -/
noncomputable def cosTo (u : V3 ℝ) (X1 X2 : Pose ℝ) (n : V3 ℝ) : ℝ := (X1.R.mulVec u).dot (X2.R.mulVec n)
/-- The same for the axis of a capsule, cylinder or cone. -/
noncomputable def axisCos (X1 X2 : Pose ℝ) (n : V3 ℝ) : ℝ := cosTo ⟨0, 0, 1⟩ X1 X2 n

/-- The contact point is the foot on the plane of a point of `A` that is extreme along the normal. -/
def FootOf (e : ℝ) (A : Set (V3 ℝ)) (k : CPoint) : Prop :=
  ∃ p ∈ A, (∀ q ∈ A, k.normal.dot q ≤ k.normal.dot p + e) ∧ ∃ s : ℝ, k.pos = p + s • k.normal

end Fcl
