import Verif.KDOP.Model

/-!
# What a k-DOP is

A k-DOP is the intersection of `k / 2` slabs with fixed normals. The normals are listed here independently of the
code.
-/

namespace Fcl

/-- The normals of the slabs, in the order of the array, as written in the comments of kDOP.h 50-83. -/
def KDopN.normals : KDopN → List (V3 ℤ)
  | .n16 => [⟨1, 0, 0⟩, ⟨0, 1, 0⟩, ⟨0, 0, 1⟩, ⟨1, 1, 0⟩, ⟨1, 0, 1⟩, ⟨0, 1, 1⟩, ⟨1, -1, 0⟩, ⟨1, 0, -1⟩]
  | .n18 => [⟨1, 0, 0⟩, ⟨0, 1, 0⟩, ⟨0, 0, 1⟩, ⟨1, 1, 0⟩, ⟨1, 0, 1⟩, ⟨0, 1, 1⟩, ⟨1, -1, 0⟩, ⟨1, 0, -1⟩, ⟨0, 1, -1⟩]
  | .n24 => [⟨1, 0, 0⟩, ⟨0, 1, 0⟩, ⟨0, 0, 1⟩, ⟨1, 1, 0⟩, ⟨1, 0, 1⟩, ⟨0, 1, 1⟩, ⟨1, -1, 0⟩, ⟨1, 0, -1⟩, ⟨0, 1, -1⟩,
      ⟨1, 1, -1⟩, ⟨1, -1, 1⟩, ⟨-1, 1, 1⟩]

/-- The product of a point with an integer normal. -/
def along {K : Type*} [Field K] (v : V3 ℤ) (p : V3 K) : K := v.x * p.x + v.y * p.y + v.z * p.z

/-- The solid: the points between the two planes of every slab. -/
def KDOP.pts {K : Type*} [Field K] [LinearOrder K] {n : KDopN} (a : KDOP n K) : Set (V3 K) :=
  {p | ∀ i v, n.normals[i]? = some v → a.lo i ≤ along v p ∧ along v p ≤ a.hi i}

end Fcl
