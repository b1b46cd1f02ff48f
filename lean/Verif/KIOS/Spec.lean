import Verif.KIOS.Model
import Verif.RSS.Spec
import Verif.OBB.Spec

/-!
# The points of an OBBRSS and of a kIOS
-/

namespace Fcl

/-- At most the radius away from the centre. -/
def Ball.pts {K : Type*} [Field K] [LinearOrder K] (s : Ball K) : Set (V3 K) := {p | (p - s.o).dot (p - s.o) ≤ s.r * s.r}

/-- The points in all spheres and in the box. -/
def KIOS.pts {K : Type*} [Field K] [LinearOrder K] (b : KIOS K) : Set (V3 K) := {p | (∀ s ∈ b.spheres, p ∈ s.pts) ∧ p ∈ b.obb.pts}

/-- The directions of the box are pairwise perpendicular unit vectors; no radius is negative. -/
structure KIOS.WF {K : Type*} [Field K] [LinearOrder K] (b : KIOS K) : Prop where
  obb : b.obb.WF
  radius : ∀ s ∈ b.spheres, 0 ≤ s.r

/-- The points in both volumes. -/
def OBBRSS.pts {K : Type*} [Field K] [LinearOrder K] (b : OBBRSS K) : Set (V3 K) := {p | p ∈ b.obb.pts ∧ p ∈ b.rss.pts}

structure OBBRSS.WF {K : Type*} [Field K] [LinearOrder K] (b : OBBRSS K) : Prop where
  obb : b.obb.WF
  rss : b.rss.WF

end Fcl
