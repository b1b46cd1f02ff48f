import Verif.AABB.Model
import Mathlib.Algebra.Order.Field.Basic
import Mathlib.Analysis.SpecialFunctions.Log.Basic

/-!
# Cells and occupancy of `OcTree` (`include/fcl/geometry/octree/octree-inl.h`)

The tree itself is an octomap object (external).
-/

namespace Fcl
namespace Octree

section
variable {K : Type*} [Field K]

/-- `getRootBV`, lines 95-101: half the side of the root is `2^depth * resolution / 2`. -/
def rootBV (depth : ℕ) (resolution : K) : AABB K :=
  let delta := (2 : K) ^ depth * resolution / 2
  ⟨⟨-delta, -delta, -delta⟩, ⟨delta, delta, delta⟩⟩

/-- One axis of `computeChildBV`: the upper half if the bit is set. -/
def half (bit : Bool) (lo hi : K) : K × K :=
  if bit then ((lo + hi) * (1 / 2), hi) else (lo, (lo + hi) * (1 / 2))

/-- `computeChildBV(root_bv, i, child_bv)`, lines 264-299. -/
def childBV (b : AABB K) (i : ℕ) : AABB K :=
  let x := half (i.testBit 0) b.lo.x b.hi.x
  let y := half (i.testBit 1) b.lo.y b.hi.y
  let z := half (i.testBit 2) b.lo.z b.hi.z
  ⟨⟨x.1, y.1, z.1⟩, ⟨x.2, y.2, z.2⟩⟩

/-- The cell reached from `b` by the child indices of a path, as the traversals compute it
(`octree_solver-inl.h`, `toBoxes`). -/
def cell (b : AABB K) : List ℕ → AABB K
  | [] => b
  | i :: p => cell (childBV b i) p

end

/-- The thresholds (`octree.h:74-80`), as log odds. -/
structure Thresholds where
  occ : ℝ
  free : ℝ

/-- octomap's `logodds(probability)`: `log(p / (1 - p))`. -/
noncomputable def logodds (p : ℝ) : ℝ := Real.log (p / (1 - p))

/-- The constructors, lines 62-82: octomap's occupancy threshold has the probability 0.5, the free
threshold is the log odds 0. -/
noncomputable def Thresholds.default : Thresholds := ⟨logodds (1 / 2), 0⟩
/-- `setOccupancyThres`, lines 162-165. -/
noncomputable def Thresholds.setOccupancy (t : Thresholds) (p : ℝ) : Thresholds := { t with occ := logodds p }
/-- `setFreeThres`, lines 169-172. -/
noncomputable def Thresholds.setFree (t : Thresholds) (p : ℝ) : Thresholds := { t with free := logodds p }

/-- `isNodeOccupied`, lines 112-116; `v` is the log odds of the node. -/
def Thresholds.isOccupied (t : Thresholds) (v : ℝ) : Prop := v ≥ t.occ
/-- `isNodeFree`, lines 120-124. -/
def Thresholds.isFree (t : Thresholds) (v : ℝ) : Prop := v ≤ t.free
/-- `isNodeUncertain`, lines 128-131. -/
def Thresholds.isUncertain (t : Thresholds) (v : ℝ) : Prop := ¬ t.isOccupied v ∧ ¬ t.isFree v

end Octree
end Fcl
