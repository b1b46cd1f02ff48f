import Verif.AABB.Model
import Mathlib.Data.Set.Basic
import Mathlib.Analysis.Real.Sqrt

/-!
# What an axis-aligned box means (specification, independent of the code)
-/

namespace Fcl

/-- The set of points of a box. -/
def AABB.pts {K : Type*} [LinearOrder K] (a : AABB K) : Set (V3 K) :=
  {p | (a.lo.x ≤ p.x ∧ p.x ≤ a.hi.x) ∧ (a.lo.y ≤ p.y ∧ p.y ≤ a.hi.y) ∧
       (a.lo.z ≤ p.z ∧ p.z ≤ a.hi.z)}

/-- A box whose lower corner is componentwise at most its upper corner. -/
def AABB.Valid {K : Type*} [LinearOrder K] (a : AABB K) : Prop :=
  a.lo.x ≤ a.hi.x ∧ a.lo.y ≤ a.hi.y ∧ a.lo.z ≤ a.hi.z

/-- Euclidean distance of two points of `ℝ³`. -/
noncomputable def V3.dist (p q : V3 ℝ) : ℝ :=
  Real.sqrt ((p.x - q.x) ^ 2 + (p.y - q.y) ^ 2 + (p.z - q.z) ^ 2)

/-- Exact real arithmetic as the scalar operations of `AABB::distance`. -/
noncomputable instance : AABB.ArithOps ℝ where
  zero := 0
  add := (· + ·)
  sub := (· - ·)
  mul := (· * ·)
  sqrt := Real.sqrt

/-- What pruning by box distance needs from the scalar arithmetic. Every correctly rounded
arithmetic satisfies it, since rounding is monotone and keeps zero (see `RoundedOps`). -/
class AABB.LawfulArith (K : Type*) [LinearOrder K] [ops : AABB.ArithOps K] : Prop where
  /-- addition is monotone -/
  add_le : ∀ {a b c d : K}, a ≤ c → b ≤ d → ops.add a b ≤ ops.add c d
  /-- adding a square does not decrease -/
  le_add_sq : ∀ (a d : K), a ≤ ops.add a (ops.mul d d)
  /-- squares of differences: a wider gap has a larger square -/
  gap_le : ∀ {p q p' q' : K}, p' ≤ p → p ≤ q → q ≤ q' →
    ops.mul (ops.sub p q) (ops.sub p q) ≤ ops.mul (ops.sub p' q') (ops.sub p' q')
  /-- square root is monotone -/
  sqrt_le : ∀ {a b : K}, a ≤ b → ops.sqrt a ≤ ops.sqrt b

end Fcl
