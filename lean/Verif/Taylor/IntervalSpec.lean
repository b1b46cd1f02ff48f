import Verif.Taylor.Interval
import Mathlib.Order.Bounds.Basic
import Mathlib.Order.Interval.Set.Defs

/-! # What interval operations should do -/

namespace Fcl
variable {K : Type*} [Field K] [LinearOrder K]

/-- The numbers in an interval. -/
def Iv.set (a : Iv K) : Set K := Set.Icc a.lo a.hi
/-- The interval is not reversed. -/
def Iv.Valid (a : Iv K) : Prop := a.lo ≤ a.hi

instance (a : Iv K) : Decidable a.Valid := inferInstanceAs (Decidable (a.lo ≤ a.hi))

/-- `c` is the smallest interval that contains the set `s`, and both its ends belong to `s`. -/
def Hull (s : Set K) (c : Iv K) : Prop := IsLeast s c.lo ∧ IsGreatest s c.hi

/-- The vectors in an interval vector. -/
def IVec.set (a : IVec K) : Set (V3 K) := {v | v.x ∈ a.x.set ∧ v.y ∈ a.y.set ∧ v.z ∈ a.z.set}
/-- The matrices in an interval matrix. -/
def IMat.set (a : IMat K) : Set (M3 K) := {m | m.r0 ∈ a.r0.set ∧ m.r1 ∈ a.r1.set ∧ m.r2 ∈ a.r2.set}
/-- No interval is reversed. -/
def IVec.Valid (a : IVec K) : Prop := a.x.Valid ∧ a.y.Valid ∧ a.z.Valid
@[inherit_doc IVec.Valid] def IMat.Valid (a : IMat K) : Prop := a.r0.Valid ∧ a.r1.Valid ∧ a.r2.Valid

end Fcl
