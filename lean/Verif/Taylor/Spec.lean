import Verif.Taylor.Model
import Verif.Taylor.IntervalSpec

/-! # What a Taylor model encloses -/

namespace Fcl
variable {K : Type*} [Field K] [LinearOrder K]

/-- The polynomial part of a Taylor model. -/
def TM.poly (m : TM K) (t : K) : K := m.c0 + m.c1 * t + m.c2 * t ^ 2 + m.c3 * t ^ 3

/-- The model encloses the function over the times `[l, r]`: the function differs from the polynomial by a member
of the remainder. -/
def Encl (l r : K) (m : TM K) (f : K → K) : Prop := ∀ t ∈ Set.Icc l r, f t - m.poly t ∈ m.r.set
/-- The same for the three components of a vector. -/
def EnclV (l r : K) (m : TVec K) (f : K → V3 K) : Prop :=
  Encl l r m.x (fun t => (f t).x) ∧ Encl l r m.y (fun t => (f t).y) ∧ Encl l r m.z (fun t => (f t).z)
/-- The same for the nine entries of a matrix. -/
def EnclM (l r : K) (m : TMat K) (f : K → M3 K) : Prop :=
  EnclV l r m.r0 (fun t => (f t).r0) ∧ EnclV l r m.r1 (fun t => (f t).r1) ∧ EnclV l r m.r2 (fun t => (f t).r2)

end Fcl
