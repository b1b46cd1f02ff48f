import Verif.Geom.Shapes
import Mathlib.MeasureTheory.Integral.Prod
import Mathlib.MeasureTheory.Measure.Lebesgue.Basic

/-!
# What the mass properties of a solid are (specification)

Integrals with respect to the Lebesgue measure, for density 1. None of the code is used.
-/

namespace Fcl
namespace Mass
open MeasureTheory

/-- The point with three coordinates. -/
def toV (p : (ℝ × ℝ) × ℝ) : V3 ℝ := ⟨p.1.1, p.1.2, p.2⟩

/-- The integral of `f` over the solid `X`. -/
noncomputable def over (X : Set (V3 ℝ)) (f : V3 ℝ → ℝ) : ℝ := ∫ p in toV ⁻¹' X, f (toV p)

/-- The moment of inertia of `X` about the point `c`: `∫ |p - c|² - (p - c)(p - c)ᵀ`. -/
structure IsInertia (X : Set (V3 ℝ)) (c : V3 ℝ) (I : M3 ℝ) : Prop where
  xx : I.r0.x = over X fun p => (p.y - c.y) * (p.y - c.y) + (p.z - c.z) * (p.z - c.z)
  xy : I.r0.y = -over X fun p => (p.x - c.x) * (p.y - c.y)
  xz : I.r0.z = -over X fun p => (p.x - c.x) * (p.z - c.z)
  yx : I.r1.x = -over X fun p => (p.y - c.y) * (p.x - c.x)
  yy : I.r1.y = over X fun p => (p.x - c.x) * (p.x - c.x) + (p.z - c.z) * (p.z - c.z)
  yz : I.r1.z = -over X fun p => (p.y - c.y) * (p.z - c.z)
  zx : I.r2.x = -over X fun p => (p.z - c.z) * (p.x - c.x)
  zy : I.r2.y = -over X fun p => (p.z - c.z) * (p.y - c.y)
  zz : I.r2.z = over X fun p => (p.x - c.x) * (p.x - c.x) + (p.y - c.y) * (p.y - c.y)

/-- The volume of `X`. -/
def IsVolume (X : Set (V3 ℝ)) (v : ℝ) : Prop := v = over X fun _ => 1

/-- The centre of mass of `X`: its volume times the point is the integral of the position. -/
structure IsCOM (X : Set (V3 ℝ)) (c : V3 ℝ) : Prop where
  x : (over X fun _ => 1) * c.x = over X fun p => p.x
  y : (over X fun _ => 1) * c.y = over X fun p => p.y
  z : (over X fun _ => 1) * c.z = over X fun p => p.z

/-- The solid is bounded and closed, so that the integrals exist. -/
def Solid (X : Set (V3 ℝ)) : Prop := IsCompact (toV ⁻¹' X)

end Mass
end Fcl
