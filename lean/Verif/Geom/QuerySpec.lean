import Verif.Geom.Shapes
import Verif.AABB.Spec

/-!
# What collision and distance queries mean (specification)
-/

namespace Fcl

/-- The two sets have a common point. -/
def Touch (A B : Set (V3 ℝ)) : Prop := ∃ p, p ∈ A ∧ p ∈ B

/-- `d` is the distance of the two sets, and `p` and `q` are points of them that realise it. -/
structure IsDist (A B : Set (V3 ℝ)) (d : ℝ) (p q : V3 ℝ) : Prop where
  left : p ∈ A
  right : q ∈ B
  attained : p.dist q = d
  least : ∀ a ∈ A, ∀ b ∈ B, d ≤ a.dist b

/-- The set moved by `t`. -/
def Moved (B : Set (V3 ℝ)) (t : V3 ℝ) : Set (V3 ℝ) := {q | ∃ p ∈ B, q = p + t}

/-- The length of a vector. -/
noncomputable def V3.len (t : V3 ℝ) : ℝ := t.dist ⟨0, 0, 0⟩

/-- `d` is the penetration depth of two sets: moving the second one by less keeps them in contact, and arbitrarily
little more than `d` can separate them. -/
def IsDepth (A B : Set (V3 ℝ)) (d : ℝ) : Prop :=
  (∀ t : V3 ℝ, t.len < d → Touch A (Moved B t)) ∧ ∀ e > 0, ∃ t : V3 ℝ, t.len ≤ d + e ∧ ¬ Touch A (Moved B t)

/-- Moving the second set by any more than `d` along the unit vector `n` separates the sets. -/
def SeparatesAlong (A B : Set (V3 ℝ)) (n : V3 ℝ) (d : ℝ) : Prop :=
  n.len = 1 ∧ ∀ e > 0, ¬ Touch A (Moved B ⟨(d + e) * n.x, (d + e) * n.y, (d + e) * n.z⟩)

/-- `ContactPoint<S>`, narrowphase/contact_point.h 48-70: normal from the first to the second object, position,
penetration depth. -/
structure CPoint where
  normal : V3 ℝ
  pos : V3 ℝ
  depth : ℝ

/-- Return value and `contacts` of an `…Intersect` function. -/
abbrev HitOut := Bool × Option (List CPoint)
/-- Return value, `*dist` and the two points of a `…Distance` function. -/
structure DistOut where
  ret : Bool
  dist : ℝ
  pts : Option (V3 ℝ × V3 ℝ)

/-- What an `…Intersect` function must do: it returns whether the sets have a common point; if so, and if contacts are
wanted, it appends one contact, with property `P`. -/
structure HitSpec (A B : Set (V3 ℝ)) (contacts : Option (List CPoint)) (o : HitOut) (P : CPoint → Prop) : Prop where
  ret : o.1 = true ↔ Touch A B
  miss : o.1 = false → o.2 = contacts
  null : contacts = none → o.2 = none
  contact : o.1 = true → ∀ l, contacts = some l → ∃ k, o.2 = some (l ++ [k]) ∧ P k

/-- What a `…Distance` function must do: it returns whether the sets have no common point; if so, it gives their distance
and two points that realise it, otherwise the distance -1. -/
structure DistSpec (A B : Set (V3 ℝ)) (o : DistOut) : Prop where
  ret : o.ret = true ↔ ¬ Touch A B
  apart : o.ret = true → 0 < o.dist ∧ ∃ p q, o.pts = some (p, q) ∧ IsDist A B o.dist p q
  contact : o.ret = false → o.dist = -1 ∧ o.pts = none

end Fcl
