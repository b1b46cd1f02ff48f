import Verif.Mass.Spec
import Mathlib.Data.Real.Sign

/-!
# Solids bounded by polyhedra (specification)

None of the code is used.
-/

namespace Fcl
namespace Mass
open MeasureTheory

/-- A triangle in space. -/
abbrev Tri3 := V3 ℝ × V3 ℝ × V3 ℝ

/-- The tetrahedron with the tip `p` over the triangle. -/
def tetra (p : V3 ℝ) (t : Tri3) : Set (V3 ℝ) :=
  {q | ∃ u v w : ℝ, 0 ≤ u ∧ 0 ≤ v ∧ 0 ≤ w ∧ u + v + w ≤ 1 ∧ q = p + u • (t.1 - p) + v • (t.2.1 - p) + w • (t.2.2 - p)}

/-- Positive if `p` sees the triangle from behind, that is clockwise. -/
noncomputable def orient (p : V3 ℝ) (t : Tri3) : ℝ := ((t.1 - p).cross (t.2.1 - p)).dot (t.2.2 - p)

open Classical in
/-- The surface made of the triangles winds once around the points of `X` and not at all around the other points. The winding
number is counted with tetrahedra over the triangles with a common tip `p`; points in a set of volume zero (on the triangles, for
example) do not matter. -/
def Encloses (T : List Tri3) (p : V3 ℝ) (X : Set (V3 ℝ)) : Prop :=
  ∀ᵐ q : (ℝ × ℝ) × ℝ, (T.map fun t => if toV q ∈ tetra p t then Real.sign (orient p t) else 0).sum = if toV q ∈ X then 1 else 0

/-- The sides of the triangles in the direction in which they are run through. -/
def sides3 (T : List Tri3) : List (V3 ℝ × V3 ℝ) := T.flatMap fun t => [(t.1, t.2.1), (t.2.1, t.2.2), (t.2.2, t.1)]

/-- The surface has no border: each side is run through as often in one direction as in the other. -/
def NoBorder (T : List Tri3) : Prop := (sides3 T).Perm ((sides3 T).map Prod.swap)

/-- The triangles with the corners given by index. -/
def Corners (vs : List (V3 ℝ)) (ts : List (ℕ × ℕ × ℕ)) (T : List Tri3) : Prop :=
  List.Forall₂ (fun t s => vs[t.1]? = some s.1 ∧ vs[t.2.1]? = some s.2.1 ∧ vs[t.2.2]? = some s.2.2) ts T

/-- A polygon: its corners in order. -/
abbrev Polygon := List (V3 ℝ)

/-- The sides of a polygon: each corner with the next, the last with the first. -/
def polySides (P : Polygon) : List (V3 ℝ × V3 ℝ) := P.zip (P.rotate 1)

/-- The mean of the corners. -/
noncomputable def mean (P : Polygon) : V3 ℝ := (1 / (P.length : ℝ)) • P.sum

/-- The polygon cut into triangles at the mean of its corners. -/
noncomputable def fan (P : Polygon) : List Tri3 := (polySides P).map fun e => (e.1, e.2, mean P)

/-- The polygons have no border: each side occurs as often in one direction as in the other. -/
def NoBorderP (Ps : List Polygon) : Prop := (Ps.flatMap polySides).Perm ((Ps.flatMap polySides).map Prod.swap)

/-- `faces` lists the polygons as `Convex` wants them (convex.h 73-90): for each the number of its corners and their indices. -/
def Lists (vs : List (V3 ℝ)) (faces : List ℕ) (Ps : List Polygon) : Prop :=
  ∃ L : List (List ℕ), faces = L.flatMap (fun l => l.length :: l) ∧
    List.Forall₂ (fun l P => l.length = P.length ∧ ∀ j : ℕ, j < P.length → vs[l.getD j 0]? = P[j]?) L Ps

end Mass
end Fcl
