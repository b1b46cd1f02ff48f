import Verif.Ccd.Polytope

/-!
# What a closed surface is

Independent of the algorithms: every edge is a side of exactly two triangles, and every triangle has three sides that close up.
-/

namespace Fcl
namespace Pt

variable {V : Type*}

/-- The edge `e` is a side of the face `f`. -/
def Poly.Side (P : Poly V) (e f : ℕ) : Prop := ∃ fc, P.faces f = some fc ∧ e ∈ fc.edges

/-- The edge `e` joins the vertices `a` and `b`. -/
def Poly.Joins (P : Poly V) (e a b : ℕ) : Prop :=
  ∃ ed, P.edges e = some ed ∧ ((ed.a = a ∧ ed.b = b) ∨ (ed.a = b ∧ ed.b = a))

/-- The vertex `v` is an end of the edge `e`. -/
def Poly.End (P : Poly V) (v e : ℕ) : Prop := ∃ ed, P.edges e = some ed ∧ (ed.a = v ∨ ed.b = v)

/-- A closed surface of triangles: the sides of a face are three different edges between three vertices; an edge has exactly two faces,
which are those it refers to; the numbers of new elements are not in use. -/
structure Closed (P : Poly V) : Prop where
  tri : ∀ f fc, P.faces f = some fc → fc.edges.Nodup ∧ ∃ a b c, a ≠ b ∧ b ≠ c ∧ c ≠ a ∧
    P.Joins fc.e0 a b ∧ ((P.Joins fc.e1 b c ∧ P.Joins fc.e2 c a) ∨ (P.Joins fc.e1 a c ∧ P.Joins fc.e2 c b))
  two : ∀ e ed, P.edges e = some ed → ∃ f g, ed.f = some f ∧ ed.g = some g ∧ f ≠ g ∧ ∀ h, P.Side e h ↔ h = f ∨ h = g
  ends : ∀ e ed, P.edges e = some ed → ed.a < P.verts.length ∧ ed.b < P.verts.length
  newE : ∀ e, P.edges e ≠ none → e < P.nextE
  newF : ∀ f, P.faces f ≠ none → f < P.nextF

/-- The faces that can be reached from `f` by going over edges `e` to faces `h` for which `ok e h` holds. -/
inductive Reach (P : Poly V) (ok : ℕ → ℕ → Prop) (f : ℕ) : ℕ → Prop
  | refl : Reach P ok f f
  | step {g h e : ℕ} : Reach P ok f g → ok e h → P.Side e g → P.Side e h → Reach P ok f h

/-- A patch around the face `f`, for any tests of visibility. -/
structure IsPatch (P : Poly V) (outside flat : ℕ → Bool) (f : ℕ) (s : Patch) : Prop where
  /-- The patch has the face it starts from, and consists of faces. -/
  start : f ∈ s.visible
  faces : ∀ g ∈ s.visible, P.faces g ≠ none
  /-- The internal edges are those with both faces in the patch. -/
  inner : ∀ e, e ∈ s.inner ↔ P.edges e ≠ none ∧ ∀ g, P.Side e g → g ∈ s.visible
  /-- The border edges are those with one face in it. -/
  border : ∀ e, e ∈ s.border ↔ (∃ g ∈ s.visible, P.Side e g) ∧ ∃ g, P.Side e g ∧ g ∉ s.visible
  /-- The patch is in one piece: it is reached from its first face by going over internal edges, each to a face that is seen or over an edge
  that is in line with the point. -/
  joined : ∀ g ∈ s.visible, Reach P (fun e h => e ∈ s.inner ∧ (outside h = true ∨ flat e = true)) f g
  /-- The faces around it are not seen. -/
  unseen : ∀ e ∈ s.border, ∀ g, P.Side e g → g ∉ s.visible → outside g = false

end Pt
end Fcl
