import Verif.Ccd.PolytopeSpec
import Verif.Ccd.GjkLemmas

/-!
# The polytope of the default solver: which side of a face is outside

`/repo/include/fcl/narrowphase/detail/convexity_based_algorithm/gjk_libccd-inl.h` 1013-1131, in exact arithmetic. The exception for a face
without area (1017-1028) is of debug builds only and is left out.
-/

namespace Fcl
namespace Pt

open V3

/-- The position of a vertex: `v.v` of `ccd_pt_vertex_t`. -/
noncomputable def Poly.pos (P : Poly (V3 ℝ)) (u : ℕ) : V3 ℝ := P.verts.getD u 0

/-- `dist_tol`, line 1065. -/
noncomputable def distTol : ℝ := 1 / 100

/-- The loop over the vertices and what follows it, lines 1078-1110: `dir` or its opposite. `mx` and `mn` are `max_distance_to_plane` and
`min_distance_to_plane`. -/
noncomputable def scan (dir unit : V3 ℝ) (od : ℝ) : List (V3 ℝ) → ℝ → ℝ → V3 ℝ
  | [], mx, mn => if mx > |mn| then -dir else dir
  | v :: vs, mx, mn =>
    let d := unit.dot v - od
    if d > distTol then -dir
    else if d < -distTol then dir
    else scan dir unit od vs (max mx d) (min mn d)

/-- The first two edges of a face. -/
def Poly.firstEdges {V : Type*} (P : Poly V) (f : ℕ) : Option (Edge × Edge) :=
  match P.faces f with
  | none => none
  | some fc =>
    match P.edges fc.e0, P.edges fc.e1 with
    | some e, some e' => some (e, e')
    | _, _ => none

/-- `faceNormalPointingOutward`, 1013-1114. `big` is `CCD_REAL_MAX`. -/
noncomputable def faceNormal (big : ℝ) (P : Poly (V3 ℝ)) (f : ℕ) : V3 ℝ :=
  match P.firstEdges f with
  | none => 0
  | some (e, e') =>
    let e1 := P.pos e.b - P.pos e.a
    let e2 := P.pos e'.b - P.pos e'.a
    let dir := e1.cross e2
    let unit := (1 / √(dir.dot dir)) • dir
    let od := unit.dot (P.pos e.a)
    if od < -distTol then -dir
    else if -distTol ≤ od ∧ od ≤ distTol then scan dir unit od P.verts (-big) big
    else dir

/-- `isOutsidePolytopeFace`, 1123-1131. -/
noncomputable def isOutside (big : ℝ) (P : Poly (V3 ℝ)) (q : V3 ℝ) (f : ℕ) : Bool :=
  match P.firstEdges f with
  | none => false
  | some (e, _) => decide (0 < (faceNormal big P f).dot (q - P.pos e.a))

/-! ### Specification -/

/-- The vertex `w` is a corner of the face `f`. -/
def Poly.Corner {V : Type*} (P : Poly V) (w f : ℕ) : Prop := ∃ e, P.Side e f ∧ P.End w e

/-- `n` is an outward normal of the face `f`: all the vertices of the polytope are behind the plane of the face. -/
def Outward (P : Poly (V3 ℝ)) (f : ℕ) (n : V3 ℝ) : Prop :=
  n ≠ 0 ∧ ∀ w, P.Corner w f → ∀ u < P.verts.length, n.dot (P.pos u - P.pos w) ≤ 0

/-- A convex polytope: a closed surface of triangles, each with all the vertices behind its plane; vertices of the surface are at different
places; two edges at a vertex do not overlap; the vertices are not all in one plane. -/
structure Convex (P : Poly (V3 ℝ)) : Prop where
  closed : Closed P
  behind : ∀ f, P.faces f ≠ none → ∃ n, Outward P f n
  apart : ∀ e e' w w', P.End w e → P.End w' e' → P.pos w = P.pos w' → w = w'
  strict : ∀ e e' w u u', P.Joins e w u → P.Joins e' w u' → ∀ t : ℝ, 0 < t → P.pos u' - P.pos w = t • (P.pos u - P.pos w) → e = e'
  full : ∀ (k w : V3 ℝ), k ≠ 0 → ∃ u < P.verts.length, k.dot (P.pos u - w) ≠ 0

/-- A point that no plane separates from the vertices is in their convex hull. -/
def Within (P : Poly (V3 ℝ)) (p : V3 ℝ) : Prop :=
  ∀ (k : V3 ℝ) (c : ℝ), (∀ u < P.verts.length, k.dot (P.pos u) ≤ c) → k.dot p ≤ c

/-- The point `q` is in front of the face `f`. -/
def Sees (P : Poly (V3 ℝ)) (q : V3 ℝ) (f : ℕ) : Prop := ∃ n, Outward P f n ∧ ∃ w, P.Corner w f ∧ 0 < n.dot (q - P.pos w)

end Pt
end Fcl
