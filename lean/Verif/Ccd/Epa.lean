import Verif.Ccd.PolytopeFace

/-!
# The penetration depth of the default solver: the expanding polytope algorithm

`/repo/include/fcl/narrowphase/detail/convexity_based_algorithm/gjk_libccd-inl.h`: the direction of the next support point (1520-1563), the
test of convergence (1584-1622), the correction of the nearest feature (1706-1777), the loop (1779-1832), the points (2162-2215) and the
signed distance (2217-2264), over the reals.

The distance of an element of the polytope to the origin and its nearest point (`dist` and `witness` of libccd) are computed from its vertices.
The element that `ccdPtNearest` gives is a parameter. The first polytope is modelled for simplices of four and three points; the one for two points
(619-723) is a parameter, which may also find a touching contact. Allocation never fails.
-/

namespace Fcl
namespace Pt

open V3 Ccd

/-- The polytope with the positions of its vertices only. -/
def Poly.bare (P : Poly SP) : Poly (V3 ℝ) := ⟨P.verts.map SP.v, P.edges, P.faces, P.nextE, P.nextF⟩

/-- The third corner of a face with the edges `e` and `e'`, lines 2192-2199 (and `ccdPtFaceVec3` of libccd). -/
def third (e e' : Edge) : ℕ := if e'.a ≠ e.a ∧ e'.a ≠ e.b then e'.a else e'.b

/-- The vertices of an element, in the order of `penEPAPosClosest`, 2166-2200. -/
def Poly.points (P : Poly SP) : El → Option (List SP)
  | .vertex i => (P.verts[i]?).map fun v => [v]
  | .edge e =>
    match P.edges e with
    | none => none
    | some ed =>
      match P.verts[ed.a]?, P.verts[ed.b]? with
      | some a, some b => some [a, b]
      | _, _ => none
  | .face f =>
    match P.firstEdges f with
    | none => none
    | some (e, e') =>
      match P.verts[e.a]?, P.verts[e.b]?, P.verts[third e e']? with
      | some a, some b, some c => some [a, b, c]
      | _, _, _ => none

/-- The squared distance of a point to some vertices, and the nearest point. -/
noncomputable def nearTo (l : Lib) (x : V3 ℝ) : List SP → ℝ × V3 ℝ
  | [a] => ((a.v - x).dot (a.v - x), a.v)
  | [a, b] => l.seg x a.v b.v
  | [a, b, c] => l.tri x a.v b.v c.v
  | _ => (0, 0)

/-- `dist` and `witness` of an element. -/
noncomputable def Poly.near (l : Lib) (P : Poly SP) (el : El) : Option (ℝ × V3 ℝ) := (P.points el).map (nearTo l 0)

/-- `supportEPADirection`, 1520-1563; `none` for the exception, and for the zero vector, which cannot be normalized. -/
noncomputable def epaDir (l : Lib) (c : Cfg) (P : Poly SP) (el : El) : Option (V3 ℝ) :=
  match P.near l el with
  | none => none
  | some (d, w) =>
    let dir : Option (V3 ℝ) :=
      if isZero c.ceps d then
        match el with
        | .vertex _ => none
        | .edge e =>
          match P.edges e with
          | some ⟨_, _, some f, _⟩ => some (faceNormal c.big P.bare f)
          | _ => none
        | .face f => some (faceNormal c.big P.bare f)
      else some w
    match dir with
    | none => none
    | some dir => if dir = 0 then none else some dir.normalized

/-- What `nextSupport` gives: -1, 0 with the point, or an exception or NaNs. -/
inductive Next
  | stop
  | go (p : SP)
  | undef

/-- `nextSupport`, 1584-1622. `et` is `ccd->epa_tolerance`. -/
noncomputable def nextSupport (l : Lib) (c : Cfg) (et : ℝ) (sup : V3 ℝ → Option SP) (P : Poly SP) (el : El) : Next :=
  match el with
  | .vertex _ => .stop
  | el =>
    match P.points el, epaDir l c P el with
    | some pts, some dir =>
      match sup dir with
      | none => .undef
      | some out =>
        if out.v.dot dir - √(nearTo l 0 pts).1 < et then .stop
        else if √(nearTo l out.v pts).1 < et then .stop
        else .go out
    | _, _ => .undef

/-- `validateNearestFeatureOfPolytopeBeingEdge`, 1706-1777: the nearest feature for the edge `e`; `none` for the exception. -/
noncomputable def validate (l : Lib) (c : Cfg) (P : Poly SP) (e : ℕ) : Option El :=
  match P.edges e, P.near l (.edge e) with
  | some ⟨a, _, some f, some g⟩, some (d, _) =>
    let kEps := 2 * c.eps
    let v0 := P.bare.pos a
    let thr := kEps * max 1 (√(v0.dot v0))
    let df := -(faceNormal c.big P.bare f).normalized.dot v0
    let dg := -(faceNormal c.big P.bare g).normalized.dot v0
    if df > thr ∨ dg > thr then none
    else if d < kEps * kEps then some (.edge e)
    else if df < dg then some (.face g) else some (.face f)
  | _, _ => none

/-- The nearest feature that the loop goes on with, 1809-1818. -/
noncomputable def feature (l : Lib) (c : Cfg) (P : Poly SP) : El → Option El
  | .edge e => validate l c P e
  | el => some el

/-- `triangle_area_is_zero` of the new point and the ends of an edge, lines 1289-1290. -/
noncomputable def flatEdge (c : Cfg) (P : Poly SP) (q : V3 ℝ) (e : ℕ) : Bool :=
  match P.edges e with
  | none => false
  | some ed => flatTri c q (P.bare.pos ed.a) (P.bare.pos ed.b)

/-- The edges of a tetrahedron, lines 921-935 and, for `flip`, 825-842: ends, and the faces in the order in which `ccdPtAddFace` of libccd adds
them. -/
def tetraE (flip : Bool) : List Edge :=
  match flip with
  | false => [⟨0, 1, some 0, some 1⟩, ⟨1, 2, some 0, some 2⟩, ⟨2, 0, some 0, some 3⟩, ⟨3, 0, some 1, some 3⟩, ⟨3, 1, some 1, some 2⟩, ⟨3, 2, some 2, some 3⟩]
  | true => [⟨0, 1, some 0, some 1⟩, ⟨1, 2, some 0, some 2⟩, ⟨2, 0, some 0, some 3⟩, ⟨0, 3, some 1, some 3⟩, ⟨1, 3, some 1, some 2⟩, ⟨2, 3, some 2, some 3⟩]

/-- Its faces, lines 932-935 and 839-842. -/
def tetraF : List Face := [⟨0, 1, 2⟩, ⟨3, 4, 0⟩, ⟨4, 5, 1⟩, ⟨5, 3, 2⟩]

/-- The tetrahedron of four points, lines 916-939 and 818-846. -/
def tetra (flip : Bool) (a b c d : SP) : Poly SP := ⟨[a, b, c, d], fun e => (tetraE flip)[e]?, fun f => tetraF[f]?, 6, 4⟩

/-- What the functions that make the first polytope give: the return value -1 with a polytope and the nearest element, or 0 with a polytope. -/
inductive Start
  | touching (P : Poly SP) (el : El)
  | ok (P : Poly SP)

/-- The polytope with one face, lines 802-811. -/
def oneFace (a b c : SP) : Poly SP :=
  ⟨[a, b, c], fun e => [(⟨0, 1, some 0, none⟩ : Edge), ⟨1, 2, some 0, none⟩, ⟨2, 0, some 0, none⟩][e]?, fun f => [(⟨0, 1, 2⟩ : Face)][f]?, 3, 1⟩

/-- `convert2SimplexToTetrahedron`, 767-853. -/
noncomputable def start3 (l : Lib) (k : Cfg) (sup : V3 ℝ → Option SP) (a b c : SP) : Option Start :=
  let dir := (b.v - a.v).cross (c.v - a.v)
  match sup dir, sup (-dir) with
  | some d, some d2 =>
    let dd := (l.tri d.v a.v b.v c.v).1
    let dd2 := (l.tri d2.v a.v b.v c.v).1
    if isZero k.ceps dd || isZero k.ceps dd2 then some (.touching (oneFace a b c) (.face 0))
    else if |dd| > |dd2| then some (.ok (tetra true a b c d)) else some (.ok (tetra true a b c d2))
  | _, _ => none

/-- `simplexToPolytope4`, 857-940, and the choice by the number of points, 1791-1800. `two` makes a polytope from two points. -/
noncomputable def firstPoly (l : Lib) (k : Cfg) (sup : V3 ℝ → Option SP) (two : SP → SP → Option Start) : List SP → Option Start
  | [a, b, c, d] =>
    if tiny k (l.tri 0 a.v b.v c.v).1 then start3 l k sup a b c
    else if tiny k (l.tri 0 a.v c.v d.v).1 then start3 l k sup a c d
    else if tiny k (l.tri 0 a.v b.v d.v).1 then start3 l k sup a b d
    else if tiny k (l.tri 0 b.v c.v d.v).1 then start3 l k sup b c d
    else some (.ok (tetra false a b c d))
  | [a, b, c] => start3 l k sup a b c
  | [a, b] => two a b
  | _ => none

/-- How `__ccdEPA` ends: 0 with the polytope and the nearest element; an exception or NaNs; it is not over within the iterations it is given. -/
inductive EOut
  | done (P : Poly SP) (el : El)
  | failed
  | fuel

/-- The loop of `__ccdEPA`, 1807-1829. `nearest` is `ccdPtNearest`. -/
noncomputable def epaLoop (l : Lib) (c : Cfg) (et : ℝ) (sup : V3 ℝ → Option SP) (nearest : Poly SP → El) (order : Finset ℕ → List ℕ) :
    ℕ → Poly SP → EOut
  | 0, _ => .fuel
  | n + 1, P =>
    match feature l c P (nearest P) with
    | none => .failed
    | some el =>
      match nextSupport l c et sup P el with
      | .undef => .failed
      | .stop => .done P el
      | .go p =>
        match expandPolytope P (isOutside c.big P.bare p.v) (flatEdge c P p.v) order P.nextF el p with
        | .error _ => .failed
        | .ok R => epaLoop l c et sup nearest order n R

/-- The depth and the points that `ccdGJKSignedDist` takes from the nearest element, 2230-2240 and `penEPAPosClosest`, 2162-2215: the negative
distance, and the points of the two shapes. -/
noncomputable def depthOf (l : Lib) (c : Cfg) (P : Poly SP) (el : El) : Option (ℝ × V3 ℝ × V3 ℝ) :=
  match P.points el with
  | none => none
  | some pts => (closestPoints c pts (some (nearTo l 0 pts).2)).map fun q => (-√(nearTo l 0 pts).1, q)

end Pt
end Fcl
