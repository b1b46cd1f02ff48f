import Mathlib.Data.Finset.Card
import Mathlib.Data.Finset.Range
import Mathlib.Order.Basic

/-!
# The polytope of the default solver: the surface and its expansion

`/repo/include/fcl/narrowphase/detail/convexity_based_algorithm/gjk_libccd-inl.h` 1201-1510: the patch of the surface that is seen
from a new point, and the expansion of the polytope by it.

The polytope is `ccd_pt_t` of libccd, which is not in /repo: vertices, edges with their two ends and up to two faces, faces with three
edges. Pointers are numbers here, and an element that is freed has none. The calls of libccd (`ccdPtAddVertex`, `ccdPtAddEdge`,
`ccdPtAddFace`, `ccdPtDelEdge`, `ccdPtDelFace`) are modelled from its interface, polytope.h; allocation never fails. The two tests of
visibility are parameters: what is proved holds for all of their answers, those with rounding errors included.
-/

namespace Fcl
namespace Pt

/-- `ccd_pt_edge_t`: `vertex[0]`, `vertex[1]`, `faces[0]`, `faces[1]`. -/
structure Edge where
  a : ℕ
  b : ℕ
  f : Option ℕ
  g : Option ℕ
deriving DecidableEq

/-- `ccd_pt_face_t`: the three edges. -/
structure Face where
  e0 : ℕ
  e1 : ℕ
  e2 : ℕ
deriving DecidableEq

/-- The edges of a face in their order. -/
def Face.edges (f : Face) : List ℕ := [f.e0, f.e1, f.e2]

/-- `ccd_pt_t`. A vertex is never freed: its number is its place in the list. -/
structure Poly (V : Type*) where
  verts : List V
  edges : ℕ → Option Edge
  faces : ℕ → Option Face
  nextE : ℕ
  nextF : ℕ

variable {V : Type*}

/-! ### The visible patch -/

/-- The four sets of `ComputeVisiblePatchRecursive`, 1243-1250. -/
structure Patch where
  border : Finset ℕ
  visible : Finset ℕ
  hidden : Finset ℕ
  inner : Finset ℕ

/-- How the computation fails: it is not over within the levels it is given; an edge is classified as border and as internal (the
exceptions of 1206-1210 and 1224-1228); the patch fails its check (1368-1373, debug builds); the nearest element is a vertex (1427-1431)
or an edge of which no face is seen (1444-1448); an edge without a second face or a freed element is used (undefined). -/
inductive Halt
  | fuel
  | twice
  | insane
  | vertex
  | touching
  | undef
deriving DecidableEq

/-- `ClassifyBorderEdge`, 1201-1211. -/
def classifyBorder (e : ℕ) (s : Patch) : Except Halt Patch :=
  if e ∈ s.inner then .error .twice else .ok { s with border := insert e s.border }

/-- `ClassifyInternalEdge`, 1219-1229. -/
def classifyInner (e : ℕ) (s : Patch) : Except Halt Patch :=
  if e ∈ s.border then .error .twice else .ok { s with inner := insert e s.inner }

/-- The face across an edge, line 1253. -/
def Edge.across (e : Edge) (f : ℕ) : Option ℕ := if e.f = some f then e.g else e.f

/-- `ComputeVisiblePatchRecursive`, 1243-1313, with the edge instead of its index. `outside g` is the test
`isOutsidePolytopeFace(polytope, g, query_point)` and `flat e` is `triangle_area_is_zero` of the point and the ends of the edge. -/
def visit (P : Poly V) (outside flat : ℕ → Bool) : ℕ → ℕ → ℕ → Patch → Except Halt Patch
  | 0, _, _, _ => .error .fuel
  | n + 1, f, e, s =>
    match P.edges e with
    | none => .error .undef
    | some ed =>
      match ed.across f with
      | none => .error .undef
      | some g =>
        if g ∈ s.visible then classifyInner e s
        else if g ∈ s.hidden then classifyBorder e s
        else if outside g || flat e then
          match P.faces g with
          | none => .error .undef
          | some fc =>
            (classifyInner e { s with visible := insert g s.visible }).bind fun s =>
              fc.edges.foldlM (fun s e' => if e' ≠ e then visit P outside flat n g e' s else .ok s) s
        else (classifyBorder e s).map fun s => { s with hidden := insert g s.hidden }

/-- `ComputeVisiblePatch`, 1346-1375, from the face `f`. -/
def visiblePatch (P : Poly V) (outside flat : ℕ → Bool) (fuel : ℕ) (f : ℕ) : Except Halt Patch :=
  match P.faces f with
  | none => .error .undef
  | some fc => fc.edges.foldlM (fun s e => visit P outside flat fuel f e s) ⟨∅, {f}, ∅, ∅⟩

/-- `ComputeVisiblePatchRecursiveSanityCheck`, 1146-1193, for the elements that the polytope has. -/
def sane (P : Poly V) (s : Patch) : Bool :=
  (List.range P.nextF).all (fun f =>
    match P.faces f with
    | none => true
    | some fc => if fc.edges.any (fun e => decide (e ∈ s.inner)) then decide (f ∈ s.visible) else true) &&
  (List.range P.nextE).all (fun e =>
    match P.edges e with
    | none => true
    | some ed =>
      let v1 := ed.f.any fun x => decide (x ∈ s.visible)
      let v2 := ed.g.any fun x => decide (x ∈ s.visible)
      if v1 && v2 then decide (e ∈ s.inner) else if v1 || v2 then decide (e ∈ s.border) else true) &&
  decide (∀ b ∈ s.border, b ∉ s.inner)

/-! ### The operations of libccd -/

/-- The value of a function changed at one place. -/
def put {α : Type*} (m : ℕ → Option α) (i : ℕ) (x : Option α) : ℕ → Option α := fun j => if j = i then x else m j

/-- The faces of an edge after one of its faces is freed: `faces[]` is kept aligned to the lower index. -/
def Edge.drop (f : ℕ) (e : Edge) : Edge := { e with f := if e.f = some f then e.g else e.f, g := none }

/-- The faces of an edge after one is added. -/
def Edge.join (f : ℕ) (e : Edge) : Edge := if e.f = none then { e with f := some f } else { e with g := some f }

/-- Changes one edge. -/
def Poly.onEdge (P : Poly V) (h : Edge → Edge) (e : ℕ) : Poly V := { P with edges := put P.edges e ((P.edges e).map h) }

/-- `ccdPtDelFace`. -/
def Poly.delFace (P : Poly V) (f : ℕ) : Poly V :=
  match P.faces f with
  | none => P
  | some fc => { fc.edges.foldl (fun P e => P.onEdge (Edge.drop f) e) P with faces := put P.faces f none }

/-- `ccdPtDelEdge`: an edge that has a face is not freed. -/
def Poly.delEdge (P : Poly V) (e : ℕ) : Poly V :=
  match P.edges e with
  | none => P
  | some ed => if ed.f = none then { P with edges := put P.edges e none } else P

/-- `ccdPtAddVertex`; the number of the vertex is the former length of the list. -/
def Poly.addVertex (P : Poly V) (v : V) : Poly V := { P with verts := P.verts ++ [v] }

/-- `ccdPtAddEdge`; the number of the edge is the former `nextE`. -/
def Poly.addEdge (P : Poly V) (a b : ℕ) : Poly V :=
  { P with edges := put P.edges P.nextE (some ⟨a, b, none, none⟩), nextE := P.nextE + 1 }

/-- `ccdPtAddFace`; the number of the face is the former `nextF`. -/
def Poly.addFace (P : Poly V) (e0 e1 e2 : ℕ) : Poly V :=
  { ([e0, e1, e2].foldl (fun P e => P.onEdge (Edge.join P.nextF) e) P) with
    faces := put P.faces P.nextF (some ⟨e0, e1, e2⟩), nextF := P.nextF + 1 }

/-! ### The expansion -/

/-- The edge from the new vertex `nv` to the vertex `v`, lines 1494-1503: the polytope, `map_vertex_to_new_edge` and the edge. -/
def spoke (nv v : ℕ) (P : Poly V) (m : ℕ → Option ℕ) : Poly V × (ℕ → Option ℕ) × ℕ :=
  match m v with
  | some e => (P, m, e)
  | none => (P.addEdge nv v, put m v (some P.nextE), P.nextE)

/-- One border edge, lines 1489-1507. -/
def addSide (nv : ℕ) (s : Poly V × (ℕ → Option ℕ)) (e : ℕ) : Poly V × (ℕ → Option ℕ) :=
  match s.1.edges e with
  | none => s
  | some ed =>
    let r := spoke nv ed.a s.1 s.2
    let q := spoke nv ed.b r.1 r.2.1
    (q.1.addFace e r.2.2 q.2.2, q.2.1)

/-- `expandPolytope` after the patch is known, lines 1449-1508. The three lists are the sets `visible_faces`, `internal_edges` and
`border_edges` in the order in which they are iterated, which is not specified. -/
def expand (P : Poly V) (visible inner border : List ℕ) (v : V) : Poly V :=
  let P1 := inner.foldl Poly.delEdge (visible.foldl Poly.delFace P)
  (border.foldl (addSide P1.verts.length) (P1.addVertex v, fun _ => none)).1

/-- A vertex, an edge or a face of the polytope: `ccd_pt_el_t`. -/
inductive El
  | vertex (i : ℕ)
  | edge (i : ℕ)
  | face (i : ℕ)
deriving DecidableEq

/-- The face from which the patch is computed, lines 1425-1449. -/
def startFace (P : Poly V) (outside : ℕ → Bool) : El → Except Halt ℕ
  | .vertex _ => .error .vertex
  | .face f => .ok f
  | .edge e =>
    match P.edges e with
    | some ⟨_, _, some f, some g⟩ => if outside f then .ok f else if outside g then .ok g else .error .touching
    | _ => .error .undef

/-- `expandPolytope`, 1402-1510, with the check of debug builds. `order` is the order in which an `unordered_set` is iterated. -/
def expandPolytope (P : Poly V) (outside flat : ℕ → Bool) (order : Finset ℕ → List ℕ) (fuel : ℕ) (el : El) (v : V) :
    Except Halt (Poly V) :=
  (startFace P outside el).bind fun f =>
    (visiblePatch P outside flat fuel f).bind fun s =>
      if sane P s then .ok (expand P (order s.visible) (order s.inner) (order s.border) v) else .error .insane

end Pt
end Fcl
