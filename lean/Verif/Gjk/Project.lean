import Verif.Geom.Space

/-!
# The projection of a point on a simplex

Models include/fcl/math/detail/project-inl.h. Exact real arithmetic.
-/

namespace Fcl

/-- `Project::ProjectResult`, project.h 55-75, project-inl.h 304-309: the weights, the squared distance (negative if there
is none) and the bits of `encode`. Simplification: `encode` is given by its bits. -/
structure Proj where
  par : ℕ → ℝ
  dist : ℝ
  bit : ℕ → Bool

namespace Proj

/-- The default constructor, lines 304-309. -/
def none : Proj := ⟨fun _ => 0, -1, fun _ => false⟩

/-- `nexti`, lines 82, 139: 1, 2, 0. -/
def nxt : ℕ → ℕ
  | 0 => 1
  | 1 => 2
  | _ => 0

/-- `triple`, math/geometry-inl.h 429-436. -/
noncomputable def triple (x y z : V3 ℝ) : ℝ := x.dot (y.cross z)

/-- `projectLine`, lines 54-73. -/
noncomputable def line (a b p : V3 ℝ) : Proj :=
  let d := b - a
  let l := d.dot d
  if l > 0 then
    let t := (p - a).dot d
    let s := if t ≥ l then 1 else if t ≤ 0 then 0 else t / l
    ⟨fun k => if k = 0 then 1 - s else if k = 1 then s else 0,
     if t ≥ l then (p - b).dot (p - b) else if t ≤ 0 then (p - a).dot (p - a) else (a + s • d - p).dot (a + s • d - p),
     fun k => if t ≥ l then k == 1 else if t ≤ 0 then k == 0 else k == 0 || k == 1⟩
  else none

/-- One round of the loop of `projectTriangle`, lines 91-108, for the edge from vertex `i` to vertex `nxt i`. `mindist` is
kept in the field `dist`, to which it is copied in line 123. -/
noncomputable def edge (v : ℕ → V3 ℝ) (n p : V3 ℝ) (st : Proj) (i : ℕ) : Proj :=
  let j := nxt i
  if (v i - p).dot ((v i - v j).cross n) > 0 then
    let r := line (v i) (v j) p
    if st.dist < 0 ∨ r.dist < st.dist then
      ⟨fun k => if k = i then r.par 0 else if k = j then r.par 1 else if k = nxt j then 0 else st.par k, r.dist,
       fun k => (k == i && r.bit 0) || (k == j && r.bit 1)⟩
    else st
  else st

/-- The vertices of a triangle or tetrahedron as an array. -/
def vert (a b c d : V3 ℝ) : ℕ → V3 ℝ
  | 0 => a
  | 1 => b
  | 2 => c
  | _ => d

/-- Lines 110-121: the point is above the triangle. -/
noncomputable def above (a b c p n : V3 ℝ) : Proj :=
  let l := n.dot n
  let d := (a - p).dot n
  let s := Real.sqrt l
  let q := (d / l) • n
  let p0 := ((b - c).cross (b - p - q)).nrm / s
  let p1 := ((c - a).cross (c - p - q)).nrm / s
  ⟨fun k => if k = 0 then p0 else if k = 1 then p1 else if k = 2 then 1 - p0 - p1 else 0, q.dot q, fun k => decide (k < 3)⟩

/-- `projectTriangle`, lines 76-128. -/
noncomputable def triangle (a b c p : V3 ℝ) : Proj :=
  let n := (a - b).cross (b - c)
  if n.dot n > 0 then
    let st := [0, 1, 2].foldl (edge (vert a b c c) n p) none
    if st.dist < 0 then above a b c p n else st
  else none

/-- One round of the loop of `projectTetrahedra`, lines 149-166, for the face of vertices `i`, `nxt i` and the last. -/
noncomputable def face (v : ℕ → V3 ℝ) (vl : ℝ) (p : V3 ℝ) (st : Proj) (i : ℕ) : Proj :=
  let j := nxt i
  if vl * (v 3 - p).dot ((v i - v 3).cross (v j - v 3)) > 0 then
    let r := triangle (v i) (v j) (v 3) p
    if st.dist < 0 ∨ r.dist < st.dist then
      ⟨fun k => if k = i then r.par 0 else if k = j then r.par 1 else if k = nxt j then 0 else if k = 3 then r.par 2 else st.par k,
       r.dist, fun k => (k == i && r.bit 0) || (k == j && r.bit 1) || (k == 3 && r.bit 2)⟩
    else st
  else st

/-- Lines 168-176: the point is in the tetrahedron. -/
noncomputable def inside (a b c d p : V3 ℝ) (vl : ℝ) : Proj :=
  let p0 := triple (c - p) (b - p) (d - p) / vl
  let p1 := triple (a - p) (c - p) (d - p) / vl
  let p2 := triple (b - p) (a - p) (d - p) / vl
  ⟨fun k => if k = 0 then p0 else if k = 1 then p1 else if k = 2 then p2 else if k = 3 then 1 - (p0 + p1 + p2) else 0, 0,
   fun k => decide (k < 4)⟩

/-- `projectTetrahedra`, lines 131-186. -/
noncomputable def tetrahedron (a b c d p : V3 ℝ) : Proj :=
  let vl := triple (a - d) (b - d) (c - d)
  if vl * (a - p).dot ((b - c).cross (a - b)) ≤ 0 then
    if |vl| > 0 then
      let st := [0, 1, 2].foldl (face (vert a b c d) vl p) none
      if st.dist < 0 then inside a b c d p vl else st
    else none
  else
    let r := triangle a b c p
    ⟨fun k => if k = 3 then 0 else r.par k, r.dist, r.bit⟩

/-- `projectLineOrigin`, `projectTriangleOrigin`, `projectTetrahedraOrigin`, lines 189-301. Simplification: the code is that
of the functions above with the origin for `p` and `x - 0` simplified. -/
noncomputable def lineO (a b : V3 ℝ) : Proj := line a b 0
@[inherit_doc lineO] noncomputable def triangleO (a b c : V3 ℝ) : Proj := triangle a b c 0
@[inherit_doc lineO] noncomputable def tetrahedronO (a b c d : V3 ℝ) : Proj := tetrahedron a b c d 0

end Proj
end Fcl
