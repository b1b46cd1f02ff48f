import Verif.Geom.QuerySpec
import Verif.Geom.Space
import Mathlib.Analysis.SpecialFunctions.Trigonometric.Basic

/-!
# Model of the collision of two boxes

include/fcl/narrowphase/detail/primitive_shape_algorithm/box_box-inl.h, which `GJKSolver_libccd::shapeIntersect` and
`GJKSolver_indep::shapeIntersect` call for two boxes. `eps` is `numeric_limits<S>::epsilon()`, `big` is
`numeric_limits<S>::max()`. Exact real arithmetic. The angles that `cullPoints2` sorts by are an oracle.
-/

namespace Fcl
namespace BoxBox
open V3

/-! ### The fifteen tests -/

/-- The variables `s`, `normalR`, `best_col_id`, `normalC`, `invert_normal` and `code` of `boxBox2`, box_box-inl.h 264-296.
Simplification: `dir` is the vector in the world frame that lines 571-574 make of `normalR`, `best_col_id` and `normalC`. -/
structure Sat where
  s : ℝ
  dir : V3 ℝ
  invert : Bool
  code : ℕ

/-- What differs between the blocks that test one axis, box_box-inl.h 298-370 and 402-565: `tmp`, the sum that is subtracted
from `std::abs(tmp)`, the axis (in the world frame for the sides, `n` in the frame of the first box for the cross
products) and the code. -/
structure Test where
  tmp : ℝ
  rad : ℝ
  axis : V3 ℝ
  code : ℕ

/-- One of the six blocks for the sides of the boxes, box_box-inl.h 298-370. `none`: `return 0` with `*return_code = 0`. -/
noncomputable def face (st : Sat) (t : Test) : Option Sat :=
  let s2 := |t.tmp| - t.rad
  if s2 > 0 then none
  else if s2 > st.s then some ⟨s2, t.axis, decide (t.tmp < 0), t.code⟩
  else some st

/-- One of the nine blocks for cross products of edges, box_box-inl.h 402-565. -/
noncomputable def edge (eps : ℝ) (R1 : M3 ℝ) (st : Sat) (t : Test) : Option Sat :=
  let s2 := |t.tmp| - t.rad
  if s2 > 0 then none
  else
    let l := t.axis.nrm
    if l > eps then
      let s2 := s2 / l
      if s2 * (105 / 100) > st.s then some ⟨s2, R1.mulVec ((1 / l) • t.axis), decide (t.tmp < 0), t.code⟩
      else some st
    else some st

/-- The six blocks for the sides, box_box-inl.h 298-370. `Q.row(i).dot(B)` and `Q.col(j).dot(A)` are written out. -/
noncomputable def faceTests (R1 R2 R : M3 ℝ) (p pp A B : V3 ℝ) : List Test :=
  let Q (i j : Fin 3) := |R.get i j|
  [⟨pp.x, Q 0 0 * B.x + Q 0 1 * B.y + Q 0 2 * B.z + A.x, R1.col 0, 1⟩,
   ⟨pp.y, Q 1 0 * B.x + Q 1 1 * B.y + Q 1 2 * B.z + A.y, R1.col 1, 2⟩,
   ⟨pp.z, Q 2 0 * B.x + Q 2 1 * B.y + Q 2 2 * B.z + A.z, R1.col 2, 3⟩,
   ⟨(R2.col 0).dot p, Q 0 0 * A.x + Q 1 0 * A.y + Q 2 0 * A.z + B.x, R2.col 0, 4⟩,
   ⟨(R2.col 1).dot p, Q 0 1 * A.x + Q 1 1 * A.y + Q 2 1 * A.z + B.y, R2.col 1, 5⟩,
   ⟨(R2.col 2).dot p, Q 0 2 * A.x + Q 1 2 * A.y + Q 2 2 * A.z + B.z, R2.col 2, 6⟩]

/-- `scale_factor`, box_box-inl.h 396. -/
noncomputable def pad (eps : ℝ) (A B : V3 ℝ) : ℝ :=
  max (max (max (max A.x A.y) A.z) (max (max B.x B.y) B.z)) 1 * 10 * eps

/-- The nine blocks for the cross products, box_box-inl.h 402-565. `d` is `scale_factor`, added to all entries of `Q` at 397. -/
noncomputable def edgeTests (d : ℝ) (R : M3 ℝ) (pp A B : V3 ℝ) : List Test :=
  let Q (i j : Fin 3) := |R.get i j| + d
  [⟨pp.z * R.get 1 0 - pp.y * R.get 2 0, A.y * Q 2 0 + A.z * Q 1 0 + B.y * Q 0 2 + B.z * Q 0 1, ⟨0, -R.get 2 0, R.get 1 0⟩, 7⟩,
   ⟨pp.z * R.get 1 1 - pp.y * R.get 2 1, A.y * Q 2 1 + A.z * Q 1 1 + B.x * Q 0 2 + B.z * Q 0 0, ⟨0, -R.get 2 1, R.get 1 1⟩, 8⟩,
   ⟨pp.z * R.get 1 2 - pp.y * R.get 2 2, A.y * Q 2 2 + A.z * Q 1 2 + B.x * Q 0 1 + B.y * Q 0 0, ⟨0, -R.get 2 2, R.get 1 2⟩, 9⟩,
   ⟨pp.x * R.get 2 0 - pp.z * R.get 0 0, A.x * Q 2 0 + A.z * Q 0 0 + B.y * Q 1 2 + B.z * Q 1 1, ⟨R.get 2 0, 0, -R.get 0 0⟩, 10⟩,
   ⟨pp.x * R.get 2 1 - pp.z * R.get 0 1, A.x * Q 2 1 + A.z * Q 0 1 + B.x * Q 1 2 + B.z * Q 1 0, ⟨R.get 2 1, 0, -R.get 0 1⟩, 11⟩,
   ⟨pp.x * R.get 2 2 - pp.z * R.get 0 2, A.x * Q 2 2 + A.z * Q 0 2 + B.x * Q 1 1 + B.y * Q 1 0, ⟨R.get 2 2, 0, -R.get 0 2⟩, 12⟩,
   ⟨pp.y * R.get 0 0 - pp.x * R.get 1 0, A.x * Q 1 0 + A.y * Q 0 0 + B.y * Q 2 2 + B.z * Q 2 1, ⟨-R.get 1 0, R.get 0 0, 0⟩, 13⟩,
   ⟨pp.y * R.get 0 1 - pp.x * R.get 1 1, A.x * Q 1 1 + A.y * Q 0 1 + B.x * Q 2 2 + B.z * Q 2 0, ⟨-R.get 1 1, R.get 0 1, 0⟩, 14⟩,
   ⟨pp.y * R.get 0 2 - pp.x * R.get 1 2, A.x * Q 1 2 + A.y * Q 0 2 + B.x * Q 2 1 + B.y * Q 2 0, ⟨-R.get 1 2, R.get 0 2, 0⟩, 15⟩]

/-- The first part of `boxBox2`, box_box-inl.h 247-567: `none` if it returns 0 with `*return_code = 0`. -/
noncomputable def sat (eps big : ℝ) (side1 : V3 ℝ) (X1 : Pose ℝ) (side2 : V3 ℝ) (X2 : Pose ℝ) : Option Sat :=
  let p := X2.t - X1.t
  let pp := X1.R.tr.mulVec p
  let A := (1 / 2 : ℝ) • side1
  let B := (1 / 2 : ℝ) • side2
  let R := X1.R.tr.mul X2.R
  ((faceTests X1.R X2.R R p pp A B).foldlM face ⟨-big, 0, false, 0⟩).bind fun st =>
  ((edgeTests (pad eps A B) R pp A B).foldlM (edge eps X1.R) st).bind fun st =>
  if st.code = 0 then none else some st

/-- `normal`, box_box-inl.h 569-577. -/
noncomputable def Sat.normal (st : Sat) : V3 ℝ := if st.invert then -st.dir else st.dir

/-! ### Contact of two edges -/

/-- `lineClosestApproach`, box_box-inl.h 85-106: `(alpha, beta)`. Simplification: the `float` 0.0001f is taken as 1/10000. -/
noncomputable def lineClosest (pa ua pb ub : V3 ℝ) : ℝ × ℝ :=
  let p := pb - pa
  let uaub := ua.dot ub
  let q1 := ua.dot p
  let q2 := -ub.dot p
  let d := 1 - uaub * uaub
  if d ≤ 1 / 10000 then (0, 0)
  else
    let d := 1 / d
    ((q1 + uaub * q2) * d, (uaub * q1 + q2) * d)

/-- The vertex of a box furthest in direction `n`, box_box-inl.h 587-594. -/
noncomputable def vertexAlong (X : Pose ℝ) (h n : V3 ℝ) : V3 ℝ :=
  let sg (j : Fin 3) : ℝ := if (X.R.col j).dot n > 0 then 1 else -1
  X.t + (h.x * sg 0) • X.R.col 0 + (h.y * sg 1) • X.R.col 1 + (h.z * sg 2) • X.R.col 2

/-- The vertex of a box furthest against direction `n`, box_box-inl.h 596-603. -/
noncomputable def vertexAgainst (X : Pose ℝ) (h n : V3 ℝ) : V3 ℝ :=
  let sg (j : Fin 3) : ℝ := if (X.R.col j).dot n > 0 then -1 else 1
  X.t + (h.x * sg 0) • X.R.col 0 + (h.y * sg 1) • X.R.col 1 + (h.z * sg 2) • X.R.col 2

/-- `(code-7)/3`, the column of the first box, box_box-inl.h 606. -/
def edge1 (code : ℕ) : Fin 3 := Fin.ofNat 3 ((code - 7) / 3)
/-- `(code-7)%3`, the column of the second box, box_box-inl.h 607. -/
def edge2 (code : ℕ) : Fin 3 := Fin.ofNat 3 ((code - 7) % 3)

/-- The contact of an edge with an edge, box_box-inl.h 583-618. -/
noncomputable def edgeContact (X1 : Pose ℝ) (A : V3 ℝ) (X2 : Pose ℝ) (B : V3 ℝ) (st : Sat) : CPoint :=
  let n := st.normal
  let pa := vertexAlong X1 A n
  let pb := vertexAgainst X2 B n
  let ua := X1.R.col (edge1 st.code)
  let ub := X2.R.col (edge2 st.code)
  let ab := lineClosest pa ua pb ub
  let pa := pa + ab.1 • ua
  let pb := pb + ab.2 • ub
  ⟨n, (1 / 2 : ℝ) • (pa + pb), -st.s⟩

/-! ### Contact of a face -/

/-- The coordinate of a point of the plane: `p[dir]`. -/
def co (dir : Bool) (p : ℝ × ℝ) : ℝ := if dir then p.2 else p.1

/-- The point with coordinate `u` in direction `dir` and `v` in the other. -/
def point (dir : Bool) (u v : ℝ) : ℝ × ℝ := if dir then (v, u) else (u, v)

/-- `sign * pq[dir] < h[dir]`, box_box-inl.h 130. -/
def Inside (dir : Bool) (sign h : ℝ) (p : ℝ × ℝ) : Prop := sign * co dir p < h

/-- The point where the line crosses the chopping line, box_box-inl.h 147-149. -/
noncomputable def crossing (dir : Bool) (sign h : ℝ) (p q : ℝ × ℝ) : ℝ × ℝ :=
  point dir (sign * h) (co (!dir) p + (co (!dir) q - co (!dir) p) / (co dir q - co dir p) * (sign * h - co dir p))

open Classical in
/-- The loop over the points of the polygon, box_box-inl.h 127-159, on the list of the points with their successors; the
second result is whether it was left by `goto done`. `nr & 8` is `nr = 8`, since `nr` grows by one. -/
noncomputable def chopLoop (dir : Bool) (sign h : ℝ) : List ((ℝ × ℝ) × (ℝ × ℝ)) → List (ℝ × ℝ) → List (ℝ × ℝ) × Bool
  | [], r => (r, false)
  | (p, q) :: rest, r =>
    let r1 := if Inside dir sign h p then r ++ [p] else r
    if Inside dir sign h p ∧ r1.length = 8 then (r1, true)
    else
      let crosses := ¬ (Inside dir sign h p ↔ Inside dir sign h q)
      let r2 := if crosses then r1 ++ [crossing dir sign h p q] else r1
      if crosses ∧ r2.length = 8 then (r2, true)
      else chopLoop dir sign h rest r2

/-- Every point with the next one, `nextq` of box_box-inl.h 143. -/
def withNext (q : List (ℝ × ℝ)) : List ((ℝ × ℝ) × (ℝ × ℝ)) := q.zip (q.drop 1 ++ q.take 1)

/-- One of the four passes, box_box-inl.h 118-163. -/
noncomputable def chop (h : ℝ × ℝ) (st : List (ℝ × ℝ) × Bool) (pass : Bool × ℝ) : List (ℝ × ℝ) × Bool :=
  if st.2 then st else chopLoop pass.1 pass.2 (co pass.1 h) (withNext st.1) []

/-- `intersectRectQuad2`, box_box-inl.h 109-169. -/
noncomputable def intersectRectQuad (h : ℝ × ℝ) (quad : List (ℝ × ℝ)) : List (ℝ × ℝ) :=
  ([(false, -1), (false, 1), (true, -1), (true, 1)].foldl (chop h) (quad, false)).1

/-- The search for the angle closest to `a`, box_box-inl.h 225-240, over the indices `is`: `maxdiff` and `*iret`. -/
noncomputable def pick (ang : ℕ → ℝ) (a : ℝ) (avail : ℕ → Bool) : List ℕ → ℝ × ℕ → ℝ × ℕ
  | [], s => s
  | i :: is, s =>
    let d := |ang i - a|
    let diff := if d > Real.pi then 2 * Real.pi - d else d
    pick ang a avail is (if avail i = true ∧ diff < s.1 then (diff, i) else s)

/-- The loop over `j` of `cullPoints2`, box_box-inl.h 221-243: the list that is appended to `iret`. -/
noncomputable def cullLoop (ang : ℕ → ℝ) (n m i0 : ℕ) : List ℕ → (ℕ → Bool) → List ℕ
  | [], _ => []
  | j :: js, avail =>
    let a := j * (2 * Real.pi / m) + ang i0
    let a := if a > Real.pi then a - 2 * Real.pi else a
    let i := (pick ang a avail (List.range n) (1000000000, i0)).2
    i :: cullLoop ang n m i0 js (fun k => if k = i then false else avail k)

/-- `cullPoints2`, box_box-inl.h 172-244, with the angles `A[i]` given. -/
noncomputable def cull (ang : ℕ → ℝ) (n m i0 : ℕ) : List ℕ :=
  i0 :: cullLoop ang n m i0 ((List.range (m - 1)).map (· + 1)) (fun k => if k = i0 then false else true)

/-- The index of the largest depth, box_box-inl.h 803-812. -/
noncomputable def deepest : List ℝ → ℕ → ℝ → ℕ → ℕ
  | [], _, _, i1 => i1
  | d :: ds, i, maxdepth, i1 => if d > maxdepth then deepest ds (i + 1) d i else deepest ds (i + 1) maxdepth i1

/-- `(lanr, a1, a2)`, box_box-inl.h 658-692. -/
noncomputable def incident (anr : V3 ℝ) : Fin 3 × Fin 3 × Fin 3 :=
  if anr.y > anr.x then (if anr.y > anr.z then (1, 0, 2) else (2, 0, 1))
  else if anr.x > anr.z then (0, 1, 2) else (2, 0, 1)

/-- `(code1, code2)`, box_box-inl.h 707-721. -/
def otherAxes (codeN : Fin 3) : Fin 3 × Fin 3 :=
  if codeN = 0 then (1, 2) else if codeN = 1 then (0, 2) else (0, 1)

/-- A candidate for a contact: the point of the plane, `points[cnum]` and `dep[cnum]`. -/
structure Cand where
  ret : ℝ × ℝ
  pt : V3 ℝ
  dep : ℝ

/-- The contact candidates of a face, box_box-inl.h 620-786: `Xa`, `Sa` is the reference box, `Xb`, `Sb` the other one, `n`
is `normal2`, `codeN` the axis of the reference box. -/
noncomputable def faceCands (Xa : Pose ℝ) (Sa : V3 ℝ) (Xb : Pose ℝ) (Sb n : V3 ℝ) (codeN : Fin 3) : List Cand :=
  let nr := Xb.R.tr.mulVec n
  let anr : V3 ℝ := ⟨|nr.x|, |nr.y|, |nr.z|⟩
  let lanr := (incident anr).1
  let a1 := (incident anr).2.1
  let a2 := (incident anr).2.2
  let center := if nr.get lanr < 0 then Xb.t - Xa.t + (Sb.get lanr) • Xb.R.col lanr else Xb.t - Xa.t - (Sb.get lanr) • Xb.R.col lanr
  let code1 := (otherAxes codeN).1
  let code2 := (otherAxes codeN).2
  let c1 := (Xa.R.col code1).dot center
  let c2 := (Xa.R.col code2).dot center
  let m11 := (Xb.R.col a1).dot (Xa.R.col code1)
  let m12 := (Xb.R.col a2).dot (Xa.R.col code1)
  let m21 := (Xb.R.col a1).dot (Xa.R.col code2)
  let m22 := (Xb.R.col a2).dot (Xa.R.col code2)
  let k1 := m11 * Sb.get a1
  let k2 := m21 * Sb.get a1
  let k3 := m12 * Sb.get a2
  let k4 := m22 * Sb.get a2
  let quad := [(c1 - k1 - k3, c2 - k2 - k4), (c1 - k1 + k3, c2 - k2 + k4), (c1 + k1 + k3, c2 + k2 + k4), (c1 + k1 - k3, c2 + k2 - k4)]
  let ret := intersectRectQuad (Sa.get code1, Sa.get code2) quad
  let det1 := 1 / (m11 * m22 - m12 * m21)
  let cand (q : ℝ × ℝ) : Cand :=
    let k1 := m22 * det1 * (q.1 - c1) - m12 * det1 * (q.2 - c2)
    let k2 := -(m21 * det1) * (q.1 - c1) + m11 * det1 * (q.2 - c2)
    let pt := center + k1 • Xb.R.col a1 + k2 • Xb.R.col a2
    ⟨q, pt, Sa.get codeN - n.dot pt⟩
  (ret.map cand).filter fun c => decide (c.dep ≥ 0)

/-- The indices of the candidates that are reported, box_box-inl.h 788-816. `ang` gives the angles of `cullPoints2`. -/
noncomputable def chosen (ang : List (ℝ × ℝ) → ℕ → ℝ) (maxc : ℕ) (cs : List Cand) : List ℕ :=
  let maxc := if maxc > cs.length then cs.length else maxc
  let maxc := if maxc < 1 then 1 else maxc
  if cs.length > maxc then
    match cs.map (·.dep) with
    | [] => []
    | d :: ds => cull (ang (cs.map (·.ret))) cs.length maxc (deepest ds 1 d 0)
  else List.range cs.length

/-- The contacts of a face, box_box-inl.h 620-832. -/
noncomputable def faceContacts (ang : List (ℝ × ℝ) → ℕ → ℝ) (maxc : ℕ) (X1 : Pose ℝ) (A : V3 ℝ) (X2 : Pose ℝ) (B : V3 ℝ) (st : Sat) : List CPoint :=
  let n := st.normal
  if st.code ≤ 3 then
    let cs := faceCands X1 A X2 B n (Fin.ofNat 3 (st.code - 1))
    (chosen ang maxc cs).filterMap fun i => cs[i]?.map fun c => ⟨n, c.pt + X1.t + (c.dep / 2) • n, c.dep⟩
  else
    let cs := faceCands X2 B X1 A (-n) (Fin.ofNat 3 (st.code - 4))
    (chosen ang maxc cs).filterMap fun i => cs[i]?.map fun c => ⟨n, c.pt + X2.t - (c.dep / 2) • n, c.dep⟩

/-! ### The whole function -/

/-- The outputs of `boxBox2`: `*return_code`, `normal`, `*depth` and `contacts`. -/
structure Out where
  code : ℕ
  normal : V3 ℝ
  depth : ℝ
  contacts : List CPoint

/-- `boxBox2`, box_box-inl.h 247-853; `none`: `*return_code = 0`, nothing else is set. The return value, the number of contacts, is not used. -/
noncomputable def boxBox2 (eps big : ℝ) (ang : List (ℝ × ℝ) → ℕ → ℝ) (maxc : ℕ) (side1 : V3 ℝ) (X1 : Pose ℝ) (side2 : V3 ℝ) (X2 : Pose ℝ) :
    Option Out :=
  let A := (1 / 2 : ℝ) • side1
  let B := (1 / 2 : ℝ) • side2
  (sat eps big side1 X1 side2 X2).map fun st =>
    ⟨st.code, st.normal, -st.s, if st.code > 6 then [edgeContact X1 A X2 B st] else faceContacts ang maxc X1 A X2 B st⟩

/-- `boxBoxIntersect`, box_box-inl.h 855-874. `contacts_` is overwritten, not appended to. -/
noncomputable def boxBoxIntersect (eps big : ℝ) (ang : List (ℝ × ℝ) → ℕ → ℝ) (side1 : V3 ℝ) (X1 : Pose ℝ) (side2 : V3 ℝ) (X2 : Pose ℝ)
    (contacts : Option (List CPoint)) : HitOut :=
  match boxBox2 eps big ang 4 side1 X1 side2 X2 with
  | none => (false, contacts.map fun _ => [])
  | some o => (decide (o.code ≠ 0), contacts.map fun _ => o.contacts)

end BoxBox
end Fcl
