import Verif.BVH.Mesh
import Verif.BVH.Oriented
import Verif.Geom.Space

/-!
# Model of the triangle test

`Intersect::intersect_Triangle`, traversal/collision/intersect-inl.h 728-850: seventeen candidate directions are tried,
and the triangles are disjoint if their projections on one of them are. The contact information is taken from the
planes of the triangles.
-/

namespace Fcl

/-- A triangle given by its three vertices, in the order of the arguments. -/
structure Tri (K : Type*) where
  a : V3 K
  b : V3 K
  c : V3 K

namespace Tri

section
variable {K : Type*} [Field K] [LinearOrder K]

/-- `project6`, intersect-inl.h 1086-1106. -/
def project6 (ax : V3 K) (p q : Tri K) : Bool :=
  let P1 := ax.dot p.a
  let P2 := ax.dot p.b
  let P3 := ax.dot p.c
  let Q1 := ax.dot q.a
  let Q2 := ax.dot q.b
  let Q3 := ax.dot q.c
  if min P1 (min P2 P3) > max Q1 (max Q2 Q3) then false
  else if min Q1 (min Q2 Q3) > max P1 (max P2 P3) then false
  else true

/-- The triangle moved by a vector: `p1 = P1 - P1` and so on, 736-741. -/
def shift (p : Tri K) (v : V3 K) : Tri K := ⟨p.a - v, p.b - v, p.c - v⟩

/-- The edges `e1`, `e2`, `e3` (or `f1`, `f2`, `f3`), 743-784. -/
def e1 (p : Tri K) : V3 K := p.b - p.a
/-- See `e1`. -/
def e2 (p : Tri K) : V3 K := p.c - p.b
/-- See `e1`. -/
def e3 (p : Tri K) : V3 K := p.a - p.c

/-- `n1 = e1.cross(e2)` (or `m1`), 745 and 750. -/
def nor (p : Tri K) : V3 K := p.e1.cross p.e2

/-- The directions in the order they are tried, 745-803. -/
def axes (p q : Tri K) : List (V3 K) :=
  [p.nor, q.nor,
   p.e1.cross q.e1, p.e1.cross q.e2, p.e1.cross q.e3,
   p.e2.cross q.e1, p.e2.cross q.e2, p.e2.cross q.e3,
   p.e3.cross q.e1, p.e3.cross q.e2, p.e3.cross q.e3,
   p.e1.cross p.nor, p.e2.cross p.nor, p.e3.cross p.nor,
   q.e1.cross q.nor, q.e2.cross q.nor, q.e3.cross q.nor]

/-- `intersect_Triangle` without contact information, 728-804. The code returns at the first direction that separates;
nothing else depends on the order. -/
def test (P Q : Tri K) : Bool :=
  let p := P.shift P.a
  let q := Q.shift P.a
  (axes p q).all fun ax => project6 ax p q

/-- The vertices in the order of the arrays `P` and `Q`, 818-819. -/
def verts (p : Tri K) : List (V3 K) := [p.a, p.b, p.c]

/-- The triangle at a pose: `R * Q1 + T`, 612-614, or `tf * Q1`, 634-636. -/
def move (X : Pose K) (p : Tri K) : Tri K := ⟨X.R.mulVec p.a + X.t, X.R.mulVec p.b + X.t, X.R.mulVec p.c + X.t⟩

/-! ### Contact information -/

/-- `getEpsilon()`, 1117-1120. -/
def eps : K := 1 / 100000

/-- The variables of the loop of `computeDeepestPoints`, 857-862; the first `num_deepest_points_` entries of the array
are the list. -/
structure Deep (K : Type*) where
  depth : K
  pts : List (V3 K)
  pos : ℕ
  neg : ℕ
  zero : ℕ

/-- One round of the loop, 864-882. `n` and `t` are the plane; `distanceToPlane`, 1033-1036. -/
def Deep.step (n : V3 K) (t : K) (d : Deep K) (v : V3 K) : Deep K :=
  let dist := -(n.dot v - t)
  let d := if dist > eps then { d with pos := d.pos + 1 }
    else if dist < -eps then { d with neg := d.neg + 1 }
    else { d with zero := d.zero + 1 }
  if dist > d.depth then { d with depth := dist, pts := [v] }
  else if dist + 1 / 1000000 ≥ d.depth then { d with pts := d.pts ++ [v] }
  else d

/-- `computeDeepestPoints`, 853-893: the depth and the deepest points. `big` is `numeric_limits::max()`. -/
def deepest (big : K) (l : List (V3 K)) (n : V3 K) (t : K) : K × List (V3 K) :=
  let d := l.foldl (Deep.step n t) ⟨-big, [], 0, 0, 0⟩
  let pts := if d.depth < -eps then [] else d.pts
  let pts := if d.zero = 0 ∧ (d.neg = 0 ∨ d.pos = 0) then [] else pts
  (d.depth, pts)

end

/-- `buildTrianglePlane`, 1040-1053, with `normalize`, math/geometry-inl.h 413-426. On a degenerate triangle nothing
is written. -/
noncomputable def plane (p : Tri ℝ) : Option (V3 ℝ × ℝ) :=
  let n := (p.b - p.a).cross (p.c - p.a)
  if n.dot n > 0 then
    let n := (1 / Real.sqrt (n.dot n)) • n
    some (n, n.dot p.a)
  else none

/-- What `intersect_Triangle` with contact information comes to. -/
inductive Out
  /-- it returns false -/
  | apart
  /-- it returns true: the contact points, the penetration depth and the normal -/
  | contact (pts : List (V3 ℝ)) (depth : ℝ) (normal : V3 ℝ)
  /-- the plane of a degenerate triangle is used without ever having been written -/
  | uninitialised

/-- `intersect_Triangle` with contact information, 728-850. -/
noncomputable def contact (big : ℝ) (P Q : Tri ℝ) : Out :=
  if test P Q then
    match plane P, plane Q with
    | some (n1, t1), some (n2, t2) =>
      let d2 := deepest big Q.verts n1 t1
      let d1 := deepest big P.verts n2 t2
      if d1.1 > d2.1 then .contact (d2.2.take 2) d2.1 n1
      else .contact (d1.2.take 2) d1.1 (-n2)
    | _, _ => .uninitialised
  else .apart

end Tri

section
variable {K : Type*} [Field K] [LinearOrder K]

/-- The triangle with number `p` of a mesh, as `leafTesting` reads it,
traversal/collision/mesh_collision_traversal_node-inl.h 133-144. An index out of range gives the triangle at the origin;
it is undefined behaviour in the code, and excluded by `Geom.WF`. -/
def Geom.tri (g : Geom K) (p : ℕ) : Tri K :=
  match g.tris[p]? with
  | some (a, b, c) => ⟨g.verts[a]?.getD 0, g.verts[b]?.getD 0, g.verts[c]?.getD 0⟩
  | none => ⟨0, 0, 0⟩

end

/-- What the leaf test learns from `intersect_Triangle` with contact information: `leafTesting`, 159-182. What an
uninitialised plane leads to is `junk`. -/
noncomputable def Tri.Out.count (junk : Option ℕ) : Tri.Out → Option ℕ
  | .apart => none
  | .contact pts _ _ => some pts.length
  | .uninitialised => junk

/-- The leaf test of `MeshCollisionTraversalNode`, 146-198, with the triangle test of the library. -/
noncomputable def meshPair (big : ℝ) (junk : Option ℕ) (g1 g2 : Geom ℝ) (occupied notFree : Bool)
    (cost : ℕ → ℕ → CostSource ℝ) : MeshPair ℝ where
  hit i j := Tri.test (g1.tri i) (g2.tri j)
  hitC i j := (Tri.contact big (g1.tri i) (g2.tri j)).count junk
  occupied := occupied
  notFree := notFree
  cost := cost

/-- The leaf test of `meshCollisionOrientedNodeLeafTesting`, 566-622: the second triangle is moved by the relative pose
first. -/
noncomputable def orientedPair (big : ℝ) (junk : Option ℕ) (g1 : Geom ℝ) (tf1 : Pose ℝ) (g2 : Geom ℝ) (tf2 : Pose ℝ)
    (occupied notFree : Bool) (cost : ℕ → ℕ → CostSource ℝ) : MeshPair ℝ where
  hit i j := Tri.test (g1.tri i) ((g2.tri j).move (tf1.relative tf2))
  hitC i j := (Tri.contact big (g1.tri i) ((g2.tri j).move (tf1.relative tf2))).count junk
  occupied := occupied
  notFree := notFree
  cost := cost

end Fcl
