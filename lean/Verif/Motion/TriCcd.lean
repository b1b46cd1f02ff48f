import Verif.BVH.TriTest
import Verif.Motion.Continuous
import Verif.BVH.RefitLemmas

/-!
# Model of the continuous collision of meshes with the polynomial solver

`Intersect::intersect_VF` and `intersect_EE`, narrowphase/detail/traversal/collision/intersect-inl.h 55-515,
`MeshContinuousCollisionTraversalNode`, traversal/collision/mesh_continuous_collision_traversal_node-inl.h, and
`continuousCollideBVHPolynomial`, narrowphase/continuous_collision-inl.h 174-238. Not modelled: the variants that are
never called in the library (`useNewton = false`, `solveSquare`, the vertex-edge test and the filtered tests).
-/

namespace Fcl
namespace TriCcd

section
variable {K : Type*} [Field K] [LinearOrder K]

/-- `getNearZeroThreshold()`, 1124-1127. -/
def nearZero : K := 1 / 10000000

/-- `getCcdResolution()`, 1131-1134. -/
def resolution : K := 1 / 10000000

/-- `isZero`, 55-58. -/
def isZero (v : K) : Bool := v < nearZero && v > -nearZero

/-- A polynomial of degree at most three: the array `coeffs`, lowest degree first. -/
structure Cubic (K : Type*) where
  c0 : K
  c1 : K
  c2 : K
  c3 : K

/-- Whether the sign bit of a coefficient is set, lines 73-75: the byte with the sign on a machine that stores the low bytes first. The
sign of a zero makes no difference, since the coefficient is a factor of what is selected. -/
def signBit (c : K) : Bool := c < 0

/-- `v[b]` for an array of two. -/
def sel (l r : K) (b : Bool) : K := if b then r else l

/-- The lower bound `minor` of the values on `[l, r]`, 79. -/
def minor (p : Cubic K) (l r : K) : K :=
  p.c3 * sel (l * l) (r * r) (signBit p.c3) * sel l r (signBit p.c3) + p.c2 * sel (l * l) (r * r) (signBit p.c2) +
    p.c1 * sel l r (signBit p.c1) + p.c0

/-- The upper bound `major`, 80. -/
def major (p : Cubic K) (l r : K) : K :=
  p.c3 * sel (l * l) (r * r) (!signBit p.c3) * sel l r (!signBit p.c3) + p.c2 * sel (l * l) (r * r) (!signBit p.c2) +
    p.c1 * sel l r (!signBit p.c1) + p.c0

/-- The lower bound `dminor` of the derivative, 89. -/
def dminor (p : Cubic K) (l r : K) : K :=
  3 * p.c3 * sel (l * l) (r * r) (signBit p.c3) + 2 * p.c2 * sel l r (signBit p.c2) + p.c1

/-- The upper bound `dmajor` of the derivative, 90. -/
def dmajor (p : Cubic K) (l r : K) : K :=
  3 * p.c3 * sel (l * l) (r * r) (!signBit p.c3) + 2 * p.c2 * sel l r (!signBit p.c2) + p.c1

/-- Lines 92-121: the interval after the step of Newton's method, `none` if it is empty. -/
def contract (p : Cubic K) (l r : K) : Option (K × K) :=
  let m := 1 / 2 * (r + l)
  let dlo := dminor p l r
  let dhi := dmajor p l r
  if dlo > 0 ∨ dhi < 0 then
    let m2 := m * m
    let fm := p.c3 * m2 * m + p.c2 * m2 + p.c1 * m + p.c0
    let nl := if fm > 0 then m - fm / dlo else m - fm / dhi
    let nu := if fm > 0 then m - fm / dhi else m - fm / dlo
    if nl > r then none
    else if nu < l then none
    else if nl > l then
      if nu < r then some (nl, nu) else some (nl, r)
    else
      if nu < r then some (l, nu) else some (l, r)
  else some (l, r)

/-- `solveCubicWithIntervalNewton`, 62-138. `valid` is `checkRootValidity_VF` or `checkRootValidity_EE`, with what it writes to `data`.
The outcome is the final interval `l`, `r` and the data, or `some none` if the function returns false: then the callers do not look at
`l` and `r` any more (135). `none`: the recursion is not over after `fuel` levels. -/
def newton {X : Type*} (valid : K → Option X) (p : Cubic K) : ℕ → K → K → Option (Option (K × K × X))
  | 0, _, _ => none
  | fuel + 1, l, r =>
    if major p l r < 0 then some none
    else if minor p l r > 0 then some none
    else
      match contract p l r with
      | none => some none
      | some (l, r) =>
        if r - l < resolution then some ((valid r).map fun x => (l, r, x))
        else
          let m := 1 / 2 * (l + r)
          match newton valid p fuel l m with
          | none => none
          | some (some out) => some (some out)
          | some none => newton valid p fuel m r

/-- The call with `l = 0` and `r = 1`, 414-418 and 482-486. Twenty-five levels are enough: `newton_ends`. -/
def solve {X : Type*} (valid : K → Option X) (p : Cubic K) : Option (K × K × X) := (newton valid p 25 0 1).join

/-- `insideTriangle`, 142-158. -/
def insideTriangle (a b c p : V3 K) : Bool :=
  let n := (b - a).cross (c - a)
  let pa := a - p
  let pb := b - p
  let pc := c - p
  if (pb.cross pc).dot n < -Tri.eps then false
  else if (pc.cross pa).dot n < -Tri.eps then false
  else if (pa.cross pb).dot n < -Tri.eps then false
  else true

/-- The test of 178-179 and 182-183: all the coordinates are small. -/
def tiny (v : V3 K) : Bool := |v.x| < Tri.eps && |v.y| < Tri.eps && |v.z| < Tri.eps

/-- `linelineIntersect`, 173-208: the points `pa` and `pb`. -/
def lineLine (p1 p2 p3 p4 : V3 K) : Option (V3 K × V3 K) :=
  let p31 := p1 - p3
  let p34 := p4 - p3
  if tiny p34 then none
  else
    let p12 := p2 - p1
    if tiny p12 then none
    else
      let d3134 := p31.dot p34
      let d3412 := p34.dot p12
      let d3112 := p31.dot p12
      let d3434 := p34.dot p34
      let d1212 := p12.dot p12
      let denom := d1212 * d3434 - d3412 * d3412
      if |denom| < Tri.eps then none
      else
        let numer := d3134 * d3412 - d3112 * d3434
        let mua := numer / denom
        if mua < 0 ∨ mua > 1 then none
        else
          let mub := (d3134 + d3412 * mua) / d3434
          if mub < 0 ∨ mub > 1 then none
          else some (p1 + mua • p12, p3 + mub • p34)

/-- `checkRootValidity_VF`, 211-217. -/
def validVF (s0 v : Tri K) (p0 vp : V3 K) (t : K) : Option Unit :=
  if insideTriangle (s0.a + t • v.a) (s0.b + t • v.b) (s0.c + t • v.c) (p0 + t • vp) then some () else none

/-- `checkRootValidity_EE`, 220-238, with the point written to `q_i`. -/
def validEE (a0 b0 c0 d0 va vb vc vd : V3 K) (t : K) : Option (V3 K) :=
  (lineLine (a0 + t • va) (b0 + t • vb) (c0 + t • vc) (d0 + t • vd)).map Prod.fst

/-- `computeCubicCoeff_VF`, 317-338. The velocities of the vertices of the triangle are given as a triangle. -/
def coeffVF (s v : Tri K) (p0 vp : V3 K) : Cubic K :=
  let vavb := v.b - v.a
  let vavc := v.c - v.a
  let vavp := vp - v.a
  let a0b0 := s.b - s.a
  let a0c0 := s.c - s.a
  let a0p0 := p0 - s.a
  let vavb_vavc := vavb.cross vavc
  let vavb_a0c0 := vavb.cross a0c0
  let a0b0_vavc := a0b0.cross vavc
  let a0b0_a0c0 := a0b0.cross a0c0
  { c3 := vavp.dot vavb_vavc
    c2 := a0p0.dot vavb_vavc + vavp.dot (vavb_a0c0 + a0b0_vavc)
    c1 := vavp.dot a0b0_a0c0 + a0p0.dot (vavb_a0c0 + a0b0_vavc)
    c0 := a0p0.dot a0b0_a0c0 }

/-- `computeCubicCoeff_EE`, 341-361. -/
def coeffEE (a0 b0 c0 d0 va vb vc vd : V3 K) : Cubic K :=
  let vavb := vb - va
  let vcvd := vd - vc
  let vavc := vc - va
  let c0d0 := d0 - c0
  let a0b0 := b0 - a0
  let a0c0 := c0 - a0
  let vavb_vcvd := vavb.cross vcvd
  let vavb_c0d0 := vavb.cross c0d0
  let a0b0_vcvd := a0b0.cross vcvd
  let a0b0_c0d0 := a0b0.cross c0d0
  { c3 := vavc.dot vavb_vcvd
    c2 := a0c0.dot vavb_vcvd + vavc.dot (vavb_c0d0 + a0b0_vcvd)
    c1 := vavc.dot a0b0_c0d0 + a0c0.dot (vavb_c0d0 + a0b0_vcvd)
    c0 := a0c0.dot a0b0_c0d0 }

/-- The test of 402 and 469. -/
def allZero (p : Cubic K) : Bool := isZero p.c3 && isZero p.c2 && isZero p.c1 && isZero p.c0

/-- The end of both functions, 418-445 and 486-512: the time, and what was found there. -/
def finish {X Y : Type*} (o : Option (K × K × X)) (point : K → X → Y) : Option (K × Y) :=
  match o with
  | none => none
  | some (l, r, x) =>
    let time := 1 / 2 * (l + r)
    if time > 1 then none else some (time, point time x)

/-- `intersect_VF` with `useNewton`, 384-447: the triangle goes from `s0` to `s1`, the vertex from `p0` to `p1`. The time and the
point. -/
def intersectVF (s0 : Tri K) (p0 : V3 K) (s1 : Tri K) (p1 : V3 K) : Option (K × V3 K) :=
  let vp := p1 - p0
  let v : Tri K := ⟨s1.a - s0.a, s1.b - s0.b, s1.c - s0.c⟩
  let co := coeffVF s0 v p0 vp
  if allZero co then none
  else finish (solve (validVF s0 v p0 vp) co) fun t _ => t • vp + p0

/-- `intersect_EE` with `useNewton`, 450-513. -/
def intersectEE (a0 b0 c0 d0 a1 b1 c1 d1 : V3 K) : Option (K × V3 K) :=
  let va := a1 - a0
  let vb := b1 - b0
  let vc := c1 - c0
  let vd := d1 - d0
  let co := coeffEE a0 b0 c0 d0 va vb vc vd
  if allZero co then none
  else finish (solve (validEE a0 b0 c0 d0 va vb vc vd) co) fun _ x => x

/-- The edges of a triangle as pairs of vertices, `S_id1` and `S_id2`, mesh_continuous_collision_traversal_node-inl.h 140-148. -/
def sides (p : Tri K) : List (V3 K × V3 K) := [(p.a, p.b), (p.b, p.c), (p.c, p.a)]

/-- The fifteen elementary tests of `leafTesting` in their order, 115-162. -/
def tests (S0 S1 T0 T1 : Tri K) : List (Option (K × V3 K)) :=
  ((T0.verts.zip T1.verts).zip (S0.verts.zip S1.verts)).flatMap
    (fun x => [intersectVF S0 x.1.1 S1 x.1.2, intersectVF T0 x.2.1 T1 x.2.2]) ++
  ((sides S0).zip (sides S1)).flatMap fun e => ((sides T0).zip (sides T1)).map fun f =>
    intersectEE e.1.1 e.1.2 f.1.1 f.1.2 e.2.1 e.2.2 f.2.1 f.2.2

/-- `if(collision_time > tmp) collision_time = tmp` after a test that succeeds. `collision_pos` is never used and left out. -/
def earlier (time : K) : Option (K × V3 K) → K
  | none => time
  | some (t, _) => if time > t then t else time

/-- `leafTesting`, 84-169, on two triangles: the time of the collision, if there is one. -/
def leafTime (S0 S1 T0 T1 : Tri K) : Option K :=
  let time := (tests S0 S1 T0 T1).foldl earlier 2
  if !(time > 1) then some time else none

/-! ### The traversal -/

/-- What `MeshContinuousCollisionTraversalNode` collects: `pairs` and `time_of_contact`. -/
structure Found (K : Type*) where
  pairs : List (ℕ × ℕ × K)
  toc : K

/-- The constructor, mesh_continuous_collision_traversal_node-inl.h 65-80. -/
def Found.start : Found K := ⟨[], 1⟩

/-- The end of `leafTesting`, 164-168. -/
def Found.add (f : Found K) (i j : ℕ) : Option K → Found K
  | none => f
  | some t => ⟨f.pairs ++ [(i, j, t)], min f.toc t⟩

/-- The triangle of a mesh before its last update: `prev_vertices1 + tri_id1[i]`, 105-110. -/
def prevTri (g : Geom K) (p : ℕ) : Tri K := Geom.tri ⟨g.prev.getD [], none, g.tris⟩ p

/-- `leafTesting` on two primitives. -/
def leaf (g1 g2 : Geom K) (f : Found K) (i j : ℕ) : Found K :=
  f.add i j (leafTime (prevTri g1 i) (g1.tri i) (prevTri g2 j) (g2.tri j))

/-- `MeshContinuousCollisionTraversalNode`: `BVTesting` is that of `BVHCollisionTraversalNode`,
bvh_collision_traversal_node-inl.h 120-126, `canStop` 172-176. The poses `tf1` and `tf2` of the node are not used. `maxContacts` is
`request.num_max_contacts`. -/
def node {V : Type*} (overlap : V → V → Bool) (maxContacts : ℕ) (g1 g2 : Geom K) : ColNode (Found K) (BT V ℕ) (BT V ℕ) where
  disjoint a b := !overlap a.bv b.bv
  leafTest f a b :=
    match a, b with
    | .leaf _ p, .leaf _ p' => leaf g1 g2 f p p'
    | _, _ => f
  canStop f := !f.pairs.isEmpty && maxContacts ≤ f.pairs.length

/-- The mesh after `beginUpdateModel`, `updateSubModel` with the vertices moved by `v`, and `endUpdateModel`, continuous_collision-inl.h
193-209: the vertices of before become the previous ones (BVH_model-inl.h 623-735; the protocol is modelled in `Verif.BVH.Protocol`). -/
def moved (g : Geom K) (v : V3 K) : Geom K := ⟨g.verts.map (· + v), some g.verts, g.tris⟩

/-- The hierarchy after `endUpdateModel(true, true)`, BVH_model-inl.h 701-735: refitted from the bottom (961-1027; `refitBottomUp` on the
arrays). -/
def refitted {V : Type*} (o : BVOps V K) (g : Geom K) (t : BT V ℕ) : BT V ℕ := t.refit (o.leafFit g) o.merge

end

/-- `continuousCollideBVHPolynomial` of two different meshes, continuous_collision-inl.h 174-238, with the motions from `tf1b` to `tf1e` and
from `tf2b` to `tf2e`: the result and the two meshes after the call, `none` if the traversal is not over after `fuel` levels. The default
`CollisionRequest` asks for one contact. `r` is the result before the call. -/
noncomputable def polynomial {V : Type*} (o : BVOps V ℝ) (larger : V → V → Bool) (fuel : ℕ) (g1 g2 : Geom ℝ) (t1 t2 : BT V ℕ)
    (tf1b tf1e tf2b tf2e : Pose ℝ) (r : CCResult) : Option (CCResult × Geom ℝ × Geom ℝ) :=
  let m1 := Motion.translation tf1b tf1e
  let m2 := Motion.translation tf2b tf2e
  let g1' := moved g1 (tf1e.t - tf1b.t)
  let g2' := moved g2 (tf2e.t - tf2b.t)
  match collisionRecurse (node o.overlap 1 g1' g2') (Trav.bvh larger) fuel (refitted o g1' t1) (refitted o g2' t2) (.start, none) with
  | none => none
  | some (f, _) =>
    if f.pairs.isEmpty then some (⟨false, f.toc, r.tf1, r.tf2⟩, g1', g2')
    else some (⟨true, f.toc, (m1.integrate f.toc).tf, (m2.integrate f.toc).tf⟩, g1', g2')

end TriCcd
end Fcl
