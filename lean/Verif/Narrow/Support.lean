import Verif.Geom.Space
import Verif.Geom.Shapes

/-!
# Support functions

`getSupport` and `MinkowskiDiff`
(`include/fcl/narrowphase/detail/convexity_based_algorithm/minkowski_diff-inl.h`) and the support functions
handed to libccd (`gjk_libccd-inl.h`), over the reals. A division by zero, the result of which is not a
number, is `none`.
-/

namespace Fcl
open V3

namespace Support

/-- `a / b` of two numbers, `none` when the denominator is zero. -/
noncomputable def quot (a b : ℝ) : Option ℝ := if b = 0 then none else some (a / b)

/-- Lines 183-196: the loop over the vertices of a convex; `m` and `best` are `maxdot` and `bestv`. -/
noncomputable def scanMax (d : V3 ℝ) : List (V3 ℝ) → ℝ → V3 ℝ → V3 ℝ
  | [], _, best => best
  | v :: vs, m, best => if d.dot v > m then scanMax d vs (d.dot v) v else scanMax d vs m best

/-- Lines 79-99: triangle. -/
noncomputable def triangle (a b c d : V3 ℝ) : V3 ℝ :=
  if d.dot a > d.dot b then (if d.dot c > d.dot a then c else a)
  else (if d.dot c > d.dot b then c else b)

/-- Lines 101-108: box. -/
noncomputable def box (side d : V3 ℝ) : V3 ℝ :=
  ⟨if d.x > 0 then side.x / 2 else -side.x / 2, if d.y > 0 then side.y / 2 else -side.y / 2,
   if d.z > 0 then side.z / 2 else -side.z / 2⟩

/-- Lines 115-128: ellipsoid. -/
noncomputable def ellipsoid (s d : V3 ℝ) : Option (V3 ℝ) :=
  let v : V3 ℝ := ⟨s.x * s.x * d.x, s.y * s.y * d.y, s.z * s.z * d.z⟩
  (quot 1 (Real.sqrt (v.dot d))).map (fun k => k • v)

/-- Lines 129-142: capsule. -/
noncomputable def capsule (r lz : ℝ) (d : V3 ℝ) : V3 ℝ :=
  let h := lz * (1 / 2)
  let p1 : V3 ℝ := (⟨0, 0, h⟩ : V3 ℝ) + r • d
  let p2 : V3 ℝ := (⟨0, 0, -h⟩ : V3 ℝ) + r • d
  if d.dot p1 > d.dot p2 then p1 else p2

/-- Lines 143-165: cone. Also `supportCone`, `gjk_libccd-inl.h:2449-2479`, in the frame of the cone. -/
noncomputable def cone (r lz : ℝ) (d : V3 ℝ) : Option (V3 ℝ) :=
  let zd := d.x * d.x + d.y * d.y
  let len := Real.sqrt (zd + d.z * d.z)
  let zdist := Real.sqrt zd
  let h := lz * (1 / 2)
  (quot r (Real.sqrt (r * r + 4 * h * h))).map (fun sinA =>
    if d.z > len * sinA then ⟨0, 0, h⟩
    else if zdist > 0 then
      let rad := r / zdist
      ⟨rad * d.x, rad * d.y, -h⟩
    else ⟨0, 0, -h⟩)

/-- Lines 166-181: cylinder. -/
noncomputable def cylinder (r lz : ℝ) (d : V3 ℝ) : V3 ℝ :=
  let zdist := Real.sqrt (d.x * d.x + d.y * d.y)
  let h := lz * (1 / 2)
  if zdist = 0 then ⟨0, 0, if d.z > 0 then h else -h⟩
  else
    let k := r / zdist
    ⟨k * d.x, k * d.y, if d.z > 0 then h else -h⟩

/-- `getSupport`, lines 65-206. `big` is `numeric_limits<S>::max()`. -/
noncomputable def getSupport (big : ℝ) (g : Geo ℝ) (d : V3 ℝ) : Option (V3 ℝ) :=
  match g with
  | .triangle a b c => some (triangle a b c d)
  | .box side => some (box side d)
  | .sphere r => some (r • d)
  | .ellipsoid s => ellipsoid s d
  | .capsule r lz => some (capsule r lz d)
  | .cone r lz => cone r lz d
  | .cylinder r lz => some (cylinder r lz d)
  | .convex vs => some (scanMax d vs (-big) 0)
  | .plane _ _ => some 0
  | .halfspace _ _ => some 0

end Support

/-- `MinkowskiDiff` (`minkowski_diff.h:56-110`): two shapes and the transformations from the frame of the
first to that of the second (directions) and back. -/
structure MinkowskiDiff where
  s0 : Geo ℝ
  s1 : Geo ℝ
  toshape1 : M3 ℝ
  toshape0 : Pose ℝ

namespace MinkowskiDiff

/-- As set up for two shapes at their poses, `gjk_solver_indep-inl.h:125-129` (and 468-472, 609-613,
964-968). The set-up for a triangle in the world frame, lines 371-375 and 873-877, is the case `tf2 = id`. -/
noncomputable def ofShapes (s1 : Geo ℝ) (tf1 : Pose ℝ) (s2 : Geo ℝ) (tf2 : Pose ℝ) : MinkowskiDiff :=
  ⟨s1, s2, tf2.R.tr.mul tf1.R, tf1.inv.mul tf2⟩

/-- `support0(d)`, lines 216-220. -/
noncomputable def support0 (big : ℝ) (m : MinkowskiDiff) (d : V3 ℝ) : Option (V3 ℝ) := Support.getSupport big m.s0 d
/-- `support1(d)`, lines 223-227. -/
noncomputable def support1 (big : ℝ) (m : MinkowskiDiff) (d : V3 ℝ) : Option (V3 ℝ) :=
  (Support.getSupport big m.s1 (m.toshape1.mulVec d)).map m.toshape0.apply
/-- `support(d)`, lines 230-234. -/
noncomputable def support (big : ℝ) (m : MinkowskiDiff) (d : V3 ℝ) : Option (V3 ℝ) :=
  (m.support0 big d).bind (fun a => (m.support1 big (-d)).map (fun b => a - b))
/-- `support0(d, v)`, lines 247-254: the first shape swept along `v`. -/
noncomputable def support0Swept (big : ℝ) (m : MinkowskiDiff) (d v : V3 ℝ) : Option (V3 ℝ) :=
  if d.dot v ≤ 0 then Support.getSupport big m.s0 d else (Support.getSupport big m.s0 d).map (· + v)
/-- `support(d, v)`, lines 257-261. -/
noncomputable def supportSwept (big : ℝ) (m : MinkowskiDiff) (d v : V3 ℝ) : Option (V3 ℝ) :=
  (m.support0Swept big d v).bind (fun a => (m.support1 big (-d)).map (fun b => a - b))

end MinkowskiDiff

/-- `GJK::getSupport`, `gjk-inl.h:203-208`: the direction is normalized first. -/
noncomputable def gjkSupport (big : ℝ) (m : MinkowskiDiff) (d : V3 ℝ) : Option (V3 ℝ) := m.support big d.normalized

namespace Ccd
open Support

/-- libccd's `ccdIsZero(x)`: `|x| < CCD_EPS`. -/
noncomputable def isZero (eps x : ℝ) : Bool := decide (|x| < eps)
/-- libccd's `ccdSign(x)`. -/
noncomputable def sign (eps x : ℝ) : ℝ := if isZero eps x then 0 else if x < 0 then -1 else 1

/-- `supportBox`, lines 2371-2391, in the frame of the box (`boxToGJK`, 2303-2309). -/
noncomputable def box (side d : V3 ℝ) : V3 ℝ :=
  ⟨(if d.x ≥ 0 then 1 else -1) * (side.x / 2), (if d.y ≥ 0 then 1 else -1) * (side.y / 2),
   (if d.z ≥ 0 then 1 else -1) * (side.z / 2)⟩

/-- `supportCap`, lines 2393-2419, in the frame of the capsule. -/
noncomputable def capsule (r lz : ℝ) (d : V3 ℝ) : Option (V3 ℝ) :=
  (quot 1 (Real.sqrt (d.dot d))).map (fun k =>
    let v := r • (k • d)
    let p1 : V3 ℝ := (⟨0, 0, lz / 2⟩ : V3 ℝ) + v
    let p2 : V3 ℝ := (⟨0, 0, -(lz / 2)⟩ : V3 ℝ) + v
    if d.z > 0 then p1 else p2)

/-- `supportCyl`, lines 2421-2447, in the frame of the cylinder. -/
noncomputable def cylinder (eps r lz : ℝ) (d : V3 ℝ) : V3 ℝ :=
  let zdist := Real.sqrt (d.x * d.x + d.y * d.y)
  if isZero eps zdist then ⟨0, 0, sign eps d.z * (lz / 2)⟩
  else
    let rad := r / zdist
    ⟨rad * d.x, rad * d.y, sign eps d.z * (lz / 2)⟩

/-- `supportSphere`, lines 2481-2497, in the frame of the sphere. -/
noncomputable def sphere (r : ℝ) (d : V3 ℝ) : Option (V3 ℝ) :=
  (quot 1 (Real.sqrt (d.dot d))).map (fun k => k • (r • d))

/-- `supportTriangle`, lines 2551-2579: the vertices are compared relative to the centre `c`; with no
vertex above `-CCD_REAL_MAX` the result is not initialised. -/
noncomputable def triLoop (d c : V3 ℝ) : List (V3 ℝ) → ℝ → Option (V3 ℝ) → Option (V3 ℝ)
  | [], _, v => v
  | p :: ps, m, v => if d.dot (p - c) > m then triLoop d c ps (d.dot (p - c)) (some p) else triLoop d c ps m v

/-- The centre, `triCreateGJKObject`, lines 2954-2955. -/
noncomputable def centre (a b c : V3 ℝ) : V3 ℝ := ⟨(a.x + b.x + c.x) / 3, (a.y + b.y + c.y) / 3, (a.z + b.z + c.z) / 3⟩

/-- The support functions in the frame of the shape (`GJKInitializer<S, ...>::getSupportFunction`). The
ellipsoid (2499-2523) scales by `1 / sqrt(v . dir)` as `getSupport` does; the convex uses
`findExtremeVertex`, given as `extreme`. There are none for half-spaces and planes. -/
noncomputable def localSupport (eps big : ℝ) (extreme : V3 ℝ → Option (V3 ℝ)) (g : Geo ℝ) (d : V3 ℝ) :
    Option (V3 ℝ) :=
  match g with
  | .triangle a b c => triLoop d (centre a b c) [a, b, c] (-big) none
  | .box side => some (box side d)
  | .sphere r => sphere r d
  | .ellipsoid s => Support.ellipsoid s d
  | .capsule r lz => capsule r lz d
  | .cone r lz => Support.cone r lz d
  | .cylinder r lz => some (cylinder eps r lz d)
  | .convex _ => extreme d
  | .plane _ _ => none
  | .halfspace _ _ => none

/-- A support function at a pose: rotate the direction back, and the result to the pose. The quaternions of
libccd are the rotation matrix here. -/
noncomputable def support (eps big : ℝ) (extreme : V3 ℝ → Option (V3 ℝ)) (g : Geo ℝ) (tf : Pose ℝ) (d : V3 ℝ) :
    Option (V3 ℝ) :=
  (localSupport eps big extreme g (tf.R.tr.mulVec d)).map tf.apply

end Ccd
end Fcl
