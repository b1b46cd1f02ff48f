import Verif.Geom.Space
import Verif.Geom.Shapes

/-!
# Model of `computeBV` for boxes aligned with the axes (include/fcl/geometry/shape/utility-inl.h)
-/

namespace Fcl
namespace ComputeBV
variable {K : Type*} [Field K] [LinearOrder K]

/-- The last three lines of most of the functions: `T - v_delta`, `T + v_delta`. -/
def around (T d : V3 K) : AABB K := ⟨T - d, T + d⟩

/-- `ComputeBVImpl<S, AABB<S>, Box<S>>`, 136-153. -/
def box (side : V3 K) (X : Pose K) : AABB K :=
  let range (r : V3 K) := (1 / 2) * (|r.x * side.x| + |r.y * side.y| + |r.z * side.z|)
  around X.t ⟨range X.R.r0, range X.R.r1, range X.R.r2⟩

/-- `ComputeBVImpl<S, AABB<S>, Capsule<S>>`, 168-184. -/
def capsule (radius lz : K) (X : Pose K) : AABB K :=
  let range (r : V3 K) := (1 / 2) * |r.z * lz| + radius
  around X.t ⟨range X.R.r0, range X.R.r1, range X.R.r2⟩

/-- `ComputeBVImpl<S, AABB<S>, Cone<S>>`, 199-215, and the same for `Cylinder`, 263-279. -/
def cylinder (radius lz : K) (X : Pose K) : AABB K :=
  let range (r : V3 K) := |r.x * radius| + |r.y * radius| + (1 / 2) * |r.z * lz|
  around X.t ⟨range X.R.r0, range X.R.r1, range X.R.r2⟩

/-- `ComputeBVImpl<S, AABB<S>, Convex<S>>`, 230-247. -/
def convex (big : K) (vs : List (V3 K)) (X : Pose K) : AABB K :=
  vs.foldl (fun b v => b.addPt (X.R.mulVec v + X.t)) (AABB.default big (-big))

/-- `ComputeBVImpl<S, AABB<S>, Ellipsoid<S>>`, 294-310. -/
def ellipsoid (radii : V3 K) (X : Pose K) : AABB K :=
  let range (r : V3 K) := |r.x * radii.x| + |r.y * radii.y| + |r.z * radii.z|
  around X.t ⟨range X.R.r0, range X.R.r1, range X.R.r2⟩

/-- `ComputeBVImpl<S, AABB<S>, Sphere<S>>`, 901-909. -/
def sphere (radius : K) (X : Pose K) : AABB K := around X.t ⟨radius, radius, radius⟩

/-- `ComputeBVImpl<S, AABB<S>, TriangleP<S>>`, 925-931. -/
def triangle (a b c : V3 K) (X : Pose K) : AABB K := AABB.ofThree (X.apply a) (X.apply b) (X.apply c)

/-- The assignments of `ComputeBVImpl<S, AABB<S>, Halfspace<S>>`, 325-355, for the transformed half space. -/
def halfspaceBox (big : K) (n : V3 K) (d : K) : AABB K :=
  let lo : V3 K := ⟨-big, -big, -big⟩
  let hi : V3 K := ⟨big, big, big⟩
  if n.y = 0 ∧ n.z = 0 then
    if n.x < 0 then ⟨{ lo with x := -d }, hi⟩ else if n.x > 0 then ⟨lo, { hi with x := d }⟩ else ⟨lo, hi⟩
  else if n.x = 0 ∧ n.z = 0 then
    if n.y < 0 then ⟨{ lo with y := -d }, hi⟩ else if n.y > 0 then ⟨lo, { hi with y := d }⟩ else ⟨lo, hi⟩
  else if n.x = 0 ∧ n.y = 0 then
    if n.z < 0 then ⟨{ lo with z := -d }, hi⟩ else if n.z > 0 then ⟨lo, { hi with z := d }⟩ else ⟨lo, hi⟩
  else ⟨lo, hi⟩

/-- The assignments of `ComputeBVImpl<S, AABB<S>, Plane<S>>`, 621-651, for the transformed plane. -/
def planeBox (big : K) (n : V3 K) (d : K) : AABB K :=
  let lo : V3 K := ⟨-big, -big, -big⟩
  let hi : V3 K := ⟨big, big, big⟩
  if n.y = 0 ∧ n.z = 0 then
    if n.x < 0 then ⟨{ lo with x := -d }, { hi with x := -d }⟩
    else if n.x > 0 then ⟨{ lo with x := d }, { hi with x := d }⟩ else ⟨lo, hi⟩
  else if n.x = 0 ∧ n.z = 0 then
    if n.y < 0 then ⟨{ lo with y := -d }, { hi with y := -d }⟩
    else if n.y > 0 then ⟨{ lo with y := d }, { hi with y := d }⟩ else ⟨lo, hi⟩
  else if n.x = 0 ∧ n.y = 0 then
    if n.z < 0 then ⟨{ lo with z := -d }, { hi with z := -d }⟩
    else if n.z > 0 then ⟨{ lo with z := d }, { hi with z := d }⟩ else ⟨lo, hi⟩
  else ⟨lo, hi⟩

/-- The constructors of `Halfspace` and `Plane` with `unitNormalTest`, halfspace-inl.h 57-72, 150-164; plane-inl.h
57-72, 150-164. -/
noncomputable def unitNormal (n : V3 ℝ) (d : ℝ) : V3 ℝ × ℝ :=
  if n.nrm > 0 then ((1 / n.nrm) • n, (1 / n.nrm) * d) else (⟨1, 0, 0⟩, 0)

/-- `transform(Halfspace, tf)`, halfspace-inl.h 167-180, and `transform(Plane, tf)`, plane-inl.h 167-180. -/
noncomputable def transform (n : V3 ℝ) (d : ℝ) (X : Pose ℝ) : V3 ℝ × ℝ :=
  unitNormal (X.R.mulVec n) (d + (X.R.mulVec n).dot X.t)

/-- `ComputeBVImpl<S, AABB<S>, Halfspace<S>>`. -/
noncomputable def halfspace (big : ℝ) (n : V3 ℝ) (d : ℝ) (X : Pose ℝ) : AABB ℝ :=
  halfspaceBox big (transform n d X).1 (transform n d X).2
/-- `ComputeBVImpl<S, AABB<S>, Plane<S>>`. -/
noncomputable def plane (big : ℝ) (n : V3 ℝ) (d : ℝ) (X : Pose ℝ) : AABB ℝ :=
  planeBox big (transform n d X).1 (transform n d X).2

/-- `computeBV<AABB>`, utility-inl.h 1054-1061, which selects the specialisation. -/
noncomputable def aabb (big : ℝ) : Geo ℝ → Pose ℝ → AABB ℝ
  | .box side => box side
  | .sphere r => sphere r
  | .capsule r lz => capsule r lz
  | .cylinder r lz => cylinder r lz
  | .cone r lz => cylinder r lz
  | .ellipsoid radii => ellipsoid radii
  | .halfspace n d => halfspace big n d
  | .plane n d => plane big n d
  | .triangle a b c => triangle a b c
  | .convex vs => convex big vs

end ComputeBV

/-- The members `aabb_local`, `aabb_center`, `aabb_radius` of `CollisionGeometry`. -/
structure LocalBV where
  box : AABB ℝ
  center : V3 ℝ
  radius : ℝ

namespace LocalBV

/-- The last two lines of most of the `computeLocalAABB` functions. -/
noncomputable def ofBox (b : AABB ℝ) : LocalBV := ⟨b, b.center, (b.lo - b.center).nrm⟩

/-- `-v_delta`, `v_delta`. -/
noncomputable def sym (d : V3 ℝ) : AABB ℝ := ⟨-d, d⟩

/-- `computeLocalAABB()` of the shapes: box-inl.h 80-88, sphere-inl.h 62-69, capsule-inl.h 64-72, cylinder-inl.h 64-72,
cone-inl.h 64-72, ellipsoid-inl.h 72-79, halfspace-inl.h 97-128, plane-inl.h 97-128, triangle_p-inl.h 63-69,
convex-inl.h 86-96. The last two of the arguments of the half space and the plane are those of the shape, which its
constructor has normalised. -/
noncomputable def ofGeo (big : ℝ) : Geo ℝ → LocalBV
  | .box side => ofBox (sym ((1 / 2 : ℝ) • side))
  | .sphere r => ⟨sym ⟨r, r, r⟩, (sym ⟨r, r, r⟩).center, r⟩
  | .capsule r lz => ofBox (sym ⟨r, r, (1 / 2) * lz + r⟩)
  | .cylinder r lz => ofBox (sym ⟨r, r, (1 / 2) * lz⟩)
  | .cone r lz => ofBox (sym ⟨r, r, (1 / 2) * lz⟩)
  | .ellipsoid radii => ofBox (sym radii)
  | .halfspace n d => ofBox (ComputeBV.halfspaceBox big n d)
  | .plane n d => ofBox (ComputeBV.planeBox big n d)
  | .triangle a b c => ofBox (AABB.ofThree a b c)
  | .convex vs => ofBox (vs.foldl AABB.addPt (AABB.default big (-big)))

/-- `BVHModel<BV>::computeLocalAABB()`, BVH_model-inl.h 1080-1102. -/
noncomputable def ofMesh (big : ℝ) (vs : List (V3 ℝ)) : LocalBV :=
  let b := vs.foldl AABB.addPt (AABB.default big (-big))
  let r2 := vs.foldl (fun m v => let r := (b.center - v).dot (b.center - v); if r > m then r else m) 0
  ⟨b, b.center, Real.sqrt r2⟩

end LocalBV

/-- Eigen `isApprox` of two numbers. -/
noncomputable def approx1 (prec x y : ℝ) : Bool := decide (|x - y| ≤ min |x| |y| * prec)

/-- Eigen `m.isIdentity(prec)`; the default precision for `double` is `1e-12`. -/
noncomputable def M3.isIdentity (prec : ℝ) (m : M3 ℝ) : Bool :=
  (approx1 prec m.r0.x 1 && decide (|m.r0.y| ≤ prec) && decide (|m.r0.z| ≤ prec)) &&
  (decide (|m.r1.x| ≤ prec) && approx1 prec m.r1.y 1 && decide (|m.r1.z| ≤ prec)) &&
  (decide (|m.r2.x| ≤ prec) && decide (|m.r2.y| ≤ prec) && approx1 prec m.r2.z 1)

/-- `CollisionObject<S>::computeAABB()`, collision_object-inl.h 118-132. -/
noncomputable def CollisionObject.computeAABB (prec : ℝ) (g : LocalBV) (X : Pose ℝ) : AABB ℝ :=
  if X.R.isIdentity prec then g.box.translate X.t
  else
    let center := X.apply g.center
    let delta : V3 ℝ := ⟨g.radius, g.radius, g.radius⟩
    ⟨center - delta, center + delta⟩

end Fcl
