import Verif.Geom.ComputeBV
import Verif.KDOP.Model
import Verif.KIOS.Model

/-!
# Model of `getBoundVertices` and of `computeBV` for all bounding volumes
(include/fcl/geometry/shape/*-inl.h, include/fcl/geometry/shape/utility-inl.h)
-/

namespace Fcl
namespace BoundVertices

/-- `(1 + sqrt(5)) / 2`. -/
noncomputable def phi : ℝ := (1 + Real.sqrt 5) / 2

/-- The twelve vectors of `Sphere::getBoundVertices`, sphere-inl.h 106-117, and of `Capsule` and `Ellipsoid`: `(ax, ay,
az)` and `(bx, by, bz)` are what multiplies the short and the long side along each axis. -/
def icosahedron (a b : V3 ℝ) : List (V3 ℝ) :=
  [⟨0, a.y, b.z⟩, ⟨0, -a.y, b.z⟩, ⟨0, a.y, -b.z⟩, ⟨0, -a.y, -b.z⟩,
   ⟨a.x, b.y, 0⟩, ⟨-a.x, b.y, 0⟩, ⟨a.x, -b.y, 0⟩, ⟨-a.x, -b.y, 0⟩,
   ⟨b.x, 0, a.z⟩, ⟨b.x, 0, -a.z⟩, ⟨-b.x, 0, a.z⟩, ⟨-b.x, 0, -a.z⟩]

/-- `edge_size`, sphere-inl.h 102, capsule-inl.h 114. -/
noncomputable def edgeSize (r : ℝ) : ℝ := r * 6 / (Real.sqrt 27 + Real.sqrt 15)

/-- `Sphere<S>::getBoundVertices`, sphere-inl.h 94-121, in the frame of the shape. -/
noncomputable def sphere (r : ℝ) : List (V3 ℝ) :=
  let a := edgeSize r
  let b := phi * edgeSize r
  icosahedron ⟨a, a, a⟩ ⟨b, b, b⟩

/-- `Ellipsoid<S>::getBoundVertices`, ellipsoid-inl.h 110-149. -/
noncomputable def ellipsoid (radii : V3 ℝ) : List (V3 ℝ) :=
  let a := Real.sqrt 3 / (phi * phi)
  let b := phi * a
  icosahedron ⟨radii.x * a, radii.y * a, radii.z * a⟩ ⟨radii.x * b, radii.y * b, radii.z * b⟩

/-- The six vectors around the z axis at one height, cylinder-inl.h 111-116, cone-inl.h 118-123, capsule-inl.h 146-151. -/
noncomputable def hexagon (r z : ℝ) : List (V3 ℝ) :=
  let r2 := r * 2 / Real.sqrt 3
  let a := 1 / 2 * r2
  let b := r
  [⟨r2, 0, z⟩, ⟨a, b, z⟩, ⟨-a, b, z⟩, ⟨-r2, 0, z⟩, ⟨-a, -b, z⟩, ⟨a, -b, z⟩]

/-- `Capsule<S>::getBoundVertices`, capsule-inl.h 106-162. -/
noncomputable def capsule (r lz : ℝ) : List (V3 ℝ) :=
  let hl := lz * (1 / 2)
  (sphere r).map (· + ⟨0, 0, hl⟩) ++ (sphere r).map (· - ⟨0, 0, hl⟩) ++ hexagon r hl ++ hexagon r (-hl)

/-- `Cone<S>::getBoundVertices`, cone-inl.h 107-129. -/
noncomputable def cone (r lz : ℝ) : List (V3 ℝ) :=
  let hl := lz * (1 / 2)
  hexagon r (-hl) ++ [⟨0, 0, hl⟩]

/-- `Cylinder<S>::getBoundVertices`, cylinder-inl.h 100-127. -/
noncomputable def cylinder (r lz : ℝ) : List (V3 ℝ) :=
  let hl := lz * (1 / 2)
  hexagon r (-hl) ++ hexagon r hl

/-- `Box<S>::getBoundVertices`, box-inl.h 120-137. -/
noncomputable def box (side : V3 ℝ) : List (V3 ℝ) :=
  let a := side.x / 2
  let b := side.y / 2
  let c := side.z / 2
  [⟨a, b, c⟩, ⟨a, b, -c⟩, ⟨a, -b, c⟩, ⟨a, -b, -c⟩, ⟨-a, b, c⟩, ⟨-a, b, -c⟩, ⟨-a, -b, c⟩, ⟨-a, -b, -c⟩]

/-- The vectors that `getBoundVertices` transforms; also triangle_p-inl.h 79-89 and convex-inl.h 251-262. Half-spaces and
planes do not have the function. -/
noncomputable def ofGeo : Geo ℝ → List (V3 ℝ)
  | .box side => box side
  | .sphere r => sphere r
  | .capsule r lz => capsule r lz
  | .cylinder r lz => cylinder r lz
  | .cone r lz => cone r lz
  | .ellipsoid radii => ellipsoid radii
  | .triangle a b c => [a, b, c]
  | .convex vs => vs
  | .halfspace _ _ => []
  | .plane _ _ => []

end BoundVertices

/-- `getBoundVertices(tf)`: `tf * v` for each of them. -/
noncomputable def Geo.boundVertices (g : Geo ℝ) (X : Pose ℝ) : List (V3 ℝ) := (BoundVertices.ofGeo g).map X.apply

namespace ComputeBV

/-! ### Oriented boxes -/

/-- `ComputeBVImpl<S, OBB<S>, Box<S>>`, utility-inl.h 156-165, and the same for `Capsule` 187-196, `Cone` 218-227,
`Cylinder` 282-291 and `Ellipsoid` 313-322, with the extents that are set there. -/
noncomputable def obbAt (X : Pose ℝ) (extent : V3 ℝ) : OBB ℝ := ⟨X.R, X.t, extent⟩

/-- `computeBV<OBB>`: the specialisations above, `Convex` 250-260, `Halfspace` 361-371, `Plane` 657-669 and `Sphere`
913-921; a triangle goes through the generic code, 123-133. `none`: `eigen_old` does not write its outputs, or the
coordinate system of a zero vector. -/
noncomputable def obb (big prec : ℝ) (eig : OBB.EigenFn ℝ) : Geo ℝ → Pose ℝ → Option (OBB ℝ)
  | .box side, X => some (obbAt X ((1 / 2 : ℝ) • side))
  | .capsule r lz, X => some (obbAt X ⟨r, r, lz / 2 + r⟩)
  | .cone r lz, X => some (obbAt X ⟨r, r, lz / 2⟩)
  | .cylinder r lz, X => some (obbAt X ⟨r, r, lz / 2⟩)
  | .ellipsoid radii, X => some (obbAt X radii)
  | .sphere r, X => some ⟨M3.one, X.t, ⟨r, r, r⟩⟩
  | .triangle a b c, X => OBB.fit big prec eig ((Geo.triangle a b c).boundVertices X)
  | .convex vs, X => (OBB.fit big prec eig vs).map fun b => { b with axis := X.R, To := X.apply b.To }
  | .halfspace _ _, _ => some ⟨M3.one, 0, ⟨big, big, big⟩⟩
  | .plane n d, X => (OBB.coordinateSystem prec (X.R.mulVec n)).map fun axis => ⟨axis, X.apply (d • n), ⟨0, big, big⟩⟩

/-! ### Rectangle swept spheres -/

/-- `computeBV<RSS>`: the generic code, 123-133; `Halfspace` 377-388, `Plane` 673-688. -/
noncomputable def rss (big prec : ℝ) (eig : OBB.EigenFn ℝ) : Geo ℝ → Pose ℝ → Option (RSS ℝ)
  | .halfspace _ _, _ => some ⟨M3.one, 0, big, big, big⟩
  | .plane n d, X => (OBB.coordinateSystem prec (X.R.mulVec n)).map fun axis => ⟨axis, X.apply (d • n), big, big, 0⟩
  | g, X => RSS.fit prec eig (g.boundVertices X)

/-- `computeBV<OBBRSS>`: the generic code; `Halfspace` 393-400, `Plane` 692-699. -/
noncomputable def obbrss (big prec : ℝ) (eig : OBB.EigenFn ℝ) : Geo ℝ → Pose ℝ → Option (OBBRSS ℝ)
  | .halfspace n d, X =>
    match obb big prec eig (.halfspace n d) X, rss big prec eig (.halfspace n d) X with
    | some o, some r => some ⟨o, r⟩
    | _, _ => none
  | .plane n d, X =>
    match obb big prec eig (.plane n d) X, rss big prec eig (.plane n d) X with
    | some o, some r => some ⟨o, r⟩
    | _, _ => none
  | g, X => OBBRSS.fit big prec eig (g.boundVertices X)

/-- `computeBV<kIOS>`: the generic code; `Halfspace` 404-413, `Plane` 703-712. -/
noncomputable def kios (big prec : ℝ) (eig : OBB.EigenFn ℝ) : Geo ℝ → Pose ℝ → Option (KIOS ℝ)
  | .halfspace n d, X => (obb big prec eig (.halfspace n d) X).map fun o => ⟨[⟨0, big⟩], o⟩
  | .plane n d, X => (obb big prec eig (.plane n d) X).map fun o => ⟨[⟨0, big⟩], o⟩
  | g, X => KIOS.fit big prec eig (g.boundVertices X)

/-! ### k-DOPs -/

/-- `bv.dist(i) = x` for `i < D`. -/
def KDOP.setLo {n : KDopN} (a : KDOP n ℝ) (i : ℕ) (x : ℝ) : KDOP n ℝ := ⟨fun j => if j = i then x else a.lo j, a.hi⟩
/-- `bv.dist(D + i) = x`. -/
def KDOP.setHi {n : KDopN} (a : KDOP n ℝ) (i : ℕ) (x : ℝ) : KDOP n ℝ := ⟨a.lo, fun j => if j = i then x else a.hi j⟩
/-- The loops that fill `dist` with `∓numeric_limits<S>::max()`. -/
def KDOP.full {n : KDopN} (big : ℝ) : KDOP n ℝ := ⟨fun _ => -big, fun _ => big⟩

open KDOP in
/-- `ComputeBVImpl<S, KDOP<S, N>, Halfspace<S>>`, 417-616, for the transformed half-space. The three versions are the same
text, with eight, nine and twelve branches. -/
noncomputable def halfspaceKdop (k : KDopN) (big : ℝ) (n : V3 ℝ) (d : ℝ) : KDOP k ℝ :=
  let bv := full big
  if n.y = 0 ∧ n.z = 0 then
    if n.x > 0 then setHi bv 0 d else setLo bv 0 (-d)
  else if n.x = 0 ∧ n.z = 0 then
    if n.y > 0 then setHi bv 1 d else setLo bv 1 (-d)
  else if n.x = 0 ∧ n.y = 0 then
    if n.z > 0 then setHi bv 2 d else setLo bv 2 (-d)
  else if n.z = 0 ∧ n.x = n.y then
    if n.x > 0 then setHi bv 3 (n.x * d * 2) else setLo bv 3 (n.x * d * 2)
  else if n.y = 0 ∧ n.x = n.z then
    if n.y > 0 then setHi bv 4 (n.x * d * 2) else setLo bv 4 (n.x * d * 2)
  else if n.x = 0 ∧ n.y = n.z then
    if n.y > 0 then setHi bv 5 (n.y * d * 2) else setLo bv 5 (n.y * d * 2)
  else if n.z = 0 ∧ n.x + n.y = 0 then
    if n.x > 0 then setHi bv 6 (n.x * d * 2) else setLo bv 6 (n.x * d * 2)
  else if n.y = 0 ∧ n.x + n.z = 0 then
    if n.x > 0 then setHi bv 7 (n.x * d * 2) else setLo bv 7 (n.x * d * 2)
  else if k ≠ .n16 ∧ n.x = 0 ∧ n.y + n.z = 0 then
    if n.y > 0 then setHi bv 8 (n.y * d * 2) else setLo bv 8 (n.y * d * 2)
  else if k = .n24 ∧ n.x + n.z = 0 ∧ n.x + n.y = 0 then
    if n.x > 0 then setHi bv 9 (n.x * d * 3) else setLo bv 9 (n.x * d * 3)
  else if k = .n24 ∧ n.x + n.y = 0 ∧ n.y + n.z = 0 then
    if n.x > 0 then setHi bv 10 (n.x * d * 3) else setLo bv 10 (n.x * d * 3)
  else if k = .n24 ∧ n.x + n.y = 0 ∧ n.x + n.z = 0 then
    if n.y > 0 then setHi bv 11 (n.y * d * 3) else setLo bv 11 (n.y * d * 3)
  else bv

open KDOP in
/-- `ComputeBVImpl<S, KDOP<S, N>, Plane<S>>`, 716-897, for the transformed plane. In the version for `N = 16` the sixth
branch writes `dist(6)` where the others write `dist(5)`, 756. -/
noncomputable def planeKdop (k : KDopN) (big : ℝ) (n : V3 ℝ) (d : ℝ) : KDOP k ℝ :=
  let bv := full big
  let both (i : ℕ) (x : ℝ) : KDOP k ℝ := setLo (setHi bv i x) i x
  if n.y = 0 ∧ n.z = 0 then
    if n.x > 0 then both 0 d else both 0 (-d)
  else if n.x = 0 ∧ n.z = 0 then
    if n.y > 0 then both 1 d else both 1 (-d)
  else if n.x = 0 ∧ n.y = 0 then
    if n.z > 0 then both 2 d else both 2 (-d)
  else if n.z = 0 ∧ n.x = n.y then both 3 (n.x * d * 2)
  else if n.y = 0 ∧ n.x = n.z then both 4 (n.x * d * 2)
  else if n.x = 0 ∧ n.y = n.z then
    if k = .n16 then setLo (setHi bv 5 (n.y * d * 2)) 6 (n.y * d * 2) else both 5 (n.y * d * 2)
  else if n.z = 0 ∧ n.x + n.y = 0 then both 6 (n.x * d * 2)
  else if n.y = 0 ∧ n.x + n.z = 0 then both 7 (n.x * d * 2)
  else if k ≠ .n16 ∧ n.x = 0 ∧ n.y + n.z = 0 then both 8 (n.y * d * 2)
  else if k = .n24 ∧ n.x + n.z = 0 ∧ n.x + n.y = 0 then both 9 (n.x * d * 3)
  else if k = .n24 ∧ n.x + n.y = 0 ∧ n.y + n.z = 0 then both 10 (n.x * d * 3)
  else if k = .n24 ∧ n.x + n.y = 0 ∧ n.x + n.z = 0 then both 11 (n.y * d * 3)
  else bv

/-- `computeBV<KDOP>`: for bounded shapes the generic code, whose `fit` adds the points to what the volume holds
(math/bv/utility-inl.h 545-553); the others overwrite it. -/
noncomputable def kdop {k : KDopN} (big : ℝ) (bv : KDOP k ℝ) : Geo ℝ → Pose ℝ → KDOP k ℝ
  | .halfspace n d, X => halfspaceKdop k big (transform n d X).1 (transform n d X).2
  | .plane n d, X => planeKdop k big (transform n d X).1 (transform n d X).2
  | g, X => (g.boundVertices X).foldl KDOP.addPoint bv

end ComputeBV
end Fcl
