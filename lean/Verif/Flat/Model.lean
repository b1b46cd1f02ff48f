import Verif.Geom.ComputeBV
import Verif.Geom.QuerySpec

/-!
# Model of the queries with half-spaces and planes

include/fcl/narrowphase/detail/primitive_shape_algorithm/halfspace-inl.h and plane-inl.h. `contacts = none` stands for a
null pointer. `tol` is `halfspaceIntersectTolerance` / `planeIntersectTolerance` (1e-7 for `double`, 1e-4 for `float`, see
halfspace.cpp 47-58, plane.cpp 47-58), `eps` is `numeric_limits<S>::epsilon()`, `big` is `numeric_limits<S>::max()`.
A half-space or plane is given by its normal and its offset; a pair is one that has been moved by `transform`.
-/

namespace Fcl
namespace Flat
open ComputeBV (transform)

/-- `Halfspace::signedDistance`, `Plane::signedDistance`, halfspace-inl.h 82-86, plane-inl.h 82-86. -/
noncomputable def sd (h : V3 ℝ × ℝ) (p : V3 ℝ) : ℝ := h.1.dot p - h.2

/-- `contacts->emplace_back(k)` behind `if (contacts)`. -/
noncomputable def push (contacts : Option (List CPoint)) (k : CPoint) : Option (List CPoint) := contacts.map fun l => l ++ [k]

/-! ### Half-spaces -/

/-- `sphereHalfspaceIntersect`, halfspace-inl.h 154-180. -/
noncomputable def sphereHalfspace (r : ℝ) (X1 : Pose ℝ) (n : V3 ℝ) (d : ℝ) (X2 : Pose ℝ) (contacts : Option (List CPoint)) :
    HitOut :=
  let h := transform n d X2
  let depth := r - sd h X1.t
  if depth ≥ 0 then
    (true, push contacts ⟨-h.1, X1.t - r • h.1 + (depth * (1 / 2)) • h.1, depth⟩)
  else (false, contacts)

/-- `ellipsoidHalfspaceIntersect`, halfspace-inl.h 183-222. -/
noncomputable def ellipsoidHalfspace (radii : V3 ℝ) (X1 : Pose ℝ) (n : V3 ℝ) (d : ℝ) (X2 : Pose ℝ)
    (contacts : Option (List CPoint)) : HitOut :=
  let h := transform n d (X1.inv.mul X2)
  let normal2 : V3 ℝ := ⟨h.1.x ^ 2, h.1.y ^ 2, h.1.z ^ 2⟩
  let radii2 : V3 ℝ := ⟨radii.x ^ 2, radii.y ^ 2, radii.z ^ 2⟩
  let c := Real.sqrt (normal2.dot radii2)
  let depth := c + h.2
  if depth ≥ 0 then
    let support : V3 ℝ := (1 / c) • ⟨radii2.x * h.1.x, radii2.y * h.1.y, radii2.z * h.1.z⟩
    let point := ((1 / 2) * depth / h.1.dot support - 1) • support
    (true, push contacts ⟨X1.R.mulVec (-h.1), X1.apply point, depth⟩)
  else (false, contacts)

/-- `Q`, `A` and the half extent `0.5 * (B[0] + B[1] + B[2])` of the functions for boxes, halfspace-inl.h 234-238,
260-264; plane-inl.h 206-211. -/
noncomputable def boxQ (X1 : Pose ℝ) (h : V3 ℝ × ℝ) : V3 ℝ := X1.R.tr.mulVec h.1
@[inherit_doc boxQ] noncomputable def boxA (side : V3 ℝ) (X1 : Pose ℝ) (h : V3 ℝ × ℝ) : V3 ℝ :=
  ⟨(boxQ X1 h).x * side.x, (boxQ X1 h).y * side.y, (boxQ X1 h).z * side.z⟩
@[inherit_doc boxQ] noncomputable def boxExtent (side : V3 ℝ) (X1 : Pose ℝ) (h : V3 ℝ × ℝ) : ℝ :=
  (1 / 2) * (|(boxA side X1 h).x| + |(boxA side X1 h).y| + |(boxA side X1 h).z|)

/-- `boxHalfspaceIntersect` without contacts, halfspace-inl.h 225-240. -/
noncomputable def boxHalfspace0 (side : V3 ℝ) (X1 : Pose ℝ) (n : V3 ℝ) (d : ℝ) (X2 : Pose ℝ) : Bool :=
  let h := transform n d X2
  decide (boxExtent side X1 h - sd h X1.t ≥ 0)

/-- The point found by the case distinction in the functions for boxes, halfspace-inl.h 272-299, plane-inl.h 221-253.
`sign` is 1 in the first function. -/
noncomputable def boxPoint (tol : ℝ) (side : V3 ℝ) (X1 : Pose ℝ) (h : V3 ℝ × ℝ) (sign : ℝ) : V3 ℝ :=
  let Q := boxQ X1 h
  let A := boxA side X1 h
  let step : ℝ → ℝ → V3 ℝ → V3 ℝ := fun a s axis => ((1 / 2) * s * ((if a > 0 then -1 else 1) * sign)) • axis
  if |Q.x - 1| < tol ∨ |Q.x + 1| < tol then X1.t + step A.x side.x (X1.R.col 0)
  else if |Q.y - 1| < tol ∨ |Q.y + 1| < tol then X1.t + step A.y side.y (X1.R.col 1)
  else if |Q.z - 1| < tol ∨ |Q.z + 1| < tol then X1.t + step A.z side.z (X1.R.col 2)
  else X1.t + step A.x side.x (X1.R.col 0) + step A.y side.y (X1.R.col 1) + step A.z side.z (X1.R.col 2)

/-- `boxHalfspaceIntersect`, halfspace-inl.h 243-311. -/
noncomputable def boxHalfspace (tol : ℝ) (side : V3 ℝ) (X1 : Pose ℝ) (n : V3 ℝ) (d : ℝ) (X2 : Pose ℝ)
    (contacts : Option (List CPoint)) : HitOut :=
  match contacts with
  | none => (boxHalfspace0 side X1 n d X2, none)
  | some l =>
    let h := transform n d X2
    let depth := boxExtent side X1 h - sd h X1.t
    if depth < 0 then (false, some l)
    else (true, push (some l) ⟨-h.1, boxPoint tol side X1 h 1 + (depth * (1 / 2)) • h.1, depth⟩)

/-- `capsuleHalfspaceIntersect`, halfspace-inl.h 314-364. -/
noncomputable def capsuleHalfspace (tol r lz : ℝ) (X1 : Pose ℝ) (n : V3 ℝ) (d : ℝ) (X2 : Pose ℝ)
    (contacts : Option (List CPoint)) : HitOut :=
  let h := transform n d X2
  let dirz := X1.R.col 2
  let cosa := dirz.dot h.1
  if |cosa| < tol then
    let depth := r - sd h X1.t
    if depth < 0 then (false, contacts)
    else (true, push contacts ⟨-h.1, X1.t + ((1 / 2) * depth - r) • h.1, depth⟩)
  else
    let sign : ℝ := if cosa > 0 then -1 else 1
    let p := X1.t + (lz * (1 / 2) * sign) • dirz
    let depth := r - sd h p
    if depth < 0 then (false, contacts)
    else (true, push contacts ⟨-h.1, p - r • h.1 + ((1 / 2) * depth) • h.1, depth⟩)

/-- The vector `C` of the functions for cylinders and cones, halfspace-inl.h 399-407, 465-473; plane-inl.h 452-460,
552-560. The length of the first `C` is 0 only if the tolerance test succeeds. -/
noncomputable def rimVec (tol r : ℝ) (dirz n : V3 ℝ) (cosa : ℝ) : V3 ℝ :=
  let C := cosa • dirz - n
  if |cosa + 1| < tol ∨ |cosa - 1| < tol then 0 else (r / C.nrm) • C

/-- `cylinderHalfspaceIntersect`, halfspace-inl.h 367-428. -/
noncomputable def cylinderHalfspace (tol r lz : ℝ) (X1 : Pose ℝ) (n : V3 ℝ) (d : ℝ) (X2 : Pose ℝ)
    (contacts : Option (List CPoint)) : HitOut :=
  let h := transform n d X2
  let dirz := X1.R.col 2
  let cosa := dirz.dot h.1
  if |cosa| < tol then
    let depth := r - sd h X1.t
    if depth < 0 then (false, contacts)
    else (true, push contacts ⟨-h.1, X1.t + ((1 / 2) * depth - r) • h.1, depth⟩)
  else
    let C := rimVec tol r dirz h.1 cosa
    let sign : ℝ := if cosa > 0 then -1 else 1
    let p := X1.t + (lz * (1 / 2) * sign) • dirz + C
    let depth := -sd h p
    if depth < 0 then (false, contacts)
    else (true, push contacts ⟨-h.1, p + ((1 / 2) * depth) • h.1, depth⟩)

/-- `coneHalfspaceIntersect`, halfspace-inl.h 431-496. -/
noncomputable def coneHalfspace (tol r lz : ℝ) (X1 : Pose ℝ) (n : V3 ℝ) (d : ℝ) (X2 : Pose ℝ)
    (contacts : Option (List CPoint)) : HitOut :=
  let h := transform n d X2
  let dirz := X1.R.col 2
  let cosa := dirz.dot h.1
  if cosa < tol then
    let depth := r - sd h X1.t
    if depth < 0 then (false, contacts)
    else (true, push contacts ⟨-h.1, X1.t - (lz * (1 / 2)) • dirz + ((1 / 2) * depth - r) • h.1, depth⟩)
  else
    let C := rimVec tol r dirz h.1 cosa
    let p1 := X1.t + ((1 / 2) * lz) • dirz
    let p2 := X1.t - ((1 / 2) * lz) • dirz + C
    let d1 := sd h p1
    let d2 := sd h p2
    if d1 > 0 ∧ d2 > 0 then (false, contacts)
    else
      let depth := -min d1 d2
      (true, push contacts ⟨-h.1, (if d1 < d2 then p1 else p2) + ((1 / 2) * depth) • h.1, depth⟩)

/-- The loop over the vertices in `convexHalfspaceIntersect`, halfspace-inl.h 561-568: the result is `none` after an early
`return true`, otherwise the least signed distance and its vertex. -/
noncomputable def convexLoop (h : V3 ℝ × ℝ) (early : Bool) : List (V3 ℝ) → ℝ → V3 ℝ → Option (ℝ × V3 ℝ)
  | [], m, p => some (m, p)
  | v :: vs, m, p =>
    if sd h v < m then
      if sd h v ≤ 0 ∧ early = true then none else convexLoop h early vs (sd h v) v
    else convexLoop h early vs m p

/-- `convexHalfspaceIntersect` with a vector of contacts, halfspace-inl.h 545-582. `junk` is the value of the vector that
is not initialised. -/
noncomputable def convexHalfspace (big : ℝ) (junk : V3 ℝ) (vs : List (V3 ℝ)) (X1 : Pose ℝ) (n : V3 ℝ) (d : ℝ) (X2 : Pose ℝ)
    (contacts : Option (List CPoint)) : HitOut :=
  let h := transform n d (X1.inv.mul X2)
  match convexLoop h contacts.isNone vs big junk with
  | none => (true, contacts)
  | some (m, p) =>
    if m ≤ 0 then
      let nF := X2.R.mulVec n
      (true, push contacts ⟨-nF, X1.apply p + ((1 / 2) * -m) • nF, -m⟩)
    else (false, contacts)

/-- `halfspaceTriangleIntersect`, halfspace-inl.h 585-620. The second component holds what is written to the three
pointers. -/
noncomputable def halfspaceTriangle (n : V3 ℝ) (d : ℝ) (X1 : Pose ℝ) (P1 P2 P3 : V3 ℝ) (X2 : Pose ℝ) :
    Bool × Option CPoint :=
  let h := transform n d X1
  let s1 := (sd h (X2.apply P1), X2.apply P1)
  let s2 := if sd h (X2.apply P2) < s1.1 then (sd h (X2.apply P2), X2.apply P2) else s1
  let s3 := if sd h (X2.apply P3) < s2.1 then (sd h (X2.apply P3), X2.apply P3) else s2
  if s3.1 ≤ 0 then (true, some ⟨h.1, s3.2 - ((1 / 2) * s3.1) • h.1, -s3.1⟩) else (false, none)

/-- What the functions for two unbounded shapes return: the answer, `ret`, the depth if it is written, and the line if it
is written. -/
structure FlatOut where
  hit : Bool
  ret : ℕ
  depth : Option ℝ
  line : Option (V3 ℝ × V3 ℝ)

/-- The end of `planeHalfspaceIntersect` and `halfspaceIntersect`, halfspace-inl.h 666-673, 736-743: `origin`, `dir`. -/
noncomputable def commonLine (h1 h2 : V3 ℝ × ℝ) : V3 ℝ × V3 ℝ :=
  let dir := h1.1.cross h2.1
  let n := h1.2 • h2.1 - h2.2 • h1.1
  ((1 / dir.dot dir) • n.cross dir, dir)

/-- `planeHalfspaceIntersect`, halfspace-inl.h 623-676; `halfspacePlaneIntersect`, 679-687, calls it with the arguments
exchanged. -/
noncomputable def planeHalfspace (eps big : ℝ) (n1 : V3 ℝ) (d1 : ℝ) (X1 : Pose ℝ) (n2 : V3 ℝ) (d2 : ℝ) (X2 : Pose ℝ) :
    FlatOut :=
  let h1 := transform n1 d1 X1
  let h2 := transform n2 d2 X2
  let dir := h1.1.cross h2.1
  if dir.dot dir < eps then
    if h1.1.dot h2.1 > 0 then
      if h1.2 < h2.2 then ⟨true, 1, some (h2.2 - h1.2), none⟩ else ⟨false, 0, none, none⟩
    else
      if h1.2 + h2.2 > 0 then ⟨false, 0, none, none⟩ else ⟨true, 2, some (-(h1.2 + h2.2)), none⟩
  else ⟨true, 3, some big, some (commonLine h1 h2)⟩

/-- `halfspaceIntersect`, halfspace-inl.h 690-746. -/
noncomputable def halfspaceHalfspace (eps big : ℝ) (n1 : V3 ℝ) (d1 : ℝ) (X1 : Pose ℝ) (n2 : V3 ℝ) (d2 : ℝ) (X2 : Pose ℝ) :
    FlatOut :=
  let h1 := transform n1 d1 X1
  let h2 := transform n2 d2 X2
  let dir := h1.1.cross h2.1
  if dir.dot dir < eps then
    if h1.1.dot h2.1 > 0 then
      if h1.2 < h2.2 then ⟨true, 1, some big, none⟩ else ⟨true, 2, some big, none⟩
    else
      if h1.2 + h2.2 > 0 then ⟨false, 0, none, none⟩ else ⟨true, 3, some (-(h1.2 + h2.2)), none⟩
  else ⟨true, 4, some big, some (commonLine h1 h2)⟩

/-! ### Planes -/

/-- `spherePlaneIntersect`, plane-inl.h 121-149. -/
noncomputable def spherePlane (r : ℝ) (X1 : Pose ℝ) (n : V3 ℝ) (d : ℝ) (X2 : Pose ℝ) (contacts : Option (List CPoint)) :
    HitOut :=
  let h := transform n d X2
  let s := sd h X1.t
  let depth := -|s| + r
  if depth ≥ 0 then (true, push contacts ⟨if s > 0 then -h.1 else h.1, X1.t - s • h.1, depth⟩)
  else (false, contacts)

/-- `ellipsoidPlaneIntersect`, plane-inl.h 152-193. -/
noncomputable def ellipsoidPlane (radii : V3 ℝ) (X1 : Pose ℝ) (n : V3 ℝ) (d : ℝ) (X2 : Pose ℝ)
    (contacts : Option (List CPoint)) : HitOut :=
  let h := transform n d (X1.inv.mul X2)
  let normal2 : V3 ℝ := ⟨h.1.x ^ 2, h.1.y ^ 2, h.1.z ^ 2⟩
  let radii2 : V3 ℝ := ⟨radii.x ^ 2, radii.y ^ 2, radii.z ^ 2⟩
  let c := Real.sqrt (normal2.dot radii2)
  let s := -h.2
  let depth := c - |s|
  if depth ≥ 0 then
    let support : V3 ℝ := (1 / c) • ⟨radii2.x * h.1.x, radii2.y * h.1.y, radii2.z * h.1.z⟩
    let point := (depth / h.1.dot support - 1) • support
    (true, push contacts ⟨if s > 0 then X1.R.mulVec (-h.1) else X1.R.mulVec h.1,
      if s > 0 then X1.apply point else X1.apply (-point), depth⟩)
  else (false, contacts)

/-- `boxPlaneIntersect`, plane-inl.h 196-265. -/
noncomputable def boxPlane (tol : ℝ) (side : V3 ℝ) (X1 : Pose ℝ) (n : V3 ℝ) (d : ℝ) (X2 : Pose ℝ)
    (contacts : Option (List CPoint)) : HitOut :=
  let h := transform n d X2
  let s := sd h X1.t
  let depth := boxExtent side X1 h - |s|
  if depth < 0 then (false, contacts)
  else
    let p := boxPoint tol side X1 h (if s > 0 then 1 else -1)
    (true, push contacts ⟨if s > 0 then -h.1 else h.1, p - (sd h p) • h.1, depth⟩)

/-- `capsulePlaneIntersect` without contacts, plane-inl.h 268-290. -/
noncomputable def capsulePlane0 (r lz : ℝ) (X1 : Pose ℝ) (n : V3 ℝ) (d : ℝ) (X2 : Pose ℝ) : Bool :=
  let h := transform n d X2
  let dirz := X1.R.col 2
  let d1 := sd h (X1.t + ((1 / 2) * lz) • dirz)
  let d2 := sd h (X1.t - ((1 / 2) * lz) • dirz)
  if d1 * d2 ≤ 0 then true else decide (|d1| ≤ r ∨ |d2| ≤ r)

/-- `capsulePlaneIntersect`, plane-inl.h 293-388. -/
noncomputable def capsulePlane (tol r lz : ℝ) (X1 : Pose ℝ) (n : V3 ℝ) (d : ℝ) (X2 : Pose ℝ)
    (contacts : Option (List CPoint)) : HitOut :=
  match contacts with
  | none => (capsulePlane0 r lz X1 n d X2, none)
  | some l =>
    let h := transform n d X2
    let dirz := X1.R.col 2
    let p1 := X1.t + ((1 / 2) * lz) • dirz
    let p2 := X1.t - ((1 / 2) * lz) • dirz
    let d1 := sd h p1
    let d2 := sd h p2
    let cross := (|d2| / (|d1| + |d2|)) • p1 + (|d1| / (|d1| + |d2|)) • p2
    if d1 * d2 < -tol then
      if |d1| < |d2| then (true, push (some l) ⟨if d1 < 0 then -h.1 else h.1, cross, |d1| + r⟩)
      else (true, push (some l) ⟨if d2 < 0 then -h.1 else h.1, cross, |d2| + r⟩)
    else if |d1| > r ∧ |d2| > r then (false, some l)
    else
      let point :=
        if |d1| ≤ r ∧ |d2| ≤ r then (1 / 2 : ℝ) • ((p1 - d2 • h.1) + (p2 - d1 • h.1))
        else if |d1| ≤ r then p1 - d1 • h.1 else p2 - d2 • h.1
      (true, push (some l) ⟨if d1 < 0 then h.1 else -h.1, point, r - min |d1| |d2|⟩)

/-- `cylinderPlaneIntersect` without contacts, plane-inl.h 391-410. -/
noncomputable def cylinderPlane0 (r lz : ℝ) (X1 : Pose ℝ) (n : V3 ℝ) (d : ℝ) (X2 : Pose ℝ) : Bool :=
  let h := transform n d X2
  let Q := X1.R.tr.mulVec h.1
  let term := |Q.z| * lz + r * Real.sqrt (Q.x * Q.x + Q.y * Q.y)
  if term - |sd h X1.t| < 0 then false else true

/-- `cylinderPlaneIntersect`, plane-inl.h 413-515. -/
noncomputable def cylinderPlane (tol r lz : ℝ) (X1 : Pose ℝ) (n : V3 ℝ) (d : ℝ) (X2 : Pose ℝ)
    (contacts : Option (List CPoint)) : HitOut :=
  match contacts with
  | none => (cylinderPlane0 r lz X1 n d X2, none)
  | some l =>
    let h := transform n d X2
    let dirz := X1.R.col 2
    let cosa := dirz.dot h.1
    if |cosa| < tol then
      let s := sd h X1.t
      let depth := r - |s|
      if depth < 0 then (false, some l)
      else (true, push (some l) ⟨if s < 0 then h.1 else -h.1, X1.t - s • h.1, depth⟩)
    else
      let C := rimVec tol r dirz h.1 cosa
      let p1 := X1.t + ((1 / 2) * lz) • dirz
      let p2 := X1.t - ((1 / 2) * lz) • dirz
      let c1 := if cosa > 0 then p1 - C else p1 + C
      let c2 := if cosa > 0 then p2 + C else p2 - C
      let d1 := sd h c1
      let d2 := sd h c2
      if d1 * d2 ≤ 0 then
        if |d1| > |d2| then (true, push (some l) ⟨if d2 < 0 then -h.1 else h.1, c2 - d2 • h.1, |d2|⟩)
        else (true, push (some l) ⟨if d1 < 0 then -h.1 else h.1, c1 - d1 • h.1, |d1|⟩)
      else (false, some l)

/-- The contact point from three points on both sides of the plane in `conePlaneIntersect` and `planeTriangleIntersect`,
plane-inl.h 578-632, 702-755. `pos` says which points count as positive. With two positive points `p` and one `q` below the
formula is `(-p * q_d + q * p_d) / (-q_d + p_d)`, otherwise its negative over its negative. -/
noncomputable def crossPoint (pos : ℝ → Bool) (c0 c1 c2 : V3 ℝ) (d0 d1 d2 : ℝ) : V3 ℝ :=
  let up : V3 ℝ → ℝ → V3 ℝ → ℝ → V3 ℝ := fun p pd q qd => (1 / (-qd + pd)) • ((-qd) • p + pd • q)
  let dn : V3 ℝ → ℝ → V3 ℝ → ℝ → V3 ℝ := fun p pd q qd => (1 / (qd - pd)) • (qd • p - pd • q)
  let mid : V3 ℝ → V3 ℝ → V3 ℝ := fun a b => (1 / 2 : ℝ) • (a + b)
  match pos d0, pos d1, pos d2 with
  | true, true, false => mid (up c0 d0 c2 d2) (up c1 d1 c2 d2)
  | true, false, true => mid (up c0 d0 c1 d1) (up c2 d2 c1 d1)
  | false, true, true => mid (up c1 d1 c0 d0) (up c2 d2 c0 d0)
  | true, false, false => mid (dn c1 d1 c0 d0) (dn c2 d2 c0 d0)
  | false, true, false => mid (dn c0 d0 c1 d1) (dn c2 d2 c1 d1)
  | false, false, true => mid (dn c0 d0 c2 d2) (dn c1 d1 c2 d2)
  | true, true, true => 0
  | false, false, false => 0

/-- `d_positive` and `d_negative`, plane-inl.h 582-597, 704-718: the larger of the values on either side, from 0. -/
noncomputable def sides (pos : ℝ → Bool) (ds : List ℝ) : ℝ × ℝ :=
  ds.foldl (fun a x => if pos x then (if a.1 ≤ x then x else a.1, a.2) else (a.1, if a.2 ≤ -x then -x else a.2)) (0, 0)

/-- `conePlaneIntersect`, plane-inl.h 518-638. -/
noncomputable def conePlane (tol r lz : ℝ) (X1 : Pose ℝ) (n : V3 ℝ) (d : ℝ) (X2 : Pose ℝ)
    (contacts : Option (List CPoint)) : HitOut :=
  let h := transform n d X2
  let dirz := X1.R.col 2
  let cosa := dirz.dot h.1
  if |cosa| < tol then
    let s := sd h X1.t
    let depth := r - |s|
    if depth < 0 then (false, contacts)
    else (true, push contacts ⟨if s < 0 then h.1 else -h.1,
      X1.t - ((1 / 2) * lz) • dirz + ((1 / 2) * depth / r * lz) • dirz - s • h.1, depth⟩)
  else
    let C := rimVec tol r dirz h.1 cosa
    let c0 := X1.t + ((1 / 2) * lz) • dirz
    let c1 := X1.t - ((1 / 2) * lz) • dirz + C
    let c2 := X1.t - ((1 / 2) * lz) • dirz - C
    let d0 := sd h c0
    let d1 := sd h c1
    let d2 := sd h c2
    if (d0 ≥ 0 ∧ d1 ≥ 0 ∧ d2 ≥ 0) ∨ (d0 ≤ 0 ∧ d1 ≤ 0 ∧ d2 ≤ 0) then (false, contacts)
    else
      let s := sides (fun x => decide (x ≥ 0)) [d0, d1, d2]
      (true, push contacts ⟨if s.1 > s.2 then -h.1 else h.1, crossPoint (fun x => decide (x ≥ 0)) c0 c1 c2 d0 d1 d2,
        min s.1 s.2⟩)

/-- `planeTriangleIntersect`, plane-inl.h 681-758. The second component holds what is written to the three pointers. -/
noncomputable def planeTriangle (n : V3 ℝ) (d : ℝ) (X1 : Pose ℝ) (P1 P2 P3 : V3 ℝ) (X2 : Pose ℝ) : Bool × Option CPoint :=
  let h := transform n d X1
  let d0 := sd h (X2.apply P1)
  let d1 := sd h (X2.apply P2)
  let d2 := sd h (X2.apply P3)
  if (d0 ≥ 0 ∧ d1 ≥ 0 ∧ d2 ≥ 0) ∨ (d0 ≤ 0 ∧ d1 ≤ 0 ∧ d2 ≤ 0) then (false, none)
  else
    let s := sides (fun x => decide (x > 0)) [d0, d1, d2]
    (true, some ⟨if s.1 > s.2 then h.1 else -h.1,
      crossPoint (fun x => decide (x > 0)) (X2.apply P1) (X2.apply P2) (X2.apply P3) d0 d1 d2, min s.1 s.2⟩)

/-- `planeIntersect`, plane-inl.h 761-776. -/
noncomputable def planePlane (n1 : V3 ℝ) (d1 : ℝ) (X1 : Pose ℝ) (n2 : V3 ℝ) (d2 : ℝ) (X2 : Pose ℝ) : Bool :=
  let h1 := transform n1 d1 X1
  let h2 := transform n2 d2 X2
  let a := h1.1.dot h2.1
  if a = 1 ∧ h1.2 ≠ h2.2 then false
  else if a = -1 ∧ h1.2 ≠ -h2.2 then false
  else true

/-- `flipNormal`, contact_point-inl.h 86-92, and the specialisations made by
`FCL_GJK_LIBCCD_SHAPE_SHAPE_INTERSECT_INV`, gjk_solver_libccd-inl.h 219-236, for the unbounded shape first. -/
noncomputable def flip (o : HitOut) : HitOut := (o.1, o.2.map fun l => l.map fun k => { k with normal := -k.normal })

end Flat
end Fcl
