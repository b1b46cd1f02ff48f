import Verif.Geom.QuerySpec
import Verif.Gjk.Project

/-!
# Queries between a sphere and a triangle

Models include/fcl/narrowphase/detail/primitive_shape_algorithm/sphere_triangle-inl.h. Exact real arithmetic: `eps` stands
for `std::numeric_limits<S>::epsilon()`, any positive number. The sphere is given by its radius and its pose.
-/

namespace Fcl.Prim

/-- `segmentSqrDistance`, lines 83-109: the return value and `nearest`. -/
noncomputable def segmentSqrDistance (a b p : V3 ℝ) : ℝ × V3 ℝ :=
  let diff := p - a
  let v := b - a
  let t := v.dot diff
  if t > 0 then
    if t < v.dot v then
      let t := t / v.dot v
      let diff := diff - t • v
      (diff.dot diff, a + t • v)
    else
      let diff := diff - v
      (diff.dot diff, a + (1 : ℝ) • v)
  else (diff.dot diff, a + (0 : ℝ) • v)

/-- `projectInTriangle`, lines 112-135. -/
def ProjectInTriangle (a b c n p : V3 ℝ) : Prop :=
  (((b - a).cross n).dot (p - a) > 0 ∧ ((c - b).cross n).dot (p - b) > 0 ∧ ((a - c).cross n).dot (p - c) > 0) ∨
  (((b - a).cross n).dot (p - a) ≤ 0 ∧ ((c - b).cross n).dot (p - b) ≤ 0 ∧ ((a - c).cross n).dot (p - c) ≤ 0)

/-- Lines 167-195 of `sphereTriangleIntersect`: `has_contact` and `contact_point` when the centre does not project in the
triangle. The three edges in turn; the last one near enough wins. -/
noncomputable def edgeContact (rho : ℝ) (a b c o : V3 ℝ) : Option (V3 ℝ) :=
  let k : Option (V3 ℝ) := none
  let k := if (segmentSqrDistance a b o).1 < rho * rho then some (segmentSqrDistance a b o).2 else k
  let k := if (segmentSqrDistance b c o).1 < rho * rho then some (segmentSqrDistance b c o).2 else k
  if (segmentSqrDistance c a o).1 < rho * rho then some (segmentSqrDistance c a o).2 else k

open Classical in
/-- Lines 158-221 of `sphereTriangleIntersect`: `n` and `d` are `normal` and `distance_from_plane`. -/
noncomputable def sphereTriangleFrom (eps r : ℝ) (o a b c n : V3 ℝ) (d : ℝ) : Bool × Option CPoint :=
  let rho := r + eps
  let contact : Option (V3 ℝ) :=
    if d < rho then
      if ProjectInTriangle a b c n o then some (o - d • n) else edgeContact rho a b c o
    else none
  match contact with
  | none => (false, none)
  | some k =>
    let u := k - o
    let q := u.dot u
    if q < rho * rho then
      if q > 0 then (true, some ⟨u.normalized, k, -(r - Real.sqrt q)⟩)
      else (true, some ⟨-n, k, -r⟩)
    else (false, none)

/-- `sphereTriangleIntersect`, lines 138-221, with all three output arguments given. They are not written when the result is
false. -/
noncomputable def sphereTriangleIntersect (eps r : ℝ) (X : Pose ℝ) (a b c : V3 ℝ) : Bool × Option CPoint :=
  let n := ((b - a).cross (c - a)).normalized
  let o := X.t
  let d := (o - a).dot n
  sphereTriangleFrom eps r o a b c (if d < 0 then -n else n) (if d < 0 then -d else d)

/-- Lines 229-448 of the first `sphereTriangleDistance`: the parameters `s`, `t` and `sqr_dist`, before the correction for
round-off errors. -/
noncomputable def triSqr (a00 a01 a11 b0 b1 c : ℝ) : ℝ × ℝ × ℝ :=
  let det := |a00 * a11 - a01 * a01|
  let s := a01 * b1 - a11 * b0
  let t := a01 * b0 - a00 * b1
  let atS : ℝ × ℝ × ℝ := (1, 0, a00 + 2 * b0 + c)
  let atT : ℝ × ℝ × ℝ := (0, 1, a11 + 2 * b1 + c)
  let at0 : ℝ × ℝ × ℝ := (0, 0, c)
  let onS : ℝ × ℝ × ℝ := (-b0 / a00, 0, b0 * (-b0 / a00) + c)
  let onT : ℝ × ℝ × ℝ := (0, -b1 / a11, b1 * (-b1 / a11) + c)
  let inside (s t : ℝ) : ℝ × ℝ × ℝ :=
    (s, t, s * (a00 * s + a01 * t + 2 * b0) + t * (a01 * s + a11 * t + 2 * b1) + c)
  let denom := a00 - 2 * a01 + a11
  if s + t ≤ det then
    if s < 0 then
      if t < 0 then
        if b0 < 0 then
          if -b0 ≥ a00 then atS else onS
        else if b1 ≥ 0 then at0 else if -b1 ≥ a11 then atT else onT
      else if b1 ≥ 0 then at0 else if -b1 ≥ a11 then atT else onT
    else if t < 0 then
      if b0 ≥ 0 then at0 else if -b0 ≥ a00 then atS else onS
    else inside (s * (1 / det)) (t * (1 / det))
  else if s < 0 then
    let tmp0 := a01 + b0
    let tmp1 := a11 + b1
    if tmp1 > tmp0 then
      let numer := tmp1 - tmp0
      if numer ≥ denom then atS else inside (numer / denom) (1 - numer / denom)
    else if tmp1 ≤ 0 then atT else if b1 ≥ 0 then at0 else onT
  else if t < 0 then
    let tmp0 := a01 + b1
    let tmp1 := a00 + b0
    if tmp1 > tmp0 then
      let numer := tmp1 - tmp0
      if numer ≥ denom then atT else inside (1 - numer / denom) (numer / denom)
    else if tmp1 ≤ 0 then atS else if b0 ≥ 0 then at0 else onS
  else
    let numer := a11 + b1 - a01 - b0
    if numer ≤ 0 then atT
    else if numer ≥ denom then atS else inside (numer / denom) (1 - numer / denom)

/-- What a `sphereTriangleDistance` returns and writes: `none` in `dist` if `*dist` is left as it was. -/
structure TriOut where
  ret : Bool
  dist : Option ℝ
  pts : Option (V3 ℝ × V3 ℝ)

/-- The first `sphereTriangleDistance`, lines 224-464, without points. Simplification: for triangles without area the code
divides by zero, which gives NaN; the theorems exclude them. -/
noncomputable def sphereTriangleDist (r : ℝ) (X : Pose ℝ) (a b c : V3 ℝ) : TriOut :=
  let diff := a - X.t
  let e0 := b - a
  let e1 := c - a
  let q := (triSqr (e0.dot e0) (e0.dot e1) (e1.dot e1) (diff.dot e0) (diff.dot e1) (diff.dot diff)).2.2
  let q := if q < 0 then 0 else q
  if q > r * r then ⟨true, some (Real.sqrt q - r), none⟩ else ⟨false, some (-1), none⟩

/-- The second `sphereTriangleDistance`, lines 467-494, with both points. -/
noncomputable def sphereTrianglePts (r : ℝ) (X : Pose ℝ) (a b c : V3 ℝ) : TriOut :=
  let o := X.t
  let p := Proj.triangle a b c o
  if p.dist > r * r then
    let y := p.par 0 • a + p.par 1 • b + p.par 2 • c
    let dir := (o - y).normalized
    ⟨true, some (Real.sqrt p.dist - r), some (X.inv.apply (o - r • dir), y)⟩
  else ⟨false, none, none⟩

/-- The third `sphereTriangleDistance`, lines 497-506, with both points. -/
noncomputable def sphereTrianglePosed (r : ℝ) (X1 : Pose ℝ) (a b c : V3 ℝ) (X2 : Pose ℝ) : TriOut :=
  let o := sphereTrianglePts r X1 (X2.apply a) (X2.apply b) (X2.apply c)
  ⟨o.ret, o.dist, o.pts.map fun p => (p.1, X2.inv.apply p.2)⟩

end Fcl.Prim
