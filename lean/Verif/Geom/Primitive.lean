import Verif.Geom.Space
import Verif.Geom.QuerySpec

/-!
# Model of the sphere queries (include/fcl/narrowphase/detail/primitive_shape_algorithm)

`contacts = none` stands for a null pointer. The distance functions write each output only if its pointer is not null;
the model returns them all, and `none` for the points when they are not written.
-/

namespace Fcl

namespace Prim

/-- `sphereSphereIntersect`, sphere_sphere-inl.h 64-87. -/
noncomputable def sphereSphereIntersect (r1 : ℝ) (X1 : Pose ℝ) (r2 : ℝ) (X2 : Pose ℝ) (contacts : Option (List CPoint)) :
    HitOut :=
  let diff := X2.t - X1.t
  let len := diff.nrm
  if len > r1 + r2 then (false, contacts)
  else (true, contacts.map fun l => l ++ [
    { normal := if len > 0 then (1 / len) • diff else diff
      pos := X1.t + (1 / (r1 + r2)) • (r1 • diff)
      depth := r1 + r2 - len }])

/-- `sphereSphereDistance`, sphere_sphere-inl.h 90-111. -/
noncomputable def sphereSphereDistance (r1 : ℝ) (X1 : Pose ℝ) (r2 : ℝ) (X2 : Pose ℝ) : DistOut :=
  let diff := X1.t - X2.t
  let len := diff.nrm
  if len > r1 + r2 then
    ⟨true, len - (r1 + r2), some (X1.t - (r1 / len) • diff, X2.t + (r2 / len) • diff)⟩
  else ⟨false, -1, none⟩

/-- `lineSegmentPointClosestToPoint`, sphere_capsule-inl.h 71-89. -/
noncomputable def closestOnSegment (p s1 s2 : V3 ℝ) : V3 ℝ :=
  let v := s2 - s1
  let w := p - s1
  let c1 := w.dot v
  let c2 := v.dot v
  if c1 ≤ 0 then s1 else if c2 ≤ c1 then s2 else s1 + (c1 / c2) • v

/-- The common first lines of the two functions for a sphere and a capsule: `s_c`, `segment_point`, `distance`. -/
noncomputable def sphereCapsule (r1 : ℝ) (X1 : Pose ℝ) (r2 lz : ℝ) (X2 : Pose ℝ) : V3 ℝ × V3 ℝ × ℝ :=
  let sc := X2.inv.apply X1.t
  let seg := closestOnSegment sc ⟨0, 0, (1 / 2) * lz⟩ ⟨0, 0, -(1 / 2) * lz⟩
  (sc, seg, (sc - seg).nrm - r1 - r2)

/-- `sphereCapsuleIntersect`, sphere_capsule-inl.h 93-124. -/
noncomputable def sphereCapsuleIntersect (r1 : ℝ) (X1 : Pose ℝ) (r2 lz : ℝ) (X2 : Pose ℝ)
    (contacts : Option (List CPoint)) : HitOut :=
  let o := sphereCapsule r1 X1 r2 lz X2
  if o.2.2 > 0 then (false, contacts)
  else
    let n := -(o.1 - o.2.1).normalized
    (true, contacts.map fun l => l ++ [
      { normal := X2.R.mulVec n
        pos := X2.apply (o.2.1 + o.2.2 • n)
        depth := -o.2.2 }])

/-- `sphereCapsuleDistance`, sphere_capsule-inl.h 127-169. -/
noncomputable def sphereCapsuleDistance (r1 : ℝ) (X1 : Pose ℝ) (r2 lz : ℝ) (X2 : Pose ℝ) : DistOut :=
  let o := sphereCapsule r1 X1 r2 lz X2
  if o.2.2 ≤ 0 then ⟨false, -1, none⟩
  else
    let n := (o.1 - o.2.1).normalized
    ⟨true, o.2.2, some (X2.apply (o.1 - r1 • n), X2.apply (o.2.1 + r2 • n))⟩

/-- One pass of the loop of `nearestPointInBox`, sphere_box-inl.h 83-93: the coordinate and whether it was clamped. -/
noncomputable def clamp1 (half q : ℝ) : ℝ × Bool :=
  let s : ℝ × Bool := (q, false)
  let s := if q < -half then (-half, true) else s
  if q > half then (half, true) else s

/-- `nearestPointInBox`, sphere_box-inl.h 73-95. -/
noncomputable def nearestInBox (size q : V3 ℝ) : V3 ℝ × Bool :=
  let x := clamp1 (size.x / 2) q.x
  let y := clamp1 (size.y / 2) q.y
  let z := clamp1 (size.z / 2) q.z
  (⟨x.1, y.1, z.1⟩, x.2 || y.2 || z.2)

/-- One pass of the loop over the faces, sphere_box-inl.h 155-162; `none` is the infinite `min_distance` with
`min_axis = -1`. -/
noncomputable def faceStep (eps half c : ℝ) (i : Fin 3) (s : Option (ℝ × Fin 3)) : Option (ℝ × Fin 3) :=
  let d := if c ≥ 0 then half - c else c + half
  match s with
  | none => some (d, i)
  | some (m, _) => if d + eps < m then some (d, i) else s

/-- The contact of `sphereBoxIntersect` in the frame of the box, sphere_box-inl.h 121-175. Reading or writing at index
`min_axis` is defined because the first pass of the loop always sets it. -/
noncomputable def sphereBoxContact (eps r : ℝ) (side c n : V3 ℝ) (clamped : Bool) : CPoint :=
  let cn := n - c
  let sq := cn.dot cn
  if clamped ∧ sq > eps * eps then
    let distance := Real.sqrt sq
    let nrm := (1 / distance) • cn
    let depth := r - distance
    ⟨nrm, n + (depth * (1 / 2)) • nrm, depth⟩
  else
    let half : V3 ℝ := ⟨side.x / 2, side.y / 2, side.z / 2⟩
    let s := faceStep eps half.z c.z 2 (faceStep eps half.y c.y 1 (faceStep eps half.x c.x 0 none))
    let s := s.getD (0, 0)
    let nrm : V3 ℝ := match s.2 with
      | 0 => ⟨if c.x ≥ 0 then -1 else 1, 0, 0⟩
      | 1 => ⟨0, if c.y ≥ 0 then -1 else 1, 0⟩
      | 2 => ⟨0, 0, if c.z ≥ 0 then -1 else 1⟩
    ⟨nrm, c + ((r - s.1) / 2) • nrm, s.1 + r⟩

/-- `sphereBoxIntersect`, sphere_box-inl.h 98-178. -/
noncomputable def sphereBoxIntersect (eps r : ℝ) (X1 : Pose ℝ) (side : V3 ℝ) (X2 : Pose ℝ)
    (contacts : Option (List CPoint)) : HitOut :=
  let c := (X2.inv.mul X1).t
  let o := nearestInBox side c
  let cn := o.1 - c
  if cn.dot cn > r * r then (false, contacts)
  else
    let k := sphereBoxContact eps r side c o.1 o.2
    (true, contacts.map fun l => l ++ [{ normal := X2.R.mulVec k.normal, pos := X2.apply k.pos, depth := k.depth }])

/-- `sphereBoxDistance`, sphere_box-inl.h 182-226. -/
noncomputable def sphereBoxDistance (r : ℝ) (X1 : Pose ℝ) (side : V3 ℝ) (X2 : Pose ℝ) : DistOut :=
  let c := (X2.inv.mul X1).t
  let o := nearestInBox side c
  if o.2 then
    let nc := c - o.1
    let sq := nc.dot nc
    if sq > r * r then
      let d := Real.sqrt sq
      ⟨true, d - r, some (X2.apply ((d - r) • (1 / d) • nc + o.1), X2.apply o.1)⟩
    else ⟨false, -1, none⟩
  else ⟨false, -1, none⟩

/-- `nearestPointInCylinder`, sphere_cylinder-inl.h 78-109. -/
noncomputable def nearestInCylinder (height radius : ℝ) (q : V3 ℝ) : V3 ℝ × Bool :=
  let half := height / 2
  let z : ℝ × Bool := if q.z > half then (half, true) else if q.z < -half then (-half, true) else (q.z, false)
  let sq := q.x * q.x + q.y * q.y
  if sq > radius * radius then
    let k := radius / Real.sqrt sq
    (⟨k * q.x, k * q.y, z.1⟩, true)
  else (⟨q.x, q.y, z.1⟩, z.2)

/-- The contact of `sphereCylinderIntersect` in the frame of the cylinder, sphere_cylinder-inl.h 139-218. -/
noncomputable def sphereCylinderContact (eps r : ℝ) (radius lz : ℝ) (c n : V3 ℝ) (clamped : Bool) : CPoint :=
  let cn := n - c
  let sq := cn.dot cn
  if clamped ∧ sq > eps * eps then
    let distance := Real.sqrt sq
    let nrm := (1 / distance) • cn
    let depth := r - distance
    ⟨nrm, n + (depth * (1 / 2)) • nrm, depth⟩
  else
    let face := if c.z ≥ 0 then lz / 2 - c.z else c.z + lz / 2
    let dxy := Real.sqrt (c.x * c.x + c.y * c.y)
    let barrel := radius - dxy
    if barrel < face - eps then
      if dxy > eps then
        let nrm : V3 ℝ := ⟨-c.x / dxy, -c.y / dxy, 0⟩
        ⟨nrm, c + ((r - barrel) / 2) • nrm, r + barrel⟩
      else
        let nrm : V3 ℝ := ⟨-1, 0, 0⟩
        ⟨nrm, c + ((r - barrel) / 2) • nrm, r + radius⟩
    else
      let nrm : V3 ℝ := ⟨0, 0, if c.z ≥ 0 then -1 else 1⟩
      ⟨nrm, c + ((r - face) / 2) • nrm, face + r⟩

/-- `sphereCylinderIntersect`, sphere_cylinder-inl.h 113-221. -/
noncomputable def sphereCylinderIntersect (eps r : ℝ) (X1 : Pose ℝ) (radius lz : ℝ) (X2 : Pose ℝ)
    (contacts : Option (List CPoint)) : HitOut :=
  let c := (X2.inv.mul X1).t
  let o := nearestInCylinder lz radius c
  let cn := o.1 - c
  if cn.dot cn > r * r then (false, contacts)
  else
    let k := sphereCylinderContact eps r radius lz c o.1 o.2
    (true, contacts.map fun l => l ++ [{ normal := X2.R.mulVec k.normal, pos := X2.apply k.pos, depth := k.depth }])

/-- `sphereCylinderDistance`, sphere_cylinder-inl.h 225-271. -/
noncomputable def sphereCylinderDistance (r : ℝ) (X1 : Pose ℝ) (radius lz : ℝ) (X2 : Pose ℝ) : DistOut :=
  let c := (X2.inv.mul X1).t
  let o := nearestInCylinder lz radius c
  if o.2 then
    let nc := c - o.1
    let sq := nc.dot nc
    if sq > r * r then
      let d := Real.sqrt sq
      ⟨true, d - r, some (X2.apply (c - (1 / d) • r • nc), X2.apply o.1)⟩
    else ⟨false, -1, none⟩
  else ⟨false, -1, none⟩

/-- `clamp(n, 0, 1)`, capsule_capsule-inl.h 69-75. -/
noncomputable def clamp01 (n : ℝ) : ℝ := if n < 0 then 0 else if n > 1 then 1 else n

/-- The values `*s`, `*t` of `closestPtSegmentSegment`, capsule_capsule-inl.h 78-149, from the dot products. -/
noncomputable def segSegParams (eps a b c e f : ℝ) : ℝ × ℝ :=
  if a ≤ eps * eps ∧ e ≤ eps * eps then (0, 0)
  else if a ≤ eps * eps then (0, clamp01 (f / e))
  else if e ≤ eps * eps then (clamp01 (-c / a), 0)
  else
    let denom := max 0 (a * e - b * b)
    let s := if denom > eps * eps then clamp01 ((b * f - c * e) / denom) else 0
    let t := (b * s + f) / e
    if t < 0 then (clamp01 (-c / a), 0)
    else if t > 1 then (clamp01 ((b - c) / a), 1)
    else (s, t)

/-- `closestPtSegmentSegment`, capsule_capsule-inl.h 78-149: the two points. In the first case of the code the points are
the end points, which is what the parameters 0 give. -/
noncomputable def segSeg (eps : ℝ) (p1 q1 p2 q2 : V3 ℝ) : V3 ℝ × V3 ℝ :=
  let d1 := q1 - p1
  let d2 := q2 - p2
  let r := p1 - p2
  let st := segSegParams eps (d1.dot d1) (d1.dot d2) (d1.dot r) (d2.dot d2) (d2.dot r)
  (p1 + st.1 • d1, p2 + st.2 • d2)

/-- `capsuleCapsuleDistance`, capsule_capsule-inl.h 158-239: `*dist` and the two points. It always returns true. -/
noncomputable def capsuleCapsuleDistance (eps : ℝ) (r1 lz1 : ℝ) (X1 : Pose ℝ) (r2 lz2 : ℝ) (X2 : Pose ℝ) : DistOut :=
  let arm1 := (lz1 / 2) • X1.R.col 2
  let arm2 := (lz2 / 2) • X2.R.col 2
  let o := segSeg eps (X1.t + arm1) (X1.t - arm1) (X2.t + arm2) (X2.t - arm2)
  let d := Real.sqrt ((o.1 - o.2).dot (o.1 - o.2))
  let v := if d > eps then (1 / d) • (o.2 - o.1)
    else if |(X1.R.col 2).dot (X2.R.col 2)| < 1 - eps then ((X1.R.col 2).cross (X2.R.col 2)).normalized
    else X1.R.col 0
  ⟨true, d - r1 - r2, some (o.1 + r1 • v, o.2 - r2 • v)⟩

end Prim
end Fcl
