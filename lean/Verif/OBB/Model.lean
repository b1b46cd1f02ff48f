import Verif.Geom.Space

/-!
# Model of `fcl::OBB` (`include/fcl/math/bv/OBB-inl.h`)

Oriented boxes: the columns of `axis` are the box directions, `To` the centre, `extent` the half
sizes. Exact arithmetic over an ordered field; over `ℝ` where the code takes square roots.
-/

namespace Fcl

/-- `class OBB` (`include/fcl/math/bv/OBB.h:51-64`): members `axis`, `To`, `extent`. -/
structure OBB (K : Type*) where
  axis : M3 K
  To : V3 K
  extent : V3 K
deriving DecidableEq, Repr

namespace OBB
variable {K : Type*} [Field K] [LinearOrder K]

/-- The local constant `reps` of `obbDisjoint`, `OBB-inl.h:403` and `533`. -/
def reps : K := 1 / 1000000

/-- `obbDisjoint(B, T, a, b)`, `OBB-inl.h:399-521`, and `obbDisjoint(tf, a, b)`, `525-651`, the same
fifteen tests in the same order on `tf.linear()` and `tf.translation()`. `(s < 0) ? -s : s` is `|s|`.
The chain of `if(...) return true;` is a disjunction. -/
def disjoint (B : M3 K) (T a b : V3 K) : Bool :=
  let Bf : Fin 3 → Fin 3 → K := fun i j => |B.get i j| + reps
  let row (i : Fin 3) := Bf i 0 * b.x + Bf i 1 * b.y + Bf i 2 * b.z
  let col (j : Fin 3) := Bf 0 j * a.x + Bf 1 j * a.y + Bf 2 j * a.z
  decide (|T.x| > a.x + row 0) ||
  decide (|(B.col 0).dot T| > b.x + col 0) ||
  decide (|T.y| > a.y + row 1) ||
  decide (|T.z| > a.z + row 2) ||
  decide (|(B.col 1).dot T| > b.y + col 1) ||
  decide (|(B.col 2).dot T| > b.z + col 2) ||
  decide (|T.z * B.get 1 0 - T.y * B.get 2 0| > a.y * Bf 2 0 + a.z * Bf 1 0 + b.y * Bf 0 2 + b.z * Bf 0 1) ||
  decide (|T.z * B.get 1 1 - T.y * B.get 2 1| > a.y * Bf 2 1 + a.z * Bf 1 1 + b.x * Bf 0 2 + b.z * Bf 0 0) ||
  decide (|T.z * B.get 1 2 - T.y * B.get 2 2| > a.y * Bf 2 2 + a.z * Bf 1 2 + b.x * Bf 0 1 + b.y * Bf 0 0) ||
  decide (|T.x * B.get 2 0 - T.z * B.get 0 0| > a.x * Bf 2 0 + a.z * Bf 0 0 + b.y * Bf 1 2 + b.z * Bf 1 1) ||
  decide (|T.x * B.get 2 1 - T.z * B.get 0 1| > a.x * Bf 2 1 + a.z * Bf 0 1 + b.x * Bf 1 2 + b.z * Bf 1 0) ||
  decide (|T.x * B.get 2 2 - T.z * B.get 0 2| > a.x * Bf 2 2 + a.z * Bf 0 2 + b.x * Bf 1 1 + b.y * Bf 1 0) ||
  decide (|T.y * B.get 0 0 - T.x * B.get 1 0| > a.x * Bf 1 0 + a.y * Bf 0 0 + b.y * Bf 2 2 + b.z * Bf 2 1) ||
  decide (|T.y * B.get 0 1 - T.x * B.get 1 1| > a.x * Bf 1 1 + a.y * Bf 0 1 + b.x * Bf 2 2 + b.z * Bf 2 0) ||
  decide (|T.y * B.get 0 2 - T.x * B.get 1 2| > a.x * Bf 1 2 + a.y * Bf 0 2 + b.x * Bf 2 1 + b.y * Bf 2 0)

/-- `OBB::overlap(other)`, `OBB-inl.h:98-109`; the second overload, `113-118`, calls it. -/
def overlap (b1 b2 : OBB K) : Bool :=
  let t := b2.To - b1.To
  let T : V3 K := ⟨(b1.axis.col 0).dot t, (b1.axis.col 1).dot t, (b1.axis.col 2).dot t⟩
  let R := b1.axis.tr.mul b2.axis
  !disjoint R T b1.extent b2.extent

/-- `overlap(R0, T0, b1, b2)`, `OBB-inl.h:384-395`. `Ttemp.transpose() * b1.axis`, a row vector, is
assigned to the column vector `T`: its entries are the products with the columns of `b1.axis`. -/
def overlapAt (R0 : M3 K) (T0 : V3 K) (b1 b2 : OBB K) : Bool :=
  let R0b2 := R0.mul b2.axis
  let R := b1.axis.tr.mul R0b2
  let Ttemp := R0.mulVec b2.To + T0 - b1.To
  let T : V3 K := ⟨Ttemp.dot (b1.axis.col 0), Ttemp.dot (b1.axis.col 1), Ttemp.dot (b1.axis.col 2)⟩
  !disjoint R T b1.extent b2.extent

/-- `OBB::contain(p)`, `OBB-inl.h:122-138`. -/
def contain (b : OBB K) (p : V3 K) : Bool :=
  let local_p := p - b.To
  let proj0 := local_p.dot (b.axis.col 0)
  if proj0 > b.extent.x || proj0 < -b.extent.x then false else
  let proj1 := local_p.dot (b.axis.col 1)
  if proj1 > b.extent.y || proj1 < -b.extent.y then false else
  let proj2 := local_p.dot (b.axis.col 2)
  if proj2 > b.extent.z || proj2 < -b.extent.z then false else true

/-- `computeVertices`, `OBB-inl.h:233-250`. -/
def vertices (b : OBB K) : List (V3 K) :=
  let e0 := b.extent.x • b.axis.col 0
  let e1 := b.extent.y • b.axis.col 1
  let e2 := b.extent.z • b.axis.col 2
  [b.To - e0 - e1 - e2, b.To + e0 - e1 - e2, b.To + e0 + e1 - e2, b.To - e0 + e1 - e2,
   b.To - e0 - e1 + e2, b.To + e0 - e1 + e2, b.To + e0 + e1 + e2, b.To - e0 + e1 + e2]

/-- `translate`, `OBB-inl.h:374-380`. -/
def translate (b : OBB K) (t : V3 K) : OBB K := { b with To := b.To + t }

/-- `width()`, `OBB-inl.h:178-181`. -/
def width (b : OBB K) : K := 2 * b.extent.x
/-- `height()`, `OBB-inl.h:185-188`. -/
def height (b : OBB K) : K := 2 * b.extent.y
/-- `depth()`, `OBB-inl.h:192-195`. -/
def depth (b : OBB K) : K := 2 * b.extent.z
/-- `volume()`, `OBB-inl.h:199-202`. -/
def volume (b : OBB K) : K := b.width * b.height * b.depth
/-- `size()`, `OBB-inl.h:206-209`. -/
def size (b : OBB K) : K := b.extent.dot b.extent

/-- The loop body of `merge_smalldist`, `OBB-inl.h:341-345` and `356-360`: running bounds `(pmin, pmax)`
of one coordinate. Note the `else if`. -/
def scanStep (s : K × K) (d : K) : K × K :=
  if d > s.2 then (s.1, d) else if d < s.1 then (d, s.2) else s

/-- The loops of `merge_smalldist`, `OBB-inl.h:330-362`, for coordinate `j`. -/
def scan (big : K) (axis : M3 K) (To : V3 K) (vs1 vs2 : List (V3 K)) (j : Fin 3) : K × K :=
  let dots (vs : List (V3 K)) := vs.map fun v => (v - To).dot (axis.col j)
  (dots vs2).foldl scanStep ((dots vs1).foldl scanStep (big, -big))

/-- `merge_smalldist` after the merged axis is known, `OBB-inl.h:325-369`. `b.To` is moved along the
three axes in turn. -/
def mergeAlong (big : K) (axis : M3 K) (b1 b2 : OBB K) : OBB K :=
  let To := (1/2 : K) • (b1.To + b2.To)
  let p (j : Fin 3) := scan big axis To b1.vertices b2.vertices j
  { axis := axis
    To := To + (1/2 * ((p 0).2 + (p 0).1)) • axis.col 0 + (1/2 * ((p 1).2 + (p 1).1)) • axis.col 1 +
      (1/2 * ((p 2).2 + (p 2).1)) • axis.col 2
    extent := ⟨1/2 * ((p 0).2 - (p 0).1), 1/2 * ((p 1).2 - (p 1).1), 1/2 * ((p 2).2 - (p 2).1)⟩ }

/-- `getExtentAndCenter_pointcloud` and `getExtentAndCenter_mesh`,
`include/fcl/math/geometry-inl.h:228-285` and `291-360`, as one fold over the points read (for a mesh:
the three vertices of every triangle; with `ps2`: the points of both frames), for the coordinate of
direction `u`. Here the two comparisons are independent. -/
def boundStep (s : K × K) (d : K) : K × K :=
  (if d < s.1 then d else s.1, if d > s.2 then d else s.2)

/-- `min_coord[j]` and `max_coord[j]` of `getExtentAndCenter`. -/
def bounds (big : K) (u : V3 K) (ps : List (V3 K)) : K × K :=
  (ps.map fun p => u.dot p).foldl boundStep (big, -big)

/-- `getExtentAndCenter(ps, ..., axis, center, extent)`, `include/fcl/math/geometry-inl.h:1321-1335`. -/
def fitAxis (big : K) (axis : M3 K) (ps : List (V3 K)) : OBB K :=
  let p (j : Fin 3) := bounds big (axis.col j) ps
  let o : V3 K := ⟨((p 0).2 + (p 0).1) / 2, ((p 1).2 + (p 1).1) / 2, ((p 2).2 + (p 2).1) / 2⟩
  { axis := axis
    To := axis.mulVec o
    extent := ⟨((p 0).2 - (p 0).1) / 2, ((p 1).2 - (p 1).1) / 2, ((p 2).2 - (p 2).1) / 2⟩ }

/-- `getCovariance(ps, ..., n, M)`, `include/fcl/math/geometry-inl.h:1338-1424`, as a function of the
list of points read (for a mesh: the three vertices of every triangle; with `ps2`: the points of both
frames, since both the sums and `n_points` range over exactly these). -/
def covariance (ps : List (V3 K)) : M3 K :=
  let sum (f : V3 K → K) := (ps.map f).foldl (· + ·) 0
  let n : K := ps.length
  let m (f g : V3 K → K) := sum (fun p => f p * g p) - sum f * sum g / n
  ⟨⟨m (·.x) (·.x), m (·.x) (·.y), m (·.x) (·.z)⟩,
   ⟨m (·.x) (·.y), m (·.y) (·.y), m (·.y) (·.z)⟩,
   ⟨m (·.x) (·.z), m (·.y) (·.z), m (·.z) (·.z)⟩⟩

/-- The ordering of the eigenvalues: `(mid, max)`, `OBB-inl.h:279-303`, and the same lines of
`axisFromEigen`, `include/fcl/math/geometry-inl.h:571-597`. -/
def midMax (s : V3 K) : Fin 3 × Fin 3 :=
  let mm : Fin 3 × Fin 3 := if s.x > s.y then (1, 0) else (0, 1)
  if s.z < s.get mm.1 then (mm.1, mm.2)
  else if s.z > s.get mm.2 then (mm.2, 2)
  else (2, mm.2)

/-- `M3` from its columns. -/
def ofCols (c0 c1 c2 : V3 K) : M3 K := ⟨⟨c0.x, c1.x, c2.x⟩, ⟨c0.y, c1.y, c2.y⟩, ⟨c0.z, c1.z, c2.z⟩⟩

/-- `axisFromEigen(eigenV, eigenS, axis)`, `include/fcl/math/geometry-inl.h:565-602`. -/
def axisFromEigen (E : M3 K) (s : V3 K) : M3 K :=
  let mm := midMax s
  let c0 := E.row mm.2
  let c1 := E.row mm.1
  ofCols c0 c1 (c0.cross c1)

/-- `eigen_old`'s outcome: `none` if the sweeps run out, when `dout` and `vout` are left unset. -/
abbrev EigenFn (K : Type*) := M3 K → Option (V3 K × M3 K)

end OBB

namespace OBB
open V3

/-- `merge_largedist`, `OBB-inl.h:254-312`. `eig` is `eigen_old` (`Verif/OBB/Eigen.lean`); `none`: its
outputs are unset. `merge_largedist` takes row `mid` of the eigenvectors, not the cross product, as its
third axis. -/
noncomputable def mergeLarge (big : ℝ) (eig : EigenFn ℝ) (b1 b2 : OBB ℝ) : Option (OBB ℝ) :=
  let vs := b1.vertices ++ b2.vertices
  let u := (b1.To - b2.To).normalized
  let proj := vs.map fun v => v - (v.dot u) • u
  match eig (covariance proj) with
  | none => none
  | some (s, E) =>
    let mm := midMax s
    some (fitAxis big (ofCols u (E.row mm.2) (E.row mm.1)) vs)

/-- `Quaternion<S>` (Eigen): coefficients. -/
structure Quat where
  w : ℝ
  x : ℝ
  y : ℝ
  z : ℝ

namespace Quat
/-- Eigen `q0.dot(q1)`. -/
def dot (p q : Quat) : ℝ := p.w * q.w + p.x * q.x + p.y * q.y + p.z * q.z
/-- `-q.coeffs()`. -/
def neg (p : Quat) : Quat := ⟨-p.w, -p.x, -p.y, -p.z⟩
/-- `q0.coeffs() + q1.coeffs()`. -/
def add (p q : Quat) : Quat := ⟨p.w + q.w, p.x + q.x, p.y + q.y, p.z + q.z⟩
/-- Eigen `q.normalize()`: unchanged if the squared norm is 0. -/
noncomputable def normalize (p : Quat) : Quat :=
  if p.dot p > 0 then
    let n := Real.sqrt (p.dot p)
    ⟨p.w / n, p.x / n, p.y / n, p.z / n⟩
  else p
/-- Eigen `Quaternion(Matrix3)`: Shepperd's method as in Eigen's `quaternionbase_assign_impl`. -/
noncomputable def ofMat (m : M3 ℝ) : Quat :=
  let tr := m.get 0 0 + m.get 1 1 + m.get 2 2
  if tr > 0 then
    let t := Real.sqrt (tr + 1)
    let t' := 1/2 / t
    ⟨1/2 * t, (m.get 2 1 - m.get 1 2) * t', (m.get 0 2 - m.get 2 0) * t', (m.get 1 0 - m.get 0 1) * t'⟩
  else
    let i : Fin 3 := if m.get 1 1 > m.get 0 0 then 1 else 0
    let i : Fin 3 := if m.get 2 2 > m.get i i then 2 else i
    let j : Fin 3 := i + 1
    let k : Fin 3 := j + 1
    let t := Real.sqrt (m.get i i - m.get j j - m.get k k + 1)
    let t' := 1/2 / t
    let qi := 1/2 * t
    let w := (m.get k j - m.get j k) * t'
    let qj := (m.get j i + m.get i j) * t'
    let qk := (m.get k i + m.get i k) * t'
    match i with
    | 0 => ⟨w, qi, qj, qk⟩
    | 1 => ⟨w, qk, qi, qj⟩
    | 2 => ⟨w, qj, qk, qi⟩
/-- Eigen `q.toRotationMatrix()`. -/
def toMat (q : Quat) : M3 ℝ :=
  ⟨⟨1 - (2 * q.y * q.y + 2 * q.z * q.z), 2 * q.y * q.x - 2 * q.z * q.w, 2 * q.z * q.x + 2 * q.y * q.w⟩,
   ⟨2 * q.y * q.x + 2 * q.z * q.w, 1 - (2 * q.x * q.x + 2 * q.z * q.z), 2 * q.z * q.y - 2 * q.x * q.w⟩,
   ⟨2 * q.z * q.x - 2 * q.y * q.w, 2 * q.z * q.y + 2 * q.x * q.w, 1 - (2 * q.x * q.x + 2 * q.y * q.y)⟩⟩
end Quat

/-- The merged axis of `merge_smalldist`, `OBB-inl.h:320-327`. -/
noncomputable def mergedAxis (m1 m2 : M3 ℝ) : M3 ℝ :=
  let q0 := Quat.ofMat m1
  let q1 := Quat.ofMat m2
  let q1 := if q0.dot q1 < 0 then q1.neg else q1
  (q0.add q1).normalize.toMat

/-- `merge_smalldist`, `OBB-inl.h:316-370`. -/
noncomputable def mergeSmall (big : ℝ) (b1 b2 : OBB ℝ) : OBB ℝ :=
  mergeAlong big (mergedAxis b1.axis b2.axis) b1 b2

/-- `OBB::operator +(other)`, `OBB-inl.h:161-174`, and `operator +=(other)`, `151-157`. -/
noncomputable def add (big : ℝ) (eig : EigenFn ℝ) (b1 b2 : OBB ℝ) : Option (OBB ℝ) :=
  let me1 := max (max b1.extent.x b1.extent.y) b1.extent.z
  let me2 := max (max b2.extent.x b2.extent.y) b2.extent.z
  if (b1.To - b2.To).nrm > 2 * (me1 + me2) then mergeLarge big eig b1 b2 else some (mergeSmall big b1 b2)

/-- `OBB::operator +=(p)`, `OBB-inl.h:142-148`. -/
noncomputable def addPoint (big : ℝ) (eig : EigenFn ℝ) (b : OBB ℝ) (p : V3 ℝ) : Option (OBB ℝ) :=
  add big eig b ⟨b.axis, p, 0⟩

end OBB
end Fcl
