import Verif.Geom.Space
import Verif.BVH.Protocol
import Mathlib.Analysis.Real.Pi.Bounds
import Mathlib.Analysis.SpecialFunctions.Pow.Real

/-!
# Model of `generateBVHModel` (include/fcl/geometry/geometric_shape_to_BVH_model-inl.h)

The numbers are real numbers and `constants<S>::pi()` is π. Indices are natural numbers: the products of the parameters
do not exceed 32 bits. A loop `for i < n - 1` with `n = 0` runs to 2^32 - 1; if its body does something, the result is
`none`.
-/

namespace Fcl

/-- The vectors `points` and `tri_indices` which are passed to `addSubModel`. -/
structure SMesh where
  points : List (V3 ℝ)
  tris : List (ℕ × ℕ × ℕ)

namespace ToMesh
open Real

/-- The triangles for a box, 87-98. -/
def boxTris : List (ℕ × ℕ × ℕ) :=
  [(0, 4, 1), (1, 4, 5), (2, 6, 3), (3, 6, 7), (3, 0, 2), (2, 0, 1), (6, 5, 7), (7, 5, 4), (1, 5, 2), (2, 5, 6), (3, 7, 0),
    (0, 7, 4)]

/-- The points and triangles for a box, 73-98. -/
noncomputable def box (side : V3 ℝ) : SMesh :=
  let a := side.x
  let b := side.y
  let c := side.z
  ⟨[⟨0.5 * a, -0.5 * b, 0.5 * c⟩, ⟨0.5 * a, 0.5 * b, 0.5 * c⟩, ⟨-0.5 * a, 0.5 * b, 0.5 * c⟩, ⟨-0.5 * a, -0.5 * b, 0.5 * c⟩,
    ⟨0.5 * a, -0.5 * b, -0.5 * c⟩, ⟨0.5 * a, 0.5 * b, -0.5 * c⟩, ⟨-0.5 * a, 0.5 * b, -0.5 * c⟩, ⟨-0.5 * a, -0.5 * b, -0.5 * c⟩],
   boxTris⟩

/-- The points for a sphere, 118-137. -/
noncomputable def spherePoints (r : ℝ) (seg ring : ℕ) : List (V3 ℝ) :=
  let phid := π * 2 / seg
  let thetad := π / (ring + 1)
  ((List.range ring).flatMap fun (i : ℕ) =>
    let theta := thetad * (i + 1)
    (List.range seg).map fun (j : ℕ) => ⟨r * sin theta * cos (j * phid), r * sin theta * sin (j * phid), r * cos theta⟩) ++
    [⟨0, 0, r⟩, ⟨0, 0, -r⟩]

/-- The triangles for a sphere and for an ellipsoid, 139-163 and 220-244. -/
def sphereTris (seg ring : ℕ) : List (ℕ × ℕ × ℕ) :=
  ((List.range (ring - 1)).flatMap fun (i : ℕ) => (List.range seg).flatMap fun (j : ℕ) =>
    let a := i * seg + j
    let b := if j = seg - 1 then i * seg else i * seg + j + 1
    let c := (i + 1) * seg + j
    let d := if j = seg - 1 then (i + 1) * seg else (i + 1) * seg + j + 1
    [(a, c, b), (b, c, d)]) ++
  (List.range seg).flatMap fun (j : ℕ) =>
    let a := j
    let b := if j = seg - 1 then 0 else j + 1
    let a' := (ring - 1) * seg + j
    let b' := if j = seg - 1 then (ring - 1) * seg else (ring - 1) * seg + j + 1
    [(ring * seg, a, b), (a', ring * seg + 1, b')]

/-- The points and triangles for a sphere, 111-163. -/
noncomputable def sphere (r : ℝ) (seg ring : ℕ) : Option SMesh :=
  if ring = 0 ∧ seg ≠ 0 then none else some ⟨spherePoints r seg ring, sphereTris seg ring⟩

/-- `seg` and `ring` from the number of triangles of the unit sphere, 179-182. -/
noncomputable def sphereSplit (n : ℕ) (r : ℝ) : ℕ := ⌈√(n / 2) * r * r⌉₊

/-- The points for an ellipsoid, 196-218. -/
noncomputable def ellipsoidPoints (radii : V3 ℝ) (seg ring : ℕ) : List (V3 ℝ) :=
  let a := radii.x
  let b := radii.y
  let c := radii.z
  let phid := π * 2 / seg
  let thetad := π / (ring + 1)
  ((List.range ring).flatMap fun (i : ℕ) =>
    let theta := thetad * (i + 1)
    (List.range seg).map fun (j : ℕ) => ⟨a * sin theta * cos (j * phid), b * sin theta * sin (j * phid), c * cos theta⟩) ++
    [⟨0, 0, c⟩, ⟨0, 0, -c⟩]

/-- The points and triangles for an ellipsoid, 189-244. -/
noncomputable def ellipsoid (radii : V3 ℝ) (seg ring : ℕ) : Option SMesh :=
  if ring = 0 ∧ seg ≠ 0 then none else some ⟨ellipsoidPoints radii seg ring, sphereTris seg ring⟩

/-- `seg` and `ring` from the number of triangles of the unit ellipsoid, 260-270. -/
noncomputable def ellipsoidSplit (n : ℕ) (radii : V3 ℝ) : ℕ :=
  let p : ℝ := 1.6075
  let ap := radii.x ^ p
  let bp := radii.y ^ p
  let cp := radii.z ^ p
  let ratio := ((ap * bp + bp * cp + cp * ap) / 3) ^ (1 / p)
  ⌈√(n / 2) * ratio⌉₊

/-- The points for a cylinder, 284-308. -/
noncomputable def cylinderPoints (r h : ℝ) (split hNum : ℕ) : List (V3 ℝ) :=
  let phid := π * 2 / split
  let hd := h / hNum
  ((List.range split).map fun (i : ℕ) => (⟨r * cos (phid * i), r * sin (phid * i), h / 2⟩ : V3 ℝ)) ++
  ((List.range (hNum - 1)).flatMap fun (i : ℕ) =>
    (List.range split).map fun (j : ℕ) => (⟨r * cos (phid * j), r * sin (phid * j), h / 2 - (i + 1) * hd⟩ : V3 ℝ)) ++
  ((List.range split).map fun (i : ℕ) => (⟨r * cos (phid * i), r * sin (phid * i), -h / 2⟩ : V3 ℝ)) ++
  [⟨0, 0, h / 2⟩, ⟨0, 0, -h / 2⟩]

/-- The triangles between two rows, 316-330 and 400-414. -/
def sideTris (split rows : ℕ) : List (ℕ × ℕ × ℕ) :=
  (List.range rows).flatMap fun (i : ℕ) => (List.range split).flatMap fun (j : ℕ) =>
    let a := j
    let b := if j = split - 1 then 0 else j + 1
    let c := j + split
    let d := if j = split - 1 then split else j + 1 + split
    let start := i * split
    [(start + b, start + a, start + c), (start + b, start + c, start + d)]

/-- The triangles for a cylinder, 310-330. -/
def cylinderTris (split hNum : ℕ) : List (ℕ × ℕ × ℕ) :=
  ((List.range split).map fun (i : ℕ) => ((hNum + 1) * split, i, if i = split - 1 then 0 else i + 1)) ++
  ((List.range split).map fun (i : ℕ) =>
    ((hNum + 1) * split + 1, hNum * split + (if i = split - 1 then 0 else i + 1), hNum * split + i)) ++
  sideTris split hNum

/-- The points and triangles for a cylinder, 277-330. -/
noncomputable def cylinder (r h : ℝ) (split hNum : ℕ) : Option SMesh :=
  if hNum = 0 ∧ split ≠ 0 then none else some ⟨cylinderPoints r h split hNum, cylinderTris split hNum⟩

/-- `circle_split_tot` from the number for a cylinder or cone with radius 1, 350 and 436: the conversion to `unsigned
int` cuts the fraction off. -/
noncomputable def circleSplit (n : ℕ) (r : ℝ) : ℕ := ⌊n * r⌋₊

/-- `h_num`, 351-354 and 437-440. For `split = 0` the code divides by zero and gets `h / inf = 0`; here division by
zero is 0, and `h_num` is 0 as well. -/
noncomputable def heightSplit (split : ℕ) (r h : ℝ) : ℕ :=
  let phid := π * 2 / split
  let circleEdge := phid * r
  ⌈h / circleEdge⌉₊

/-- The points for a cone, 368-392. -/
noncomputable def conePoints (r h : ℝ) (split hNum : ℕ) : List (V3 ℝ) :=
  let phid := π * 2 / split
  let hd := h / hNum
  ((List.range (hNum - 1)).flatMap fun (i : ℕ) =>
    let hi := h / 2 - (i + 1) * hd
    let rh := r * (0.5 - hi / h)
    (List.range split).map fun (j : ℕ) => (⟨rh * cos (phid * j), rh * sin (phid * j), hi⟩ : V3 ℝ)) ++
  ((List.range split).map fun (i : ℕ) => (⟨r * cos (phid * i), r * sin (phid * i), -h / 2⟩ : V3 ℝ)) ++
  [⟨0, 0, h / 2⟩, ⟨0, 0, -h / 2⟩]

/-- The triangles for a cone, 394-414. -/
def coneTris (split hNum : ℕ) : List (ℕ × ℕ × ℕ) :=
  ((List.range split).map fun (i : ℕ) => (hNum * split, i, if i = split - 1 then 0 else i + 1)) ++
  ((List.range split).map fun (i : ℕ) =>
    (hNum * split + 1, (hNum - 1) * split + (if i = split - 1 then 0 else i + 1), (hNum - 1) * split + i)) ++
  sideTris split (hNum - 1)

/-- The points and triangles for a cone, 361-414. -/
noncomputable def cone (r h : ℝ) (split hNum : ℕ) : Option SMesh :=
  if hNum = 0 ∧ split ≠ 0 then none else some ⟨conePoints r h split hNum, coneTris split hNum⟩

/-- The loop that applies the pose, 100-103, 165-168, 246-249, 332-335, 416-419. -/
noncomputable def placed (X : Pose ℝ) (M : SMesh) : SMesh := ⟨M.points.map X.apply, M.tris⟩

/-- What is generated: the shape with the parameters of the tessellation. -/
inductive Job
  | box (side : V3 ℝ)
  | sphere (r : ℝ) (seg ring : ℕ)
  | sphereFaces (r : ℝ) (n : ℕ)
  | ellipsoid (radii : V3 ℝ) (seg ring : ℕ)
  | ellipsoidFaces (radii : V3 ℝ) (n : ℕ)
  | cylinder (r h : ℝ) (split hNum : ℕ)
  | cylinderSplit (r h : ℝ) (n : ℕ)
  | cone (r h : ℝ) (split hNum : ℕ)
  | coneSplit (r h : ℝ) (n : ℕ)

/-- The overloads of `generateBVHModel` up to the call of `addTriangles`: 69-103, 111-168, 175-185, 189-249, 256-273,
277-335, 342-357, 361-419, 427-443. -/
noncomputable def mesh : Job → Option SMesh
  | .box side => some (box side)
  | .sphere r seg ring => sphere r seg ring
  | .sphereFaces r n => sphere r (sphereSplit n r) (sphereSplit n r)
  | .ellipsoid radii seg ring => ellipsoid radii seg ring
  | .ellipsoidFaces radii n => ellipsoid radii (ellipsoidSplit n radii) (ellipsoidSplit n radii)
  | .cylinder r h split hNum => cylinder r h split hNum
  | .cylinderSplit r h n => cylinder r h (circleSplit n r) (heightSplit (circleSplit n r) r h)
  | .cone r h split hNum => cone r h split hNum
  | .coneSplit r h n => cone r h (circleSplit n r) (heightSplit (circleSplit n r) r h)

/-- `addTriangles`, 49-65. `computeLocalAABB` does not change the members of the model. -/
def addTriangles {V : Type*} (t : BVType V ℝ) (junk : BVNode V) (junkIdx : ℕ) (m : BModel V ℝ) (M : SMesh) (finalize : Bool) :
    Option (Code × BModel V ℝ) :=
  let begun := if m.state = .empty then m.beginModel 0 0 else (.ok, m)
  if begun.1 = .ok then
    match begun.2.addMesh M.points M.tris with
    | none => none
    | some (code, m) =>
      if code = .ok ∧ finalize = true then m.endModel t junk junkIdx
      else some (code, m)
  else some begun

/-- `generateBVHModel`. -/
noncomputable def generate {V : Type*} (t : BVType V ℝ) (junk : BVNode V) (junkIdx : ℕ) (m : BModel V ℝ) (job : Job) (X : Pose ℝ)
    (finalize : Bool) : Option (Code × BModel V ℝ) :=
  match mesh job with
  | none => none
  | some M => addTriangles t junk junkIdx m (placed X M) finalize

end ToMesh
end Fcl
