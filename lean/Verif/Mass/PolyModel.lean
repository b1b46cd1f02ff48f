import Verif.Geom.Shapes
import Verif.Mass.Model

/-!
# Model of the mass properties of the meshes and of `Convex`

`BVHModel::computeCOM`, `computeVolume`, `computeMomentofInertia` of include/fcl/geometry/bvh/BVH_model-inl.h and the three of
include/fcl/geometry/shape/convex-inl.h, over the reals. The loops are folds over the triangles, in their order. An index
behind the end of an array reads the origin; the theorems are about indices in range.
-/

namespace Fcl
namespace Mass

/-- `(v1.cross(v2)).dot(v3)`. -/
noncomputable def sixVol (a b c : V3 ℝ) : ℝ := (a.cross b).dot c

/-- One step of the loop of `BVHModel::computeVolume`, BVH_model-inl.h 788-790. -/
noncomputable def volStep (vol : ℝ) (t : V3 ℝ × V3 ℝ × V3 ℝ) : ℝ := vol + sixVol t.1 t.2.1 t.2.2

/-- One step of the loop of `BVHModel::computeCOM`, BVH_model-inl.h 772-775. -/
noncomputable def comStep (s : ℝ × V3 ℝ) (t : V3 ℝ × V3 ℝ × V3 ℝ) : ℝ × V3 ℝ :=
  let d := sixVol t.1 t.2.1 t.2.2
  (s.1 + d, s.2 + d • (t.1 + t.2.1 + t.2.2))

/-- `C_canonical`. -/
noncomputable def canonical : M3 ℝ := ⟨⟨1 / 60, 1 / 120, 1 / 120⟩, ⟨1 / 120, 1 / 60, 1 / 120⟩, ⟨1 / 120, 1 / 120, 1 / 60⟩⟩

/-- Sum of matrices. -/
noncomputable def madd (a b : M3 ℝ) : M3 ℝ := ⟨a.r0 + b.r0, a.r1 + b.r1, a.r2 + b.r2⟩

/-- Multiple of a matrix. -/
noncomputable def mscale (c : ℝ) (a : M3 ℝ) : M3 ℝ := ⟨c • a.r0, c • a.r1, c • a.r2⟩

/-- One step of the loop of `computeMomentofInertia`, BVH_model-inl.h 810-819: `C += Aᵀ C_canonical A d_six_vol`. -/
noncomputable def covStep (C : M3 ℝ) (t : V3 ℝ × V3 ℝ × V3 ℝ) : M3 ℝ :=
  let d := sixVol t.1 t.2.1 t.2.2
  let A : M3 ℝ := ⟨t.1, t.2.1, t.2.2⟩
  madd C (mscale d ((A.tr.mul canonical).mul A))

/-- The matrix of the inertia from `C`, BVH_model-inl.h 822-829, convex-inl.h 155-160. -/
noncomputable def fromCov (C : M3 ℝ) : M3 ℝ :=
  let tr := C.r0.x + C.r1.y + C.r2.z
  ⟨⟨tr - C.r0.x, -C.r0.y, -C.r0.z⟩, ⟨-C.r1.x, tr - C.r1.y, -C.r1.z⟩, ⟨-C.r2.x, -C.r2.y, tr - C.r2.z⟩⟩

/-- The three corners of a triangle of a mesh. -/
noncomputable def corners (vs : List (V3 ℝ)) (t : ℕ × ℕ × ℕ) : V3 ℝ × V3 ℝ × V3 ℝ := (vs.getD t.1 0, vs.getD t.2.1 0, vs.getD t.2.2 0)

/-- `BVHModel::computeVolume`, BVH_model-inl.h 781-794. -/
noncomputable def meshVolume (vs : List (V3 ℝ)) (ts : List (ℕ × ℕ × ℕ)) : ℝ :=
  ts.foldl (fun s t => volStep s (corners vs t)) 0 / 6

/-- `BVHModel::computeCOM`, BVH_model-inl.h 764-779. -/
noncomputable def meshCOM (vs : List (V3 ℝ)) (ts : List (ℕ × ℕ × ℕ)) : V3 ℝ :=
  let s := ts.foldl (fun s t => comStep s (corners vs t)) (0, 0)
  (1 / (s.1 * 4)) • s.2

/-- `BVHModel::computeMomentofInertia`, BVH_model-inl.h 796-830. -/
noncomputable def meshInertia (vs : List (V3 ℝ)) (ts : List (ℕ × ℕ × ℕ)) : M3 ℝ :=
  fromCov (ts.foldl (fun s t => covStep s (corners vs t)) ⟨0, 0, 0⟩)

/-! ### `Convex` -/

/-- The mean of the corners of the face that starts at `k` with their number `n`, convex-inl.h 182-186. -/
noncomputable def faceCenter (vs : List (V3 ℝ)) (faces : List ℕ) (k n : ℕ) : V3 ℝ :=
  (1 / (n : ℝ)) • (List.range n).foldl (fun c j => c + vs.getD (faces.getD (k + (j + 1)) 0) 0) 0

/-- The loop over the sides of a face, convex-inl.h 191-199: the triangle of a side and the centre. `j` is counted from 0, so
`(j % vertex_count) + 1` for the next corner is `(j + 1) % n + 1` (and `vertex_base + (j + 1) % vertex_count` at 139). -/
noncomputable def faceLoop {σ : Type} (step : σ → V3 ℝ × V3 ℝ × V3 ℝ → σ) (vs : List (V3 ℝ)) (faces : List ℕ) (k n : ℕ) (s : σ) : σ :=
  let c := faceCenter vs faces k n
  (List.range n).foldl (fun s j =>
    step s (vs.getD (faces.getD (k + (j + 1)) 0) 0, vs.getD (faces.getD (k + ((j + 1) % n + 1)) 0) 0, c)) s

/-- The loop over the faces, convex-inl.h 173-203: `faces` has for each face the number of corners and then the corners;
`k` is `face_index`. -/
noncomputable def convexLoop {σ : Type} (step : σ → V3 ℝ × V3 ℝ × V3 ℝ → σ) (vs : List (V3 ℝ)) (faces : List ℕ) : ℕ → ℕ → σ → σ
  | 0, _, s => s
  | m + 1, k, s =>
    let n := faces.getD k 0
    convexLoop step vs faces m (k + (n + 1)) (faceLoop step vs faces k n s)

/-- `Convex::computeVolume`, convex-inl.h 205-247. -/
noncomputable def convexVolume (vs : List (V3 ℝ)) (m : ℕ) (faces : List ℕ) : ℝ := convexLoop volStep vs faces m 0 0 / 6

/-- `Convex::computeCOM`, convex-inl.h 166-202. -/
noncomputable def convexCOM (vs : List (V3 ℝ)) (m : ℕ) (faces : List ℕ) : V3 ℝ :=
  let s := convexLoop comStep vs faces m 0 (0, 0)
  (1 / (s.1 * 4)) • s.2

/-- `Convex::computeMomentofInertia`, convex-inl.h 111-163; unlike the others, it is divided by the volume at the end. -/
noncomputable def convexInertia (vs : List (V3 ℝ)) (m : ℕ) (faces : List ℕ) : M3 ℝ :=
  let s := convexLoop (fun s t => (covStep s.1 t, volStep s.2 t)) vs faces m 0 (⟨0, 0, 0⟩, 0)
  mscale (6 / s.2) (fromCov s.1)

end Mass
end Fcl
