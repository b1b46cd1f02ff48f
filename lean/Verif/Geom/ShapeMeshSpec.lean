import Verif.Geom.ShapeMesh
import Verif.Geom.Shapes
import Verif.BVH.ProtocolSpec

/-!
# What a mesh of a shape should be

None of the functions of the model are used.
-/

namespace Fcl
namespace ToMesh

/-- The sides of the triangles, in the direction in which the triangle is run through. -/
def sides (ts : List (ℕ × ℕ × ℕ)) : List (ℕ × ℕ) := ts.flatMap fun t => [(t.1, t.2.1), (t.2.1, t.2.2), (t.2.2, t.1)]

/-- A closed surface whose triangles are all oriented in the same way: no two triangles have a side in the same
direction, and for each side of a triangle there is the same side in the other direction. -/
structure Closed (ts : List (ℕ × ℕ × ℕ)) : Prop where
  once : (sides ts).Nodup
  back : ∀ u v, (u, v) ∈ sides ts → (v, u) ∈ sides ts
  proper : ∀ u v, (u, v) ∈ sides ts → u ≠ v

/-- `p` is on the surface of the set `S` that contains the origin in its interior: `p` is in `S`, and behind it is
nothing of `S`. -/
def OnSurface (S : Set (V3 ℝ)) (p : V3 ℝ) : Prop := p ∈ S ∧ ∀ s : ℝ, 1 < s → s • p ∉ S

/-- The origin is strictly behind the triangle, if the front is where the corners are seen counterclockwise. -/
def Faces (p q s : V3 ℝ) : Prop := 0 < ((q - p).cross (s - p)).dot p

/-- `M` is a mesh of the shape with the points `S`, which contains the origin in its interior. -/
structure MeshOf (S : Set (V3 ℝ)) (M : SMesh) : Prop where
  /-- All corners exist. -/
  inRange : ∀ t ∈ M.tris, t.1 < M.points.length ∧ t.2.1 < M.points.length ∧ t.2.2 < M.points.length
  /-- Every vertex is on the surface of the shape. -/
  surface : ∀ p ∈ M.points, OnSurface S p
  /-- Every vertex is a corner of a triangle. -/
  used : ∀ i < M.points.length, ∃ t ∈ M.tris, i = t.1 ∨ i = t.2.1 ∨ i = t.2.2
  /-- The mesh is a closed surface, with one orientation. -/
  closed : Closed M.tris
  /-- Its Euler characteristic is 2 (`V - E + F` with `E = 3 F / 2`). -/
  euler : 2 * M.points.length = M.tris.length + 4
  /-- No point of a triangle is outside of the shape. -/
  inside : ∀ t ∈ M.tris, ∀ p q s, M.points[t.1]? = some p → M.points[t.2.1]? = some q → M.points[t.2.2]? = some s →
    ∀ x, HullOf [p, q, s] x → x ∈ S
  /-- Seen from outside, all triangles are counterclockwise. -/
  outward : ∀ t ∈ M.tris, ∀ p q s, M.points[t.1]? = some p → M.points[t.2.1]? = some q → M.points[t.2.2]? = some s → Faces p q s

/-- The shape of a job. -/
def Job.geo : Job → Geo ℝ
  | .box side => .box side
  | .sphere r _ _ => .sphere r
  | .sphereFaces r _ => .sphere r
  | .ellipsoid radii _ _ => .ellipsoid radii
  | .ellipsoidFaces radii _ => .ellipsoid radii
  | .cylinder r h _ _ => .cylinder r h
  | .cylinderSplit r h _ => .cylinder r h
  | .cone r h _ _ => .cone r h
  | .coneSplit r h _ => .cone r h

/-- The shape is not flat, there are at least three segments around the axis, and at least one ring or one segment
along the axis. -/
def Job.Sensible : Job → Prop
  | .box side => 0 < side.x ∧ 0 < side.y ∧ 0 < side.z
  | .sphere r seg ring => 0 < r ∧ 3 ≤ seg ∧ 1 ≤ ring
  | .sphereFaces r n => 0 < r ∧ 2 < Real.sqrt (n / 2) * (r * r)
  | .ellipsoid radii seg ring => (0 < radii.x ∧ 0 < radii.y ∧ 0 < radii.z) ∧ 3 ≤ seg ∧ 1 ≤ ring
  | .ellipsoidFaces radii n => (0 < radii.x ∧ 0 < radii.y ∧ 0 < radii.z) ∧
      2 < Real.sqrt (n / 2) * (((radii.x * radii.y) ^ (1.6075 : ℝ) + (radii.y * radii.z) ^ (1.6075 : ℝ) +
        (radii.z * radii.x) ^ (1.6075 : ℝ)) / 3) ^ (1 / 1.6075 : ℝ)
  | .cylinder r h split hNum => 0 < r ∧ 0 < h ∧ 3 ≤ split ∧ 1 ≤ hNum
  | .cylinderSplit r h n => 0 < r ∧ 0 < h ∧ 3 ≤ n * r
  | .cone r h split hNum => 0 < r ∧ 0 < h ∧ 3 ≤ split ∧ 1 ≤ hNum
  | .coneSplit r h n => 0 < r ∧ 0 < h ∧ 3 ≤ n * r

end ToMesh
end Fcl
