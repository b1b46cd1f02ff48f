import Verif.Geom.ShapeMeshPoints
import Verif.BVH.ProtocolStep
import Mathlib.Tactic.IntervalCases

/-! # C104: meshes generated from shapes -/

namespace Fcl
namespace ToMesh
open Real

/-! ## Specification -/

/-- The vertices and triangles given to a model so far, if it accepts more of them. -/
def Open (a : Abs ℝ) (vs : List (V3 ℝ)) (ts : List (ℕ × ℕ × ℕ)) : Prop :=
  (a = .empty ∧ vs = [] ∧ ts = []) ∨ a = .building vs ts

/-- `p`, `q`, `s` are the corners of a triangle of the mesh. -/
def Corners (M : SMesh) (p q s : V3 ℝ) : Prop :=
  ∃ t ∈ M.tris, M.points[t.1]? = some p ∧ M.points[t.2.1]? = some q ∧ M.points[t.2.2]? = some s

/-- The determinant of the linear part of a pose; 1 for rotations. -/
noncomputable def det (R : M3 ℝ) : ℝ := R.r0.dot (R.r1.cross R.r2)

/-! ## Theorems -/

/-- **C104.** For every shape that is not flat and every tessellation with at least three segments around the axis and one
ring, or one segment along the axis: the generated mesh is a closed surface of Euler characteristic 2 with one
orientation, all its vertices are used and are on the surface of the shape, its triangles are in the shape, and they are
counterclockwise seen from outside. -/
theorem C104_mesh (job : Job) (h : job.Sensible) : ∃ M, mesh job = some M ∧ MeshOf job.geo.pts M := by
  have split : ∀ {n : ℕ} {r : ℝ}, 3 ≤ (n : ℝ) * r → 3 ≤ circleSplit n r := fun {n r} h => Nat.le_floor (by exact_mod_cast h)
  have height : ∀ {k : ℕ} {r h : ℝ}, 0 < r → 0 < h → 3 ≤ k → 1 ≤ heightSplit k r h := by
    intro k r h hr hh hk
    have : (0 : ℝ) < k := by exact_mod_cast (by omega : 0 < k)
    exact Nat.one_le_ceil_iff.2 (by have := pi_pos; positivity)
  cases job with
  | box side => exact ⟨_, rfl, meshOf_box h⟩
  | sphere r seg ring =>
    obtain ⟨h1, h2, h3⟩ := h
    exact ⟨_, by rw [mesh, sphere, if_neg (by omega)], meshOf_sphere h1 h3 h2⟩
  | sphereFaces r n =>
    obtain ⟨h1, h2⟩ := h
    have h3 : 3 ≤ sphereSplit n r := Nat.lt_ceil.2 (by push_cast; rw [mul_assoc]; exact h2)
    exact ⟨_, by rw [mesh, sphere, if_neg (by omega)], meshOf_sphere h1 (by omega) h3⟩
  | ellipsoid radii seg ring =>
    obtain ⟨h1, h2, h3⟩ := h
    exact ⟨_, by rw [mesh, ellipsoid, if_neg (by omega)], meshOf_ellipsoid h1 h3 h2⟩
  | ellipsoidFaces radii n =>
    obtain ⟨⟨h1, h2, h3⟩, h4⟩ := h
    have h5 : 3 ≤ ellipsoidSplit n radii := by
      refine Nat.lt_ceil.2 ?_
      rw [← mul_rpow h1.le h2.le, ← mul_rpow h2.le h3.le, ← mul_rpow h3.le h1.le]
      exact_mod_cast h4
    exact ⟨_, by rw [mesh, ellipsoid, if_neg (by omega)], meshOf_ellipsoid ⟨h1, h2, h3⟩ (by omega) h5⟩
  | cylinder r h split hNum =>
    obtain ⟨h1, h2, h3, h4⟩ := h
    exact ⟨_, by rw [mesh, cylinder, if_neg (by omega)], meshOf_cylinder h1 h2 h4 h3⟩
  | cylinderSplit r h n =>
    obtain ⟨h1, h2, h3⟩ := h
    have h4 := height h1 h2 (split h3)
    exact ⟨_, by rw [mesh, cylinder, if_neg (by omega)], meshOf_cylinder h1 h2 h4 (split h3)⟩
  | cone r h split hNum =>
    obtain ⟨h1, h2, h3, h4⟩ := h
    exact ⟨_, by rw [mesh, cone, if_neg (by omega)], meshOf_cone h1 h2 h4 h3⟩
  | coneSplit r h n =>
    obtain ⟨h1, h2, h3⟩ := h
    have h4 := height h1 h2 (split h3)
    exact ⟨_, by rw [mesh, cone, if_neg (by omega)], meshOf_cone h1 h2 h4 (split h3)⟩

/-- **C104.** At a pose: the triangles are in the placed shape, and if the pose does not mirror, the place of the centre of
the shape is strictly behind each of them. -/
theorem C104_placed {S : Set (V3 ℝ)} {M : SMesh} (h : MeshOf S M) (X : Pose ℝ) {p q s : V3 ℝ} (hc : Corners (placed X M) p q s) :
    (∀ x, HullOf [p, q, s] x → x ∈ Placed X.R X.t S) ∧ (det X.R = 1 → 0 < ((q - p).cross (s - p)).dot (p - X.t)) := by
  obtain ⟨t, ht, h1, h2, h3⟩ := hc
  simp only [placed, List.getElem?_map, Option.map_eq_some_iff] at h1 h2 h3
  obtain ⟨p', h1, rfl⟩ := h1
  obtain ⟨q', h2, rfl⟩ := h2
  obtain ⟨s', h3, rfl⟩ := h3
  constructor
  · intro x hx
    have key : ∃ y, HullOf [p', q', s'] y ∧ x = X.apply y := by
      induction hx with
      | pt hp =>
        simp only [List.mem_cons, List.not_mem_nil, or_false] at hp
        rcases hp with rfl | rfl | rfl
        · exact ⟨_, .pt (by simp), rfl⟩
        · exact ⟨_, .pt (by simp), rfl⟩
        · exact ⟨_, .pt (by simp), rfl⟩
      | seg u h0 h1 _ _ ih1 ih2 =>
        obtain ⟨y1, k1, rfl⟩ := ih1
        obtain ⟨y2, k2, rfl⟩ := ih2
        refine ⟨_, .seg u h0 h1 k1 k2, ?_⟩
        unfold Pose.apply
        rw [M3.mulVec_add, M3.mulVec_smul, M3.mulVec_smul]
        v3
    obtain ⟨y, hy, rfl⟩ := key
    exact ⟨y, h.inside t ht _ _ _ h1 h2 h3 y hy, rfl⟩
  · intro hd
    have hf := h.outward t ht _ _ _ h1 h2 h3
    unfold Faces at hf
    have e : ((X.apply q' - X.apply p').cross (X.apply s' - X.apply p')).dot (X.apply p' - X.t) =
        det X.R * ((q' - p').cross (s' - p')).dot p' := by
      simp only [det, Pose.apply, M3.mulVec, V3.cross, V3.dot, V3.sub_x, V3.sub_y, V3.sub_z, V3.add_x, V3.add_y, V3.add_z]
      ring
    rw [e, hd, one_mul]
    exact hf

section
variable {V : Type*} {o : BVOps V ℝ} {pts : V → Set (V3 ℝ)} (right : Geom ℝ → V → List ℕ → ℕ → Bool)
variable (junk : BVNode V) (junkIdx : ℕ)

/-- **C104.** Generating into a model that is empty or that was begun: the call succeeds, and the model then has the mesh at
its pose in addition to what it had, with the indices moved behind the vertices that were there. If the model is
finalized, its hierarchy encloses all triangles. -/
theorem C104_generate (hs : o.Sound pts) {m : BModel V ℝ} {a : Abs ℝ} (hm : m.Rep pts a) {vs : List (V3 ℝ)}
    {ts : List (ℕ × ℕ × ℕ)} (ho : Open a vs ts) (hr : InRange vs ts) {job : Job} (hj : job.Sensible) (X : Pose ℝ) (finalize : Bool) :
    ∃ M m', MeshOf job.geo.pts M ∧ generate (o.type right) junk junkIdx m job X finalize = some (.ok, m') ∧
      m'.Rep pts ((if finalize then Abs.ready else Abs.building) (vs ++ M.points.map X.apply)
        (ts ++ M.tris.map fun t => (t.1 + vs.length, t.2.1 + vs.length, t.2.2 + vs.length))) := by
  obtain ⟨M, e, hM⟩ := C104_mesh job hj
  have hbegun : ∃ m1, (if m.state = .empty then m.beginModel 0 0 else (.ok, m)) = (.ok, m1) ∧ m1.Rep pts (.building vs ts) := by
    rcases ho with ⟨rfl, rfl, rfl⟩ | rfl
    · obtain ⟨m1, h1, h2⟩ := step_begin hm 0 0
      exact ⟨m1, by rw [if_pos hm.1, h1]; rfl, h2⟩
    · refine ⟨m, ?_, hm⟩
      have : m.state = .begun := hm.1
      rw [if_neg (by rw [this]; decide)]
  obtain ⟨m1, e1, r1⟩ := hbegun
  obtain ⟨m2, e2, r2⟩ := step_addMesh r1 (placed X M).points (placed X M).tris (.inl rfl)
  obtain ⟨N, hN⟩ : ∃ N, N = ts ++ M.tris.map fun t => (t.1 + vs.length, t.2.1 + vs.length, t.2.2 + vs.length) := ⟨_, rfl⟩
  have r2 : m2.Rep pts (.building (vs ++ M.points.map X.apply) N) := hN ▸ r2
  have e2 : m1.addMesh (placed X M).points (placed X M).tris = some (.ok, m2) := e2
  refine ⟨M, ?_⟩
  rw [← hN]
  cases finalize with
  | false =>
    refine ⟨m2, hM, ?_, r2⟩
    simp only [generate, e, addTriangles, e1, e2]
    simp
  | true =>
    have hin : InRange (vs ++ M.points.map X.apply) N := by
      intro t ht
      rw [hN] at ht
      rcases List.mem_append.1 ht with ht | ht
      · have := hr t ht
        simp only [List.length_append]
        omega
      · obtain ⟨u, hu, rfl⟩ := List.mem_map.1 ht
        have := hM.inRange u hu
        simp only [List.length_append, List.length_map]
        omega
    obtain ⟨m3, e3, r3⟩ := step_end (right := right) (junk := junk) (junkIdx := junkIdx) hs r2 hin
    have hne : N ≠ [] := by
      have h4 := hM.euler
      have h5 : M.tris ≠ [] := by
        intro h0
        have := hM.used 0 (by rw [h0] at h4; simp at h4; omega)
        rw [h0] at this
        simp at this
      rw [hN]
      simp [h5]
    have hstep : ∀ (v : List (V3 ℝ)) (l : List (ℕ × ℕ × ℕ)), l ≠ [] → (Abs.building v l).step .endModel = (.ok, .ready v l) := by
      intro v l hl
      cases l with
      | nil => exact absurd rfl hl
      | cons a l => cases v <;> rfl
    rw [hstep _ _ hne] at e3 r3
    refine ⟨m3, hM, ?_, r3⟩
    simp only [generate, e, addTriangles, e1, e2]
    simpa using e3

/-- **C104.** A finished model is refused and left as it is. -/
theorem C104_finished (t : BVType V ℝ) {m : BModel V ℝ} (hm : m.state = .processed) {job : Job} (hj : job.Sensible) (X : Pose ℝ)
    (finalize : Bool) : generate t junk junkIdx m job X finalize = some (.outOfSequence, m) := by
  obtain ⟨M, e, -⟩ := C104_mesh job hj
  simp [generate, e, addTriangles, hm, BModel.addMesh]

end

/-- The number of triangles and of vertices of a sphere or ellipsoid. -/
theorem C104_count {r : ℝ} {seg ring : ℕ} (h : 1 ≤ ring) : ∃ M, mesh (.sphere r seg ring) = some M ∧ M.tris.length = 2 * ring * seg ∧
    M.points.length = ring * seg + 2 := by
  refine ⟨_, by rw [mesh, sphere, if_neg (by omega)], ?_, ?_⟩
  · show (sphereTris seg ring).length = _
    rw [length_sphereTris h]; ring
  · simp [spherePoints, List.length_flatMap]

/-! ## What does not hold -/

/-- **C104, violated: the number of faces.** "For sphere of radius r, then the number of triangles is r * r * N"
(geometric_shape_to_BVH_model.h 98-99). It is r⁴ N: the radius is squared before the number of segments is, 180. -/
theorem C104_violated_faces (k r : ℕ) (hk : 1 ≤ k) (hr : 1 ≤ r) : ∃ M, mesh (.sphereFaces r (2 * k * k)) = some M ∧
    M.tris.length = r * r * r * r * (2 * k * k) := by
  have e : sphereSplit (2 * k * k) r = k * r * r := by
    unfold sphereSplit
    rw [show (((2 * k * k : ℕ) : ℝ) / 2) = (k : ℝ) * k by push_cast; ring, Real.sqrt_mul_self (by positivity)]
    rw [show (k : ℝ) * r * r = ((k * r * r : ℕ) : ℝ) by push_cast; ring, Nat.ceil_natCast]
  have h1 : 1 ≤ k * r * r := Nat.mul_pos (Nat.mul_pos hk hr) hr
  obtain ⟨M, h, h2, -⟩ := C104_count (r := (r : ℝ)) (seg := k * r * r) (ring := k * r * r) h1
  refine ⟨M, by rw [mesh, e]; exact h, ?_⟩
  rw [h2]; ring

/-- **C104, violated: small cylinders and cones.** If the number of segments for the unit radius times the radius is
less than 1, the mesh has no triangles, whatever the height. -/
theorem C104_violated_small {r h : ℝ} {n : ℕ} (h1 : (n : ℝ) * r < 1) :
    (∃ M, mesh (.cylinderSplit r h n) = some M ∧ M.tris = []) ∧ ∃ M, mesh (.coneSplit r h n) = some M ∧ M.tris = [] := by
  have e : circleSplit n r = 0 := Nat.floor_eq_zero.2 h1
  constructor
  · exact ⟨_, by rw [mesh, cylinder, if_neg (by rw [e]; simp)], by simp [e, cylinderTris, sideTris]⟩
  · exact ⟨_, by rw [mesh, cone, if_neg (by rw [e]; simp)], by simp [e, coneTris, sideTris]⟩

/-- **C104, violated: small spheres.** If the square of the radius is small against the number of faces, there is one
segment around the axis, and every triangle has two equal corners. -/
theorem C104_violated_flat {r : ℝ} {n : ℕ} (h0 : 0 < √((n : ℝ) / 2) * r * r) (h1 : √((n : ℝ) / 2) * r * r ≤ 1) :
    ∃ M, mesh (.sphereFaces r n) = some M ∧ M.tris = [(1, 0, 0), (0, 2, 0)] ∧ ¬ Closed M.tris := by
  have e : sphereSplit n r = 1 := by
    refine le_antisymm (Nat.ceil_le.2 (by exact_mod_cast h1)) (Nat.one_le_ceil_iff.2 h0)
  refine ⟨_, by rw [mesh, sphere, if_neg (by rw [e]; simp)], by rw [e]; rfl, ?_⟩
  rw [e]
  exact fun h => h.proper 0 0 (show (0, 0) ∈ sides (sphereTris 1 1) by decide) rfl

/-- **C104, violated: no ring.** With zero rings the loop over `ring - 1` of unsigned numbers does not end in any
reasonable time, and likewise with zero segments along the axis of a cylinder or cone. -/
theorem C104_violated_zero (r h : ℝ) {seg : ℕ} (hs : 1 ≤ seg) : mesh (.sphere r seg 0) = none ∧ mesh (.cylinder r h seg 0) = none ∧
    mesh (.cone r h seg 0) = none := by
  refine ⟨?_, ?_, ?_⟩ <;> simp [mesh, sphere, cylinder, cone] <;> omega

/-- With two segments around the axis the surface is not closed in the sense above. -/
theorem C104_two_segments : ¬ Closed (sphereTris 2 1) := fun h => absurd h.once (by decide)

/-! ## Examples -/

namespace Example

/-- The hypotheses of the theorems hold for a sphere, a tall cylinder and a cone. -/
theorem sensible : (Job.sphere 2 5 4).Sensible ∧ (Job.cylinder 1 10 3 1).Sensible ∧ (Job.coneSplit 2 1 2).Sensible ∧
    (Job.box ⟨1, 2, 3⟩).Sensible := by
  refine ⟨?_, ?_, ?_, ?_⟩ <;> norm_num [Job.Sensible]

theorem sensible_faces : (Job.sphereFaces 1 32).Sensible := by
  refine ⟨one_pos, ?_⟩
  rw [show ((32 : ℕ) : ℝ) / 2 = 4 * 4 by norm_num, Real.sqrt_mul_self (by norm_num)]
  norm_num

/-- The triangles of a cone with three segments and two rows. -/
example : coneTris 3 2 = [(6, 0, 1), (6, 1, 2), (6, 2, 0), (7, 4, 3), (7, 5, 4), (7, 3, 5), (1, 0, 3), (1, 3, 4), (2, 1, 4), (2, 4, 5),
    (0, 2, 5), (0, 5, 3)] := by decide

example : Closed (coneTris 3 2) := (coneTris_globe (by norm_num)).closed (by norm_num) (by norm_num)

/-- A new model is open. -/
example : Open (.empty : Abs ℝ) [] [] := .inl ⟨rfl, rfl, rfl⟩

/-- A small sphere: radius 1/10 with 8 faces. -/
theorem small : ∃ M, mesh (.sphereFaces (1 / 10) 8) = some M ∧ M.tris = [(1, 0, 0), (0, 2, 0)] ∧ ¬ Closed M.tris := by
  have e : √((8 : ℕ) / 2 : ℝ) = 2 := by
    rw [show (((8 : ℕ) : ℝ) / 2) = 2 * 2 by norm_num, Real.sqrt_mul_self (by norm_num)]
  exact C104_violated_flat (by rw [e]; norm_num) (by rw [e]; norm_num)

end Example
end ToMesh
end Fcl
