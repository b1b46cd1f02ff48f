import Verif.Geom.ComputeBV
import Verif.BVH.MeshLemmas
import Verif.Props.AABB

/-!
# Lemmas about the boxes of shapes
-/

namespace Fcl
open ComputeBV
set_option linter.unusedSectionVars false

theorem abs_mul_le {a x m : ℝ} (h : |x| ≤ m) : |a * x| ≤ |a * m| := by
  rw [abs_mul, abs_mul]
  exact mul_le_mul_of_nonneg_left (h.trans (le_abs_self m)) (abs_nonneg a)

theorem abs_le_of_sq {x r : ℝ} (hr : 0 ≤ r) (h : x * x ≤ r * r) : |x| ≤ r := abs_le_of_sq_le_sq (by nlinarith) hr |> fun h => h
theorem abs_dot_le (r p : V3 ℝ) {a b c : ℝ} (ha : |r.x * p.x| ≤ a) (hb : |r.y * p.y| ≤ b) (hc : |r.z * p.z| ≤ c) :
    |r.dot p| ≤ a + b + c := by
  rw [V3.dot]
  exact (abs_add_three _ _ _).trans (add_le_add (add_le_add ha hb) hc)

theorem around_mem {X : Pose ℝ} {p d : V3 ℝ} (hx : |X.R.r0.dot p| ≤ d.x) (hy : |X.R.r1.dot p| ≤ d.y)
    (hz : |X.R.r2.dot p| ≤ d.z) : X.apply p ∈ (around X.t d).pts := by
  rw [abs_le] at hx hy hz
  refine ⟨⟨?_, ?_⟩, ⟨?_, ?_⟩, ?_, ?_⟩ <;>
  simp only [around, Pose.apply, M3.mulVec, V3.add_x, V3.add_y, V3.add_z, V3.sub_x, V3.sub_y, V3.sub_z] <;> linarith

theorem abs_half {x s : ℝ} (h : -(s / 2) ≤ x ∧ x ≤ s / 2) : |x| ≤ s / 2 := abs_le.2 h
theorem abs_mul_half (a s : ℝ) : |a * (s / 2)| = 1 / 2 * |a * s| := by
  rw [mul_div_assoc', abs_div, abs_two]; ring

theorem box_mem {side : V3 ℝ} {X : Pose ℝ} {p : V3 ℝ} (h : p ∈ Shape.box side) : X.apply p ∈ (box side X).pts := by
  obtain ⟨hx, hy, hz⟩ := h
  have k : ∀ r : V3 ℝ, |r.dot p| ≤ 1 / 2 * (|r.x * side.x| + |r.y * side.y| + |r.z * side.z|) := by
    intro r
    have := abs_dot_le r p (abs_mul_le (abs_half hx)) (abs_mul_le (abs_half hy)) (abs_mul_le (abs_half hz))
    rw [abs_mul_half, abs_mul_half, abs_mul_half] at this
    linarith
  exact around_mem (k _) (k _) (k _)

theorem row_sq {X : Pose ℝ} (h : X.Rigid) : X.R.r0.dot X.R.r0 = 1 ∧ X.R.r1.dot X.R.r1 = 1 ∧ X.R.r2.dot X.R.r2 = 1 := by
  have := h.rows
  simp only [M3.mul, M3.one, M3.mk.injEq, V3.mk.injEq] at this
  exact ⟨this.1.1, this.2.1.2.1, this.2.2.2.2⟩

theorem row_dot {X : Pose ℝ} (h : X.Rigid) : X.R.r0.dot X.R.r1 = 0 ∧ X.R.r0.dot X.R.r2 = 0 ∧ X.R.r1.dot X.R.r2 = 0 := by
  have := h.rows
  simp only [M3.mul, M3.one, M3.mk.injEq, V3.mk.injEq] at this
  exact ⟨this.1.2.1, this.1.2.2, this.2.1.2.2⟩

/-- A unit vector sees a ball of radius `r` within `r`. -/
theorem unit_dot_le {u p : V3 ℝ} {r : ℝ} (hr : 0 ≤ r) (hu : u.dot u = 1) (hp : p.dot p ≤ r * r) : |u.dot p| ≤ r := by
  apply abs_le_of_sq hr
  have := V3.dot_sq_le u p
  rw [hu, one_mul] at this
  linarith

theorem sphere_mem {r : ℝ} {X : Pose ℝ} (hX : X.Rigid) (hr : 0 ≤ r) {p : V3 ℝ} (h : p ∈ Shape.ball r) :
    X.apply p ∈ (sphere r X).pts := by
  obtain ⟨h0, h1, h2⟩ := row_sq hX
  exact around_mem (unit_dot_le hr h0 h) (unit_dot_le hr h1 h) (unit_dot_le hr h2 h)

theorem capsule_mem {r lz : ℝ} {X : Pose ℝ} (hX : X.Rigid) (hr : 0 ≤ r) {p : V3 ℝ} (h : p ∈ Shape.capsule r lz) :
    X.apply p ∈ (capsule r lz X).pts := by
  obtain ⟨c, h1, h2, h3⟩ := h
  have k : ∀ u : V3 ℝ, u.dot u = 1 → |u.dot p| ≤ 1 / 2 * |u.z * lz| + r := by
    intro u hu
    have a := unit_dot_le (p := ⟨p.x, p.y, p.z - c⟩) hr hu h3
    have b := abs_mul_le (a := u.z) (abs_half ⟨h1, h2⟩)
    rw [abs_mul_half] at b
    have e : u.dot p = u.dot ⟨p.x, p.y, p.z - c⟩ + u.z * c := by simp only [V3.dot]; ring
    rw [e]
    have := abs_add_le (u.dot ⟨p.x, p.y, p.z - c⟩) (u.z * c)
    linarith
  obtain ⟨h0, h1, h2⟩ := row_sq hX
  exact around_mem (k _ h0) (k _ h1) (k _ h2)

theorem cyl_dot {r lz : ℝ} (hr : 0 ≤ r) {p : V3 ℝ} (h : p.x * p.x + p.y * p.y ≤ r * r)
    (h' : -(lz / 2) ≤ p.z ∧ p.z ≤ lz / 2) (u : V3 ℝ) : |u.dot p| ≤ |u.x * r| + |u.y * r| + 1 / 2 * |u.z * lz| := by
  have hx : |p.x| ≤ r := abs_le_of_sq hr (by nlinarith [mul_self_nonneg p.y])
  have hy : |p.y| ≤ r := abs_le_of_sq hr (by nlinarith [mul_self_nonneg p.x])
  rw [← abs_mul_half]
  exact abs_dot_le u p (abs_mul_le hx) (abs_mul_le hy) (abs_mul_le (abs_half h'))

theorem cylinder_mem {r lz : ℝ} {X : Pose ℝ} (hr : 0 ≤ r) {p : V3 ℝ} (h : p ∈ Shape.cylinder r lz) :
    X.apply p ∈ (cylinder r lz X).pts :=
  around_mem (cyl_dot hr h.1 h.2 _) (cyl_dot hr h.1 h.2 _) (cyl_dot hr h.1 h.2 _)

theorem cone_subset {r lz : ℝ} (hl : 0 ≤ lz) : Shape.cone r lz ⊆ Shape.cylinder r lz := by
  rintro p ⟨s, x, y, h0, h1, h2, rfl⟩
  refine ⟨?_, ?_, ?_⟩
  · have : s * s ≤ 1 := by nlinarith
    have e : s * x * (s * x) + s * y * (s * y) = s * s * (x * x + y * y) := by ring
    show s * x * (s * x) + s * y * (s * y) ≤ r * r
    rw [e]
    nlinarith [mul_self_nonneg x, mul_self_nonneg y]
  · show -(lz / 2) ≤ lz / 2 - s * lz
    nlinarith
  · show lz / 2 - s * lz ≤ lz / 2
    nlinarith

theorem ellipsoid_mem {radii : V3 ℝ} {X : Pose ℝ} {p : V3 ℝ} (h : p ∈ Shape.ellipsoid radii) :
    X.apply p ∈ (ellipsoid radii X).pts := by
  obtain ⟨q, hq, rfl⟩ := h
  have hx : |q.x| ≤ 1 := abs_le_of_sq zero_le_one (by nlinarith [mul_self_nonneg q.y, mul_self_nonneg q.z])
  have hy : |q.y| ≤ 1 := abs_le_of_sq zero_le_one (by nlinarith [mul_self_nonneg q.x, mul_self_nonneg q.z])
  have hz : |q.z| ≤ 1 := abs_le_of_sq zero_le_one (by nlinarith [mul_self_nonneg q.x, mul_self_nonneg q.y])
  have k : ∀ a m x : ℝ, |x| ≤ 1 → |a * (m * x)| ≤ |a * m| := by
    intro a m x hx
    rw [← mul_assoc, abs_mul]
    nlinarith [abs_nonneg (a * m), abs_nonneg x]
  have k' : ∀ u : V3 ℝ, |u.dot ⟨radii.x * q.x, radii.y * q.y, radii.z * q.z⟩| ≤
      |u.x * radii.x| + |u.y * radii.y| + |u.z * radii.z| := fun u =>
    abs_dot_le u _ (k _ _ _ hx) (k _ _ _ hy) (k _ _ _ hz)
  exact around_mem (k' _) (k' _) (k' _)

/-! ### Hulls -/

theorem aabb_hull {l : List (V3 ℝ)} {b : AABB ℝ} (h : ∀ p ∈ l, p ∈ b.pts) {p : V3 ℝ} (hp : HullOf l p) : p ∈ b.pts :=
  HullOf.subset h (fun _ _ h1 h2 t h0 h3 => (aabb_sound (0 : ℝ) 0).convex b _ _ h1 h2 t h0 h3) hp

theorem apply_seg (X : Pose ℝ) (p q : V3 ℝ) (t : ℝ) :
    X.apply ((1 - t) • p + t • q) = (1 - t) • X.apply p + t • X.apply q := by
  simp only [Pose.apply, M3.mulVec_add, M3.mulVec_smul]; v3

theorem hull_apply {l : List (V3 ℝ)} (X : Pose ℝ) {p : V3 ℝ} (hp : HullOf l p) : HullOf (l.map X.apply) (X.apply p) := by
  induction hp with
  | pt h => exact .pt (List.mem_map_of_mem h)
  | seg t h0 h1 _ _ ih1 ih2 => rw [apply_seg]; exact .seg t h0 h1 ih1 ih2

theorem foldl_addPt_mem (l : List (V3 ℝ)) (b : AABB ℝ) : ∀ p ∈ l, p ∈ (l.foldl AABB.addPt b).pts :=
  fun p hp => foldl_add_mem (o := aabbOps (0 : ℝ) 0) (aabb_sound 0 0) l b p hp

theorem convex_mem {big : ℝ} {vs : List (V3 ℝ)} {X : Pose ℝ} {p : V3 ℝ} (h : HullOf vs p) :
    X.apply p ∈ (convex big vs X).pts := by
  refine aabb_hull ?_ (hull_apply X h)
  have := foldl_addPt_mem (vs.map X.apply) (AABB.default big (-big))
  rw [List.foldl_map] at this
  exact this

theorem triangle_mem {a b c : V3 ℝ} {X : Pose ℝ} {p : V3 ℝ} (h : HullOf [a, b, c] p) :
    X.apply p ∈ (triangle a b c X).pts := by
  refine aabb_hull ?_ (hull_apply X h)
  simp only [List.map_cons, List.map_nil, List.mem_cons, List.not_mem_nil, or_false, triangle]
  rintro p (rfl | rfl | rfl) <;>
  simp [AABB.pts, AABB.ofThree, V3.cmin, V3.cmax, Set.mem_setOf_eq]

/-! ### Half spaces and planes -/

theorem unit_cases {a : ℝ} (h : a * a = 1) : (a < 0 → a = -1) ∧ (0 < a → a = 1) := by
  constructor
  · intro h'; nlinarith [mul_self_nonneg (a + 1), mul_self_nonneg (a - 1)]
  · intro h'; nlinarith [mul_self_nonneg (a + 1), mul_self_nonneg (a - 1)]

theorem halfspaceBox_mem {big : ℝ} {n : V3 ℝ} {d : ℝ} (hn : n.x * n.x + n.y * n.y + n.z * n.z = 1) {p : V3 ℝ}
    (hb : p.InRange big (-big)) (h : p ∈ Shape.halfspace n d) : p ∈ (halfspaceBox big n d).pts := by
  obtain ⟨⟨b1, b2⟩, ⟨b3, b4⟩, b5, b6⟩ := hb
  have h : n.x * p.x + n.y * p.y + n.z * p.z ≤ d := h
  rw [aabb_mem, halfspaceBox]
  split
  · rename_i hc
    rw [hc.1, hc.2] at hn h
    obtain ⟨u1, u2⟩ := unit_cases (a := n.x) (by linarith)
    split
    · rename_i h'; rw [u1 h'] at h
      exact ⟨⟨by show -d ≤ p.x; linarith, b2⟩, ⟨b3, b4⟩, b5, b6⟩
    · split
      · rename_i h'; rw [u2 h'] at h
        exact ⟨⟨b1, by show p.x ≤ d; linarith⟩, ⟨b3, b4⟩, b5, b6⟩
      · exact ⟨⟨b1, b2⟩, ⟨b3, b4⟩, b5, b6⟩
  · split
    · rename_i hc
      rw [hc.1, hc.2] at hn h
      obtain ⟨u1, u2⟩ := unit_cases (a := n.y) (by linarith)
      split
      · rename_i h'; rw [u1 h'] at h
        exact ⟨⟨b1, b2⟩, ⟨by show -d ≤ p.y; linarith, b4⟩, b5, b6⟩
      · split
        · rename_i h'; rw [u2 h'] at h
          exact ⟨⟨b1, b2⟩, ⟨b3, by show p.y ≤ d; linarith⟩, b5, b6⟩
        · exact ⟨⟨b1, b2⟩, ⟨b3, b4⟩, b5, b6⟩
    · split
      · rename_i hc
        rw [hc.1, hc.2] at hn h
        obtain ⟨u1, u2⟩ := unit_cases (a := n.z) (by linarith)
        split
        · rename_i h'; rw [u1 h'] at h
          exact ⟨⟨b1, b2⟩, ⟨b3, b4⟩, by show -d ≤ p.z; linarith, b6⟩
        · split
          · rename_i h'; rw [u2 h'] at h
            exact ⟨⟨b1, b2⟩, ⟨b3, b4⟩, b5, by show p.z ≤ d; linarith⟩
          · exact ⟨⟨b1, b2⟩, ⟨b3, b4⟩, b5, b6⟩
      · exact ⟨⟨b1, b2⟩, ⟨b3, b4⟩, b5, b6⟩

theorem planeBox_mem {big : ℝ} {n : V3 ℝ} {d : ℝ} (hn : n.x * n.x + n.y * n.y + n.z * n.z = 1) {p : V3 ℝ}
    (hb : p.InRange big (-big)) (h : p ∈ Shape.plane n d) : p ∈ (planeBox big n d).pts := by
  obtain ⟨⟨b1, b2⟩, ⟨b3, b4⟩, b5, b6⟩ := hb
  have h : n.x * p.x + n.y * p.y + n.z * p.z = d := h
  rw [aabb_mem, planeBox]
  split
  · rename_i hc
    rw [hc.1, hc.2] at hn h
    obtain ⟨u1, u2⟩ := unit_cases (a := n.x) (by linarith)
    split
    · rename_i h'; rw [u1 h'] at h
      exact ⟨⟨by show -d ≤ p.x; linarith, by show p.x ≤ -d; linarith⟩, ⟨b3, b4⟩, b5, b6⟩
    · split
      · rename_i h'; rw [u2 h'] at h
        exact ⟨⟨by show d ≤ p.x; linarith, by show p.x ≤ d; linarith⟩, ⟨b3, b4⟩, b5, b6⟩
      · exact ⟨⟨b1, b2⟩, ⟨b3, b4⟩, b5, b6⟩
  · split
    · rename_i hc
      rw [hc.1, hc.2] at hn h
      obtain ⟨u1, u2⟩ := unit_cases (a := n.y) (by linarith)
      split
      · rename_i h'; rw [u1 h'] at h
        exact ⟨⟨b1, b2⟩, ⟨by show -d ≤ p.y; linarith, by show p.y ≤ -d; linarith⟩, b5, b6⟩
      · split
        · rename_i h'; rw [u2 h'] at h
          exact ⟨⟨b1, b2⟩, ⟨by show d ≤ p.y; linarith, by show p.y ≤ d; linarith⟩, b5, b6⟩
        · exact ⟨⟨b1, b2⟩, ⟨b3, b4⟩, b5, b6⟩
    · split
      · rename_i hc
        rw [hc.1, hc.2] at hn h
        obtain ⟨u1, u2⟩ := unit_cases (a := n.z) (by linarith)
        split
        · rename_i h'; rw [u1 h'] at h
          exact ⟨⟨b1, b2⟩, ⟨b3, b4⟩, by show -d ≤ p.z; linarith, by show p.z ≤ -d; linarith⟩
        · split
          · rename_i h'; rw [u2 h'] at h
            exact ⟨⟨b1, b2⟩, ⟨b3, b4⟩, by show d ≤ p.z; linarith, by show p.z ≤ d; linarith⟩
          · exact ⟨⟨b1, b2⟩, ⟨b3, b4⟩, b5, b6⟩
      · exact ⟨⟨b1, b2⟩, ⟨b3, b4⟩, b5, b6⟩

theorem V3.dot_def (a b : V3 ℝ) : a.dot b = a.x * b.x + a.y * b.y + a.z * b.z := rfl

theorem unitNormal_dot (n : V3 ℝ) (d : ℝ) : (unitNormal n d).1.dot (unitNormal n d).1 = 1 := by
  rw [unitNormal]
  split
  · rename_i h
    have := V3.nrm_mul_self n
    simp only [V3.dot_smul, V3.smul_dot, ← this]
    field_simp
  · simp [V3.dot]

theorem unitNormal_of_unit {n : V3 ℝ} (h : n.dot n = 1) (d : ℝ) : unitNormal n d = (n, d) := by
  have e : n.nrm = 1 := V3.nrm_unique zero_le_one (by linarith)
  rw [unitNormal, e, if_pos one_pos]
  ext1
  · apply V3.ext' <;> simp
  · simp

theorem transform_eq {n : V3 ℝ} {d : ℝ} {X : Pose ℝ} (hX : X.Rigid) (hn : n.dot n = 1) :
    transform n d X = (X.R.mulVec n, d + (X.R.mulVec n).dot X.t) :=
  unitNormal_of_unit (by rw [M3.Orthonormal.dot hX, hn]) _

theorem transform_dot {n : V3 ℝ} {d : ℝ} {X : Pose ℝ} (hX : X.Rigid) (p : V3 ℝ) :
    (X.R.mulVec n).dot (X.apply p) - (d + (X.R.mulVec n).dot X.t) = n.dot p - d := by
  rw [Pose.apply, V3.dot_add, M3.Orthonormal.dot hX]; ring

end Fcl
