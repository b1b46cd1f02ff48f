import Verif.Geom.BoundVertices
import Verif.Geom.BVLemmas
import Mathlib.Analysis.LocallyConvex.Separation
import Mathlib.Analysis.Convex.Topology
import Mathlib.Tactic.LinearCombination

/-!
# The bound vertices of a shape surround it
-/

namespace Fcl
open V3

/-- The coordinates as a product. -/
def V3.toProd (p : V3 ℝ) : ℝ × ℝ × ℝ := (p.x, p.y, p.z)

/-- A point that no plane separates from the points of a list is in their hull. -/
theorem hull_of_support {l : List (V3 ℝ)} {p : V3 ℝ} (h : ∀ n : V3 ℝ, ∃ v ∈ l, n.dot p ≤ n.dot v) : HullOf l p := by
  by_contra hp
  obtain ⟨s, hs⟩ : ∃ s : Set (ℝ × ℝ × ℝ), s = V3.toProd '' {v | v ∈ l} := ⟨_, rfl⟩
  have hfin : s.Finite := by rw [hs]; exact (List.finite_toSet l).image _
  have hsub : convexHull ℝ s ⊆ V3.toProd '' {x | HullOf l x} := by
    refine convexHull_min ?_ ?_
    · rw [hs]; rintro _ ⟨v, hv, rfl⟩; exact ⟨v, .pt hv, rfl⟩
    · rintro _ ⟨x, hx, rfl⟩ _ ⟨y, hy, rfl⟩ a b ha hb hab
      refine ⟨_, .seg b hb (by linarith) hx hy, ?_⟩
      have : a = 1 - b := by linarith
      subst this
      simp [V3.toProd]
  have hout : p.toProd ∉ convexHull ℝ s := by
    intro hin
    obtain ⟨x, hx, e⟩ := hsub hin
    have : x = p := by
      simp only [V3.toProd, Prod.mk.injEq] at e
      exact V3.ext' e.1 e.2.1 e.2.2
    exact hp (this ▸ hx)
  obtain ⟨f, u, hf, hu⟩ := geometric_hahn_banach_closed_point (convex_convexHull ℝ s) (hfin.isCompact_convexHull (𝕜 := ℝ)).isClosed hout
  have hdot : ∀ q : V3 ℝ, f q.toProd = (⟨f (1, 0, 0), f (0, 1, 0), f (0, 0, 1)⟩ : V3 ℝ).dot q := by
    intro q
    have e : q.toProd = q.x • ((1, 0, 0) : ℝ × ℝ × ℝ) + q.y • ((0, 1, 0) : ℝ × ℝ × ℝ) + q.z • ((0, 0, 1) : ℝ × ℝ × ℝ) := by
      simp [V3.toProd]
    rw [e, map_add, map_add, map_smul, map_smul, map_smul]
    simp only [V3.dot, smul_eq_mul]; ring
  obtain ⟨v, hv, hle⟩ := h ⟨f (1, 0, 0), f (0, 1, 0), f (0, 0, 1)⟩
  rw [← hdot, ← hdot] at hle
  have := hf _ (subset_convexHull ℝ s (by rw [hs]; exact ⟨v, hv, rfl⟩))
  linarith

namespace BoundVertices

theorem phi_sq : phi * phi = phi + 1 := by
  have := Real.mul_self_sqrt (show (0 : ℝ) ≤ 5 by norm_num)
  unfold phi; nlinarith

theorem phi_pos : 0 < phi := by unfold phi; positivity

/-- The regular icosahedron with edges `2` has vertices in all directions as far as a ball of radius `phi² / √3`. -/
theorem ico_octant {X Y Z M : ℝ} (hX : 0 ≤ X) (hY : 0 ≤ Y) (hZ : 0 ≤ Z) (h1 : Y + phi * Z ≤ M) (h2 : X + phi * Y ≤ M)
    (h3 : phi * X + Z ≤ M) : (phi * phi) * (phi * phi) * (X * X + Y * Y + Z * Z) ≤ 3 * (M * M) := by
  have p0 := phi_pos
  have e := phi_sq
  have t1 : 0 ≤ M - (Y + phi * Z) := by linarith
  have t2 : 0 ≤ M - (X + phi * Y) := by linarith
  have t3 : 0 ≤ M - (phi * X + Z) := by linarith
  have a := mul_nonneg t1 t2
  have b := mul_nonneg t2 t3
  have c := mul_nonneg t3 t1
  have d : 0 ≤ 2 * (phi * phi) * ((M - (Y + phi * Z)) * Z + (M - (X + phi * Y)) * Y + (M - (phi * X + Z)) * X) := by positivity
  have key : 3 * (M * M) - (phi * phi) * (phi * phi) * (X * X + Y * Y + Z * Z) =
      (M - (Y + phi * Z)) * (M - (X + phi * Y)) + (M - (X + phi * Y)) * (M - (phi * X + Z)) + (M - (phi * X + Z)) * (M - (Y + phi * Z)) +
      2 * (phi * phi) * ((M - (Y + phi * Z)) * Z + (M - (X + phi * Y)) * Y + (M - (phi * X + Z)) * X) := by
    generalize phi = f at e
    grind
  linarith

theorem exists_sign (x : ℝ) : ∃ s : ℝ, (s = 1 ∨ s = -1) ∧ s * x = |x| := by
  rcases le_total 0 x with h | h
  · exact ⟨1, .inl rfl, by rw [abs_of_nonneg h, one_mul]⟩
  · exact ⟨-1, .inr rfl, by rw [abs_of_nonpos h]; ring⟩

/-- In every direction a bound vertex of the ellipsoid is as far as the ellipsoid. -/
theorem ico_support (w n : V3 ℝ) : ∃ v ∈ ellipsoid w, 0 ≤ n.dot v ∧
    (w.x * n.x) * (w.x * n.x) + (w.y * n.y) * (w.y * n.y) + (w.z * n.z) * (w.z * n.z) ≤ n.dot v * n.dot v := by
  have p0 := phi_pos
  obtain ⟨a, ha⟩ : ∃ a, a = Real.sqrt 3 / (phi * phi) := ⟨_, rfl⟩
  have a0 : 0 < a := by rw [ha]; positivity
  have asq : a * a * ((phi * phi) * (phi * phi)) = 3 := by
    have : Real.sqrt 3 * Real.sqrt 3 = 3 := Real.mul_self_sqrt (by norm_num)
    rw [ha]; field_simp; nlinarith
  obtain ⟨sx, hsx, ex⟩ := exists_sign (w.x * n.x)
  obtain ⟨sy, hsy, ey⟩ := exists_sign (w.y * n.y)
  obtain ⟨sz, hsz, ez⟩ := exists_sign (w.z * n.z)
  have main : ∀ M, 0 ≤ M → |w.y * n.y| + phi * |w.z * n.z| ≤ M → |w.x * n.x| + phi * |w.y * n.y| ≤ M → phi * |w.x * n.x| + |w.z * n.z| ≤ M →
      (w.x * n.x) * (w.x * n.x) + (w.y * n.y) * (w.y * n.y) + (w.z * n.z) * (w.z * n.z) ≤ (a * M) * (a * M) := by
    intro M hM h1 h2 h3
    have h := ico_octant (abs_nonneg _) (abs_nonneg _) (abs_nonneg _) h1 h2 h3
    rw [abs_mul_abs_self, abs_mul_abs_self, abs_mul_abs_self] at h
    have h' := mul_le_mul_of_nonneg_left h (mul_nonneg a0.le a0.le)
    have e1 : ∀ q : ℝ, a * a * ((phi * phi) * (phi * phi) * q) = 3 * q := fun q => by rw [← asq]; ring
    rw [e1] at h'
    nlinarith
  have pick : ∀ M, 0 ≤ M → (∃ v ∈ ellipsoid w, n.dot v = a * M) → |w.y * n.y| + phi * |w.z * n.z| ≤ M → |w.x * n.x| + phi * |w.y * n.y| ≤ M →
      phi * |w.x * n.x| + |w.z * n.z| ≤ M → ∃ v ∈ ellipsoid w, 0 ≤ n.dot v ∧
        (w.x * n.x) * (w.x * n.x) + (w.y * n.y) * (w.y * n.y) + (w.z * n.z) * (w.z * n.z) ≤ n.dot v * n.dot v := by
    rintro M hM ⟨v, hv, e⟩ h1 h2 h3
    exact ⟨v, hv, by rw [e]; positivity, by rw [e]; exact main M hM h1 h2 h3⟩
  have v1 : ∃ v ∈ ellipsoid w, n.dot v = a * (|w.y * n.y| + phi * |w.z * n.z|) := by
    refine ⟨⟨0, sy * (w.y * a), sz * (w.z * (phi * a))⟩, ?_, ?_⟩
    · rcases hsy with rfl | rfl <;> rcases hsz with rfl | rfl <;> simp [ellipsoid, icosahedron, ← ha]
    · rw [← ey, ← ez]; simp only [V3.dot]; ring
  have v2 : ∃ v ∈ ellipsoid w, n.dot v = a * (|w.x * n.x| + phi * |w.y * n.y|) := by
    refine ⟨⟨sx * (w.x * a), sy * (w.y * (phi * a)), 0⟩, ?_, ?_⟩
    · rcases hsx with rfl | rfl <;> rcases hsy with rfl | rfl <;> simp [ellipsoid, icosahedron, ← ha]
    · rw [← ex, ← ey]; simp only [V3.dot]; ring
  have v3 : ∃ v ∈ ellipsoid w, n.dot v = a * (phi * |w.x * n.x| + |w.z * n.z|) := by
    refine ⟨⟨sx * (w.x * (phi * a)), 0, sz * (w.z * a)⟩, ?_, ?_⟩
    · rcases hsx with rfl | rfl <;> rcases hsz with rfl | rfl <;> simp [ellipsoid, icosahedron, ← ha]
    · rw [← ex, ← ez]; simp only [V3.dot]; ring
  have n1 : 0 ≤ |w.y * n.y| + phi * |w.z * n.z| := by positivity
  have n2 : 0 ≤ |w.x * n.x| + phi * |w.y * n.y| := by positivity
  have n3 : 0 ≤ phi * |w.x * n.x| + |w.z * n.z| := by positivity
  rcases le_total (|w.y * n.y| + phi * |w.z * n.z|) (|w.x * n.x| + phi * |w.y * n.y|) with h12 | h12 <;>
    rcases le_total (|w.x * n.x| + phi * |w.y * n.y|) (phi * |w.x * n.x| + |w.z * n.z|) with h23 | h23 <;>
    rcases le_total (|w.y * n.y| + phi * |w.z * n.z|) (phi * |w.x * n.x| + |w.z * n.z|) with h13 | h13
  · exact pick _ n3 v3 h13 h23 le_rfl
  · exact pick _ n3 v3 (h12.trans h23) h23 le_rfl
  · exact pick _ n2 v2 h12 le_rfl h23
  · exact pick _ n2 v2 h12 le_rfl h23
  · exact pick _ n3 v3 h13 h23 le_rfl
  · exact pick _ n1 v1 le_rfl h12 h13
  · exact pick _ n3 v3 h13 (h12.trans h13) le_rfl
  · exact pick _ n1 v1 le_rfl h12 h13

theorem sphere_eq (r : ℝ) : sphere r = ellipsoid ⟨r, r, r⟩ := by
  have e : edgeSize r = r * (Real.sqrt 3 / (phi * phi)) := by
    have h27 : Real.sqrt 27 = 3 * Real.sqrt 3 := by
      rw [show (27 : ℝ) = 3 * 3 * 3 by norm_num, Real.sqrt_mul (by norm_num), Real.sqrt_mul_self (by norm_num)]
    have h15 : Real.sqrt 15 = Real.sqrt 3 * Real.sqrt 5 := by
      rw [show (15 : ℝ) = 3 * 5 by norm_num, Real.sqrt_mul (by norm_num)]
    have h3 : Real.sqrt 3 * Real.sqrt 3 = 3 := Real.mul_self_sqrt (by norm_num)
    have h3p : 0 < Real.sqrt 3 := by positivity
    have h5p : 0 < Real.sqrt 5 := by positivity
    have h5 : Real.sqrt 5 * Real.sqrt 5 = 5 := Real.mul_self_sqrt (by norm_num)
    have hp : phi * phi = (3 + Real.sqrt 5) / 2 := by rw [phi_sq, phi]; ring
    rw [edgeSize, h27, h15, hp]
    generalize Real.sqrt 3 = t at *
    generalize Real.sqrt 5 = f at *
    field_simp
    linear_combination (-2 * r) * h3
  simp only [sphere, ellipsoid, e]
  have : phi * (r * (Real.sqrt 3 / (phi * phi))) = r * (phi * (Real.sqrt 3 / (phi * phi))) := by ring
  rw [this]

/-- A unit vector's product. -/
theorem dot_le_of_sq {x m : ℝ} (hm : 0 ≤ m) (h : x * x ≤ m * m) : x ≤ m := by
  by_contra hc
  push Not at hc
  nlinarith

theorem ellipsoid_support {radii p n : V3 ℝ} (hp : p ∈ Shape.ellipsoid radii) : ∃ v ∈ ellipsoid radii, n.dot p ≤ n.dot v := by
  obtain ⟨q, hq, rfl⟩ := hp
  obtain ⟨v, hv, h0, h⟩ := ico_support radii n
  refine ⟨v, hv, dot_le_of_sq h0 (le_trans ?_ h)⟩
  have cs : ∀ a b c x y z : ℝ, x * x + y * y + z * z ≤ 1 → (a * x + b * y + c * z) * (a * x + b * y + c * z) ≤ a * a + b * b + c * c := by
    intro a b c x y z h
    have h1 := mul_le_mul_of_nonneg_left h (add_nonneg (add_nonneg (mul_self_nonneg a) (mul_self_nonneg b)) (mul_self_nonneg c))
    nlinarith [mul_self_nonneg (a * y - b * x), mul_self_nonneg (a * z - c * x), mul_self_nonneg (b * z - c * y)]
  have := cs (radii.x * n.x) (radii.y * n.y) (radii.z * n.z) q.x q.y q.z hq
  have e : n.dot ⟨radii.x * q.x, radii.y * q.y, radii.z * q.z⟩ = radii.x * n.x * q.x + radii.y * n.y * q.y + radii.z * n.z * q.z := by
    simp only [V3.dot]; ring
  rw [e]
  exact this

theorem ball_ellipsoid {r : ℝ} (hr : 0 ≤ r) {p : V3 ℝ} (h : p ∈ Shape.ball r) : p ∈ Shape.ellipsoid ⟨r, r, r⟩ := by
  simp only [Shape.ball, Set.mem_ofPred_eq] at h
  rcases hr.eq_or_lt with rfl | hr
  · have : p = 0 := V3.dot_self_eq_zero (le_antisymm (by simpa [V3.dot] using h) (V3.dot_self_nonneg _))
    subst this
    exact ⟨0, by simp, by apply V3.ext' <;> simp⟩
  · refine ⟨(1 / r) • p, ?_, ?_⟩
    · simp only [V3.smul_x, V3.smul_y, V3.smul_z]
      have : 1 / r * p.x * (1 / r * p.x) + 1 / r * p.y * (1 / r * p.y) + 1 / r * p.z * (1 / r * p.z) =
          (p.x * p.x + p.y * p.y + p.z * p.z) / (r * r) := by field_simp
      rw [this, div_le_one (by positivity)]
      exact h
    · apply V3.ext' <;> simp <;> field_simp

theorem sphere_support {r : ℝ} (hr : 0 ≤ r) {p : V3 ℝ} (n : V3 ℝ) (hp : p ∈ Shape.ball r) : ∃ v ∈ sphere r, n.dot p ≤ n.dot v := by
  rw [sphere_eq]; exact ellipsoid_support (ball_ellipsoid hr hp)

/-- In every direction a vertex of the hexagon is as far as the disc. -/
theorem hexagon_support {r : ℝ} (hr : 0 ≤ r) (z x y : ℝ) (n : V3 ℝ) (h : x * x + y * y ≤ r * r) :
    ∃ v ∈ hexagon r z, n.dot ⟨x, y, z⟩ ≤ n.dot v := by
  have s0 : 0 < Real.sqrt 3 := by positivity
  have s3 : Real.sqrt 3 * Real.sqrt 3 = 3 := Real.mul_self_sqrt (by norm_num)
  obtain ⟨c, hc⟩ : ∃ c, c = 1 / Real.sqrt 3 := ⟨_, rfl⟩
  have c0 : 0 < c := by rw [hc]; positivity
  have cc : c * c = 1 / 3 := by rw [hc]; field_simp; linarith
  have e2 : r * 2 / Real.sqrt 3 = 2 * c * r := by rw [hc]; ring
  obtain ⟨sx, hsx, ex⟩ := exists_sign n.x
  obtain ⟨sy, hsy, ey⟩ := exists_sign n.y
  have hn : (n.x * x + n.y * y) * (n.x * x + n.y * y) ≤ (r * r) * (n.x * n.x + n.y * n.y) := by
    have := mul_le_mul_of_nonneg_right h (add_nonneg (mul_self_nonneg n.x) (mul_self_nonneg n.y))
    nlinarith [mul_self_nonneg (n.x * y - n.y * x)]
  have main : ∀ M, 0 ≤ M → 2 * c * |n.x| ≤ M → c * |n.x| + |n.y| ≤ M → n.x * x + n.y * y ≤ r * M := by
    intro M hM h1 h2
    refine dot_le_of_sq (mul_nonneg hr hM) (hn.trans ?_)
    have : n.x * n.x + n.y * n.y ≤ M * M := by
      rw [← abs_mul_abs_self n.x, ← abs_mul_abs_self n.y]
      have hX := abs_nonneg n.x
      have hY := abs_nonneg n.y
      have k1 : 0 ≤ 2 * c * |n.x| * (M - 2 * c * |n.x|) := mul_nonneg (by positivity) (by linarith)
      have k2 : 0 ≤ (M - c * |n.x| - |n.y|) * (M - c * |n.x| + |n.y|) := mul_nonneg (by linarith) (by linarith [mul_nonneg c0.le hX])
      generalize |n.x| = X at *
      generalize |n.y| = Y at *
      have e : M * M - X * X - Y * Y = 2 * c * X * (M - 2 * c * X) + (M - c * X - Y) * (M - c * X + Y) + (3 * (c * c) - 1) * (X * X) := by ring
      have e' : (3 * (c * c) - 1) * (X * X) = 0 := by rw [cc]; ring
      linarith
    have := mul_le_mul_of_nonneg_left this (mul_nonneg hr hr)
    nlinarith
  have hX := abs_nonneg n.x
  have hY := abs_nonneg n.y
  rcases le_total (2 * c * |n.x|) (c * |n.x| + |n.y|) with h1 | h1
  · refine ⟨⟨sx * (c * r), sy * r, z⟩, ?_, ?_⟩
    · rcases hsx with rfl | rfl <;> rcases hsy with rfl | rfl <;> simp [hexagon, e2, ← mul_assoc]
    · have := main _ (by positivity) h1 le_rfl
      rw [← ex, ← ey] at this
      simp only [V3.dot]; linarith
  · refine ⟨⟨sx * (2 * c * r), 0, z⟩, ?_, ?_⟩
    · rcases hsx with rfl | rfl <;> simp [hexagon, e2]
    · have := main _ (by positivity) le_rfl h1
      rw [← ex] at this
      simp only [V3.dot]; linarith

/-- The two ends of a segment on the z axis. -/
theorem end_support (nz c h : ℝ) (h1 : -h ≤ c) (h2 : c ≤ h) : nz * c ≤ nz * h ∨ nz * c ≤ nz * -h := by
  rcases le_total 0 nz with hz | hz
  · exact .inl (mul_le_mul_of_nonneg_left h2 hz)
  · exact .inr (mul_le_mul_of_nonpos_left h1 hz)

theorem ofGeo_hull {g : Geo ℝ} (hw : g.WF) (hb : g.Bounded) {p : V3 ℝ} (hp : p ∈ g.pts) : HullOf (ofGeo g) p := by
  cases g with
  | box side =>
    refine hull_of_support fun n => ?_
    obtain ⟨⟨x0, x1⟩, ⟨y0, y1⟩, z0, z1⟩ := hp
    have hx := end_support n.x _ _ x0 x1
    have hy := end_support n.y _ _ y0 y1
    have hz := end_support n.z _ _ z0 z1
    rcases hx with hx | hx <;> rcases hy with hy | hy <;> rcases hz with hz | hz <;>
      [refine ⟨⟨side.x / 2, side.y / 2, side.z / 2⟩, by simp [ofGeo, box], ?_⟩;
       refine ⟨⟨side.x / 2, side.y / 2, -(side.z / 2)⟩, by simp [ofGeo, box], ?_⟩;
       refine ⟨⟨side.x / 2, -(side.y / 2), side.z / 2⟩, by simp [ofGeo, box], ?_⟩;
       refine ⟨⟨side.x / 2, -(side.y / 2), -(side.z / 2)⟩, by simp [ofGeo, box], ?_⟩;
       refine ⟨⟨-(side.x / 2), side.y / 2, side.z / 2⟩, by simp [ofGeo, box], ?_⟩;
       refine ⟨⟨-(side.x / 2), side.y / 2, -(side.z / 2)⟩, by simp [ofGeo, box], ?_⟩;
       refine ⟨⟨-(side.x / 2), -(side.y / 2), side.z / 2⟩, by simp [ofGeo, box], ?_⟩;
       refine ⟨⟨-(side.x / 2), -(side.y / 2), -(side.z / 2)⟩, by simp [ofGeo, box], ?_⟩] <;>
      simp only [V3.dot] <;> linarith
  | sphere r => exact hull_of_support fun n => sphere_support hw n hp
  | capsule r lz =>
    refine hull_of_support fun n => ?_
    obtain ⟨c, c0, c1, h⟩ := hp
    obtain ⟨v, hv, hle⟩ := sphere_support hw.1 n (p := ⟨p.x, p.y, p.z - c⟩) h
    have e : lz * (1 / 2) = lz / 2 := by ring
    rcases end_support n.z _ _ c0 c1 with hz | hz
    · refine ⟨v + ⟨0, 0, lz * (1 / 2)⟩, ?_, ?_⟩
      · exact List.mem_append_left _ (List.mem_append_left _ (List.mem_append_left _ (List.mem_map_of_mem hv)))
      · rw [e]; simp only [V3.dot, V3.add_x, V3.add_y, V3.add_z] at *; linarith
    · refine ⟨v - ⟨0, 0, lz * (1 / 2)⟩, ?_, ?_⟩
      · exact List.mem_append_left _ (List.mem_append_left _ (List.mem_append_right _ (List.mem_map_of_mem hv)))
      · rw [e]; simp only [V3.dot, V3.sub_x, V3.sub_y, V3.sub_z] at *; linarith
  | cylinder r lz =>
    refine hull_of_support fun n => ?_
    obtain ⟨h, c0, c1⟩ := hp
    have e : lz * (1 / 2) = lz / 2 := by ring
    rcases end_support n.z _ _ c0 c1 with hz | hz
    · obtain ⟨v, hv, hle⟩ := hexagon_support hw.1 (lz / 2) p.x p.y n h
      refine ⟨v, ?_, ?_⟩
      · simp only [ofGeo, cylinder, e]; simp; tauto
      · simp only [V3.dot] at *; linarith
    · obtain ⟨v, hv, hle⟩ := hexagon_support hw.1 (-(lz / 2)) p.x p.y n h
      refine ⟨v, ?_, ?_⟩
      · simp only [ofGeo, cylinder, e]; simp; tauto
      · simp only [V3.dot] at *; linarith
  | cone r lz =>
    refine hull_of_support fun n => ?_
    obtain ⟨s, x, y, s0, s1, h, rfl⟩ := hp
    have e : lz * (1 / 2) = lz / 2 := by ring
    obtain ⟨v, hv, hle⟩ := hexagon_support hw.1 (-(lz / 2)) x y n h
    have ed : n.dot ⟨s * x, s * y, lz / 2 - s * lz⟩ = (1 - s) * n.dot ⟨0, 0, lz / 2⟩ + s * n.dot ⟨x, y, -(lz / 2)⟩ := by
      simp only [V3.dot]; ring
    rw [ed]
    rcases le_total (n.dot ⟨0, 0, lz / 2⟩) (n.dot v) with hc | hc
    · refine ⟨v, by simp only [ofGeo, cone, e]; simp; tauto, ?_⟩
      have := mul_le_mul_of_nonneg_left hc (by linarith : 0 ≤ 1 - s)
      have := mul_le_mul_of_nonneg_left hle s0
      linarith
    · refine ⟨⟨0, 0, lz / 2⟩, by simp only [ofGeo, cone, e]; simp, ?_⟩
      have := mul_le_mul_of_nonneg_left (hle.trans hc) s0
      linarith
  | ellipsoid radii => exact hull_of_support fun n => ellipsoid_support hp
  | triangle a b c => exact hp
  | convex vs => exact hp
  | halfspace n d => exact hb.elim
  | plane n d => exact hb.elim

end BoundVertices
end Fcl
