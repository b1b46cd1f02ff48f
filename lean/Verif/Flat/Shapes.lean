import Verif.Flat.Lemmas

/-!
# Extreme points of the shapes in the form used by the queries with half-spaces and planes, and convexity of the shapes
-/

namespace Fcl
namespace Flat
open V3

/-! ### Extreme points -/

theorem ellipsoid_extreme {s : V3 ℝ} (hs : 0 < s.x ∧ 0 < s.y ∧ 0 < s.z) {d : V3 ℝ} (hd : d.dot d = 1) {c : ℝ}
    (hc : c = Real.sqrt (V3.dot ⟨d.x ^ 2, d.y ^ 2, d.z ^ 2⟩ ⟨s.x ^ 2, s.y ^ 2, s.z ^ 2⟩)) :
    0 < c ∧ IsSupport (Shape.ellipsoid s) d ((1 / c) • ⟨s.x ^ 2 * d.x, s.y ^ 2 * d.y, s.z ^ 2 * d.z⟩) ∧
      d.dot ((1 / c) • ⟨s.x ^ 2 * d.x, s.y ^ 2 * d.y, s.z ^ 2 * d.z⟩) = c := by
  obtain ⟨hx, hy, hz⟩ := hs
  set e : V3 ℝ := ⟨s.x * d.x, s.y * d.y, s.z * d.z⟩ with he
  have hce : c = e.nrm := by rw [hc, nrm]; congr 1; simp only [dot, he]; ring
  have hee : d.dot (⟨s.x ^ 2 * d.x, s.y ^ 2 * d.y, s.z ^ 2 * d.z⟩ : V3 ℝ) = e.dot e := by simp only [dot, he]; ring
  have hne : e ≠ 0 := by
    intro h
    have h0 : s.x * d.x = 0 := congrArg V3.x h
    have h1 : s.y * d.y = 0 := congrArg V3.y h
    have h2 : s.z * d.z = 0 := congrArg V3.z h
    have : d = 0 := V3.ext' ((mul_eq_zero.1 h0).resolve_left hx.ne') ((mul_eq_zero.1 h1).resolve_left hy.ne')
      ((mul_eq_zero.1 h2).resolve_left hz.ne')
    rw [this] at hd
    simp [dot] at hd
  have hp := nrm_pos hne
  rw [hce]
  have h4 : 1 / e.nrm * (e.nrm * e.nrm) = e.nrm := by field_simp
  refine ⟨hp, ⟨⟨(1 / e.nrm) • e, ?_, ?_⟩, ?_⟩, ?_⟩
  · have : ((1 / e.nrm) • e).dot ((1 / e.nrm) • e) = 1 := by
      rw [smul_dot, dot_smul, ← nrm_mul_self]; field_simp
    exact this.le
  · apply V3.ext' <;> simp only [smul_x, smul_y, smul_z, he] <;> ring
  · rintro q ⟨u, hu, rfl⟩
    have h1 : d.dot ⟨s.x * u.x, s.y * u.y, s.z * u.z⟩ = e.dot u := by simp only [dot, he]; ring
    have h2 : u.nrm ≤ 1 := (nrm_le_iff zero_le_one).2 (by rw [mul_one]; exact hu)
    rw [h1, dot_smul, hee, ← nrm_mul_self, h4]
    have h3 := dot_le e u
    nlinarith
  · rw [dot_smul, hee, ← nrm_mul_self, h4]

theorem half_le {s d p : ℝ} (h1 : -(s / 2) ≤ p) (h2 : p ≤ s / 2) : d * p ≤ 1 / 2 * |d * s| := by
  have hs : 0 ≤ s := by linarith
  have h3 := abs_le.2 ⟨h1, h2⟩
  calc d * p ≤ |d * p| := le_abs_self _
    _ = |d| * |p| := abs_mul _ _
    _ ≤ |d| * (s / 2) := mul_le_mul_of_nonneg_left h3 (abs_nonneg _)
    _ = 1 / 2 * |d * s| := by rw [abs_mul, abs_of_nonneg hs]; ring

/-- A choice of sign as in the code: `(d * s > 0) ? -1 : 1`. -/
noncomputable def sgn (a : ℝ) : ℝ := if a > 0 then -1 else 1

theorem sgn_mem {s a : ℝ} (hs : 0 ≤ s) {k : ℝ} (hk : k = 1 ∨ k = -1) :
    -(s / 2) ≤ 1 / 2 * s * (sgn a * k) ∧ 1 / 2 * s * (sgn a * k) ≤ s / 2 := by
  rw [sgn]; rcases hk with rfl | rfl <;> split_ifs <;> constructor <;> linarith

theorem sgn_val (s d : ℝ) : d * (1 / 2 * s * (sgn (d * s))) = -(1 / 2 * |d * s|) := by
  rw [sgn]; split_ifs with h
  · rw [abs_of_pos h]; ring
  · rw [abs_of_nonpos (not_lt.1 h)]; ring

theorem box_le {side d q : V3 ℝ} (h : q ∈ Shape.box side) :
    d.dot q ≤ 1 / 2 * (|d.x * side.x| + |d.y * side.y| + |d.z * side.z|) := by
  obtain ⟨⟨a, b⟩, ⟨c, e⟩, f, g⟩ := h
  have h1 := half_le (d := d.x) a b
  have h2 := half_le (d := d.y) c e
  have h3 := half_le (d := d.z) f g
  simp only [dot]
  linarith

/-- The corner of the box that is lowest (`k = 1`) or highest (`k = -1`) along `d`. -/
theorem box_extreme {side d : V3 ℝ} (h : 0 ≤ side.x ∧ 0 ≤ side.y ∧ 0 ≤ side.z) {k : ℝ} (hk : k = 1 ∨ k = -1) :
    IsSupport (Shape.box side) ((-k) • d) ⟨1 / 2 * side.x * (sgn (d.x * side.x) * k),
      1 / 2 * side.y * (sgn (d.y * side.y) * k), 1 / 2 * side.z * (sgn (d.z * side.z) * k)⟩ := by
  refine ⟨⟨sgn_mem h.1 hk, sgn_mem h.2.1 hk, sgn_mem h.2.2 hk⟩, ?_⟩
  intro q hq
  have h1 := box_le (d := (-k) • d) hq
  have hkk : k * k = 1 := by rcases hk with rfl | rfl <;> norm_num
  have hab : ∀ a s : ℝ, |(-k * a) * s| = |a * s| := by
    intro a s
    rcases hk with rfl | rfl
    · rw [show -1 * a * s = -(a * s) by ring, abs_neg]
    · rw [show -(-1) * a * s = a * s by ring]
  simp only [smul_x, smul_y, smul_z, hab] at h1
  refine h1.trans (le_of_eq ?_)
  simp only [dot, smul_x, smul_y, smul_z]
  have v1 := sgn_val side.x d.x
  have v2 := sgn_val side.y d.y
  have v3 := sgn_val side.z d.z
  linear_combination (k * k) * (v1 + v2 + v3) - 1 / 2 * (|d.x * side.x| + |d.y * side.y| + |d.z * side.z|) * hkk + (2 * k * k) * 0

/-- The value of every point of a capsule along a unit vector. -/
theorem capsule_le {r lz : ℝ} (hr : 0 ≤ r) {d : V3 ℝ} (hd : d.dot d = 1) {q : V3 ℝ} (hq : q ∈ Shape.capsule r lz) :
    d.dot q ≤ |d.z| * (lz / 2) + r := by
  obtain ⟨c, c1, c2, hc⟩ := hq
  have h1 := (Support.ball_support hr hd).2 ⟨q.x, q.y, q.z - c⟩ hc
  rw [dot_smul, hd, mul_one] at h1
  have h2 : d.dot q = d.dot ⟨q.x, q.y, q.z - c⟩ + d.z * c := by simp only [dot]; ring
  have h3 : d.z * c ≤ |d.z| * (lz / 2) := by
    have := abs_le.2 ⟨c1, c2⟩
    calc d.z * c ≤ |d.z * c| := le_abs_self _
      _ = |d.z| * |c| := abs_mul _ _
      _ ≤ _ := mul_le_mul_of_nonneg_left this (abs_nonneg _)
  linarith

theorem capsule_mem {r lz c : ℝ} {d : V3 ℝ} (hd : d.dot d = 1) (h1 : -(lz / 2) ≤ c) (h2 : c ≤ lz / 2) :
    (⟨0, 0, c⟩ + r • d : V3 ℝ) ∈ Shape.capsule r lz := by
  refine ⟨c, h1, h2, ?_⟩
  have hd' : d.x * d.x + d.y * d.y + d.z * d.z = 1 := hd
  simp only [add_x, add_y, add_z, smul_x, smul_y, smul_z]
  refine le_of_eq ?_
  linear_combination r * r * hd'

/-- An extreme point of a capsule. -/
theorem capsule_extreme {r lz : ℝ} (hr : 0 ≤ r) {d : V3 ℝ} (hd : d.dot d = 1) {c : ℝ} (h1 : -(lz / 2) ≤ c) (h2 : c ≤ lz / 2)
    (h : d.z * c = |d.z| * (lz / 2)) : IsSupport (Shape.capsule r lz) d (⟨0, 0, c⟩ + r • d) := by
  refine ⟨capsule_mem hd h1 h2, fun q hq => ?_⟩
  refine (capsule_le hr hd hq).trans (le_of_eq ?_)
  rw [dot_add, dot_smul, hd]; simp only [dot]; linarith

/-- The distance of the tip of a direction vector from the axis. -/
noncomputable def rho (d : V3 ℝ) : ℝ := Real.sqrt (d.x * d.x + d.y * d.y)

theorem rho_nonneg (d : V3 ℝ) : 0 ≤ rho d := Real.sqrt_nonneg _
theorem rho_sq (d : V3 ℝ) : rho d * rho d = d.x * d.x + d.y * d.y := Support.sqrt_mul_self_xy d
theorem rho_neg (d : V3 ℝ) : rho (-d) = rho d := by simp only [rho, neg_x, neg_y]; congr 1; ring
theorem rho_eq_zero {d : V3 ℝ} (h : rho d = 0) : d.x = 0 ∧ d.y = 0 := by
  have := rho_sq d
  rw [h, mul_zero] at this
  constructor <;> nlinarith [mul_self_nonneg d.x, mul_self_nonneg d.y]

/-- The rim vector in the frame of the shape: `-r` along the projection of `d`. -/
noncomputable def rim (r : ℝ) (d : V3 ℝ) : V3 ℝ := (r / rho d) • ⟨-d.x, -d.y, 0⟩

theorem rim_z (r : ℝ) (d : V3 ℝ) : (rim r d).z = 0 := by simp [rim]
theorem rim_sq {r : ℝ} {d : V3 ℝ} (h : rho d ≠ 0) : (rim r d).x * (rim r d).x + (rim r d).y * (rim r d).y = r * r := by
  have hk : r / rho d * rho d = r := div_mul_cancel₀ _ h
  have := rho_sq d
  simp only [rim, smul_x, smul_y]
  calc r / rho d * -d.x * (r / rho d * -d.x) + r / rho d * -d.y * (r / rho d * -d.y)
      = (r / rho d) * (r / rho d) * (d.x * d.x + d.y * d.y) := by ring
    _ = (r / rho d * rho d) * (r / rho d * rho d) := by rw [← this]; ring
    _ = r * r := by rw [hk]
theorem rim_dot {r : ℝ} {d : V3 ℝ} (h : rho d ≠ 0) : d.dot (rim r d) = -(r * rho d) := by
  have hk : r / rho d * rho d = r := div_mul_cancel₀ _ h
  have := rho_sq d
  simp only [rim, dot, smul_x, smul_y, smul_z]
  calc d.x * (r / rho d * -d.x) + d.y * (r / rho d * -d.y) + d.z * (r / rho d * 0)
      = -(r / rho d * (d.x * d.x + d.y * d.y)) := by ring
    _ = -((r / rho d * rho d) * rho d) := by rw [← this]; ring
    _ = -(r * rho d) := by rw [hk]

/-- The value of every point of a cylinder. -/
theorem cylinder_le {r lz : ℝ} (hr : 0 ≤ r) {d q : V3 ℝ} (hq : q ∈ Shape.cylinder r lz) :
    d.dot q ≤ |d.z| * (lz / 2) + r * rho d := by
  obtain ⟨h1, c1, c2⟩ := hq
  have h2 : d.x * q.x + d.y * q.y ≤ r * rho d := Support.disc_le hr d h1
  have h3 : d.z * q.z ≤ |d.z| * (lz / 2) := by
    have := abs_le.2 ⟨c1, c2⟩
    calc d.z * q.z ≤ |d.z * q.z| := le_abs_self _
      _ = |d.z| * |q.z| := abs_mul _ _
      _ ≤ _ := mul_le_mul_of_nonneg_left this (abs_nonneg _)
  simp only [dot]
  linarith

/-- A point of a cylinder with the value `d.z * c + d.dot u` is extreme. -/
theorem cylinder_extreme {r lz : ℝ} (hr : 0 ≤ r) {d u : V3 ℝ} {c : ℝ} (h1 : -(lz / 2) ≤ c) (h2 : c ≤ lz / 2)
    (hu : u.x * u.x + u.y * u.y ≤ r * r) (hz : u.z = 0) (hc : d.z * c = |d.z| * (lz / 2)) (hd : d.dot u = r * rho d) :
    IsSupport (Shape.cylinder r lz) d (⟨0, 0, c⟩ + u) := by
  refine ⟨⟨?_, ?_, ?_⟩, fun q hq => ?_⟩
  · simpa using hu
  · simp [hz, h1]
  · simp [hz, h2]
  · refine (cylinder_le hr hq).trans (le_of_eq ?_)
    rw [dot_add, hd, ← hc]; simp [dot]

/-- The value of every point of a cone. -/
theorem cone_le {r lz : ℝ} (hr : 0 ≤ r) {d : V3 ℝ} {m : ℝ} (m1 : d.z * (lz / 2) ≤ m)
    (m2 : r * rho d - d.z * (lz / 2) ≤ m) {q : V3 ℝ} (hq : q ∈ Shape.cone r lz) : d.dot q ≤ m := by
  obtain ⟨s, x, y, s0, s1, hxy, rfl⟩ := hq
  have h1 : d.x * x + d.y * y ≤ r * rho d := Support.disc_le hr d hxy
  have h2 : d.dot ⟨s * x, s * y, lz / 2 - s * lz⟩ =
      (1 - s) * (d.z * (lz / 2)) + s * (d.x * x + d.y * y - d.z * (lz / 2)) := by simp only [dot]; ring
  rw [h2]
  nlinarith [mul_le_mul_of_nonneg_left m1 (by linarith : 0 ≤ 1 - s), mul_le_mul_of_nonneg_left m2 s0,
    mul_le_mul_of_nonneg_left h1 s0]

theorem cone_tip (r lz : ℝ) : (⟨0, 0, lz / 2⟩ : V3 ℝ) ∈ Shape.cone r lz :=
  ⟨0, 0, 0, le_refl _, zero_le_one, by nlinarith [mul_self_nonneg r], by simp⟩
theorem cone_rim {r lz : ℝ} {u : V3 ℝ} (hu : u.x * u.x + u.y * u.y ≤ r * r) (hz : u.z = 0) :
    (⟨0, 0, -(lz / 2)⟩ + u : V3 ℝ) ∈ Shape.cone r lz :=
  ⟨1, u.x, u.y, zero_le_one, le_refl _, hu, by apply V3.ext' <;> simp [hz]; ring⟩

/-! ### Convexity -/

theorem convex_ball {r : ℝ} (hr : 0 ≤ r) : ConvexSet (Shape.ball r) := by
  intro p hp q hq t t0 t1
  have hp' : p.nrm ≤ r := (nrm_le_iff hr).2 hp
  have hq' : q.nrm ≤ r := (nrm_le_iff hr).2 hq
  refine (nrm_le_iff hr).1 ((nrm_add_le _ _).trans ?_)
  rw [nrm_smul, nrm_smul, abs_of_nonneg (by linarith), abs_of_nonneg t0]
  nlinarith

theorem convex_ellipsoid (s : V3 ℝ) : ConvexSet (Shape.ellipsoid s) := by
  rintro _ ⟨u, hu, rfl⟩ _ ⟨v, hv, rfl⟩ t t0 t1
  refine ⟨(1 - t) • u + t • v, ?_, ?_⟩
  · have := convex_ball zero_le_one u (by simpa [Shape.ball] using hu) v (by simpa [Shape.ball] using hv) t t0 t1
    simpa [Shape.ball] using this
  · apply V3.ext' <;> simp <;> ring

theorem convex_interval {a b x y t : ℝ} (t0 : 0 ≤ t) (t1 : t ≤ 1) (hx : a ≤ x ∧ x ≤ b) (hy : a ≤ y ∧ y ≤ b) :
    a ≤ (1 - t) * x + t * y ∧ (1 - t) * x + t * y ≤ b := by
  obtain ⟨h1, h2⟩ := hx
  obtain ⟨h3, h4⟩ := hy
  have := mul_le_mul_of_nonneg_left h1 (by linarith : 0 ≤ 1 - t)
  have := mul_le_mul_of_nonneg_left h2 (by linarith : 0 ≤ 1 - t)
  have := mul_le_mul_of_nonneg_left h3 t0
  have := mul_le_mul_of_nonneg_left h4 t0
  constructor <;> linarith

theorem convex_box (s : V3 ℝ) : ConvexSet (Shape.box s) := by
  rintro p ⟨a, b, c⟩ q ⟨d, e, f⟩ t t0 t1
  exact ⟨convex_interval t0 t1 a d, convex_interval t0 t1 b e, convex_interval t0 t1 c f⟩

theorem convex_capsule {r : ℝ} (hr : 0 ≤ r) (lz : ℝ) : ConvexSet (Shape.capsule r lz) := by
  rintro p ⟨c, c1, c2, hp⟩ q ⟨d, d1, d2, hq⟩ t t0 t1
  obtain ⟨e1, e2⟩ := convex_interval t0 t1 ⟨c1, c2⟩ ⟨d1, d2⟩
  refine ⟨_, e1, e2, ?_⟩
  have := convex_ball hr ⟨p.x, p.y, p.z - c⟩ hp ⟨q.x, q.y, q.z - d⟩ hq t t0 t1
  refine le_trans (le_of_eq ?_) this
  simp only [add_x, add_y, add_z, smul_x, smul_y, smul_z]
  ring

theorem convex_disc {r : ℝ} (hr : 0 ≤ r) {x y x' y' t : ℝ} (t0 : 0 ≤ t) (t1 : t ≤ 1) (h : x * x + y * y ≤ r * r)
    (h' : x' * x' + y' * y' ≤ r * r) :
    ((1 - t) * x + t * x') * ((1 - t) * x + t * x') + ((1 - t) * y + t * y') * ((1 - t) * y + t * y') ≤ r * r := by
  have := convex_ball hr ⟨x, y, 0⟩ (by simpa [Shape.ball] using h) ⟨x', y', 0⟩ (by simpa [Shape.ball] using h') t t0 t1
  simpa [Shape.ball] using this

theorem convex_cylinder {r : ℝ} (hr : 0 ≤ r) (lz : ℝ) : ConvexSet (Shape.cylinder r lz) := by
  rintro p ⟨hp, c⟩ q ⟨hq, d⟩ t t0 t1
  exact ⟨convex_disc hr t0 t1 hp hq, convex_interval t0 t1 c d⟩

theorem convex_cone {r : ℝ} (hr : 0 ≤ r) (lz : ℝ) : ConvexSet (Shape.cone r lz) := by
  rintro _ ⟨s, x, y, s0, s1, h, rfl⟩ _ ⟨s', x', y', s0', s1', h', rfl⟩ t t0 t1
  have ha : 0 ≤ (1 - t) * s := mul_nonneg (by linarith) s0
  have hb : 0 ≤ t * s' := mul_nonneg t0 s0'
  rcases eq_or_lt_of_le (add_nonneg ha hb) with e | hpos
  · have e1 : (1 - t) * s = 0 := by linarith
    have e2 : t * s' = 0 := by linarith
    refine ⟨0, 0, 0, le_refl _, zero_le_one, by nlinarith [mul_self_nonneg r], ?_⟩
    apply V3.ext'
    · simp only [add_x, smul_x]; linear_combination x * e1 + x' * e2
    · simp only [add_y, smul_y]; linear_combination y * e1 + y' * e2
    · simp only [add_z, smul_z]; linear_combination -lz * e1 - lz * e2
  · set w := t * s' / ((1 - t) * s + t * s') with hw
    have w0 : 0 ≤ w := div_nonneg hb hpos.le
    have w1 : w ≤ 1 := (div_le_one hpos).2 (by linarith)
    have hw1 : ((1 - t) * s + t * s') * w = t * s' := mul_div_cancel₀ _ hpos.ne'
    have hw2 : ((1 - t) * s + t * s') * (1 - w) = (1 - t) * s := by rw [mul_sub, hw1]; ring
    refine ⟨(1 - t) * s + t * s', (1 - w) * x + w * x', (1 - w) * y + w * y', hpos.le, ?_, convex_disc hr w0 w1 h h', ?_⟩
    · nlinarith
    · apply V3.ext'
      · simp only [add_x, smul_x]; linear_combination -x * hw2 - x' * hw1
      · simp only [add_y, smul_y]; linear_combination -y * hw2 - y' * hw1
      · simp only [add_z, smul_z]; ring

theorem convex_hull (l : List (V3 ℝ)) : ConvexSet {p | HullOf l p} := fun _ hp _ hq t t0 t1 => .seg t t0 t1 hp hq

theorem convex_placed {X : Pose ℝ} {S : Set (V3 ℝ)} (h : ConvexSet S) : ConvexSet (Placed X.R X.t S) := by
  rintro _ ⟨p, hp, rfl⟩ _ ⟨q, hq, rfl⟩ t t0 t1
  refine ⟨_, h p hp q hq t t0 t1, ?_⟩
  rw [M3.mulVec_add, M3.mulVec_smul, M3.mulVec_smul]
  v3

/-! ### World coordinates -/

theorem tr_neg (X : Pose ℝ) (n : V3 ℝ) : X.R.tr.mulVec (-n) = -X.R.tr.mulVec n := M3.mulVec_neg _ _
theorem tr_unit {X : Pose ℝ} (hX : X.Rigid) {n : V3 ℝ} (hn : n.dot n = 1) :
    (X.R.tr.mulVec n).dot (X.R.tr.mulVec n) = 1 := by
  rw [M3.Orthonormal.dot (M3.Orthonormal.tr hX), hn]
theorem col_dot (X : Pose ℝ) (n : V3 ℝ) : (X.R.col 2).dot n = (X.R.tr.mulVec n).z := rfl
theorem add_col (X : Pose ℝ) (c : ℝ) : X.t + c • X.R.col 2 = X.apply ⟨0, 0, c⟩ := by
  obtain ⟨⟨⟨_, _, _⟩, ⟨_, _, _⟩, ⟨_, _, _⟩⟩, ⟨_, _, _⟩⟩ := X
  apply V3.ext' <;> simp [Pose.apply, M3.mulVec, V3.dot, M3.col, V3.get] <;> ring
theorem add_cols (X : Pose ℝ) (a b c : ℝ) : X.t + a • X.R.col 0 + b • X.R.col 1 + c • X.R.col 2 = X.apply ⟨a, b, c⟩ := by
  obtain ⟨⟨⟨_, _, _⟩, ⟨_, _, _⟩, ⟨_, _, _⟩⟩, ⟨_, _, _⟩⟩ := X
  apply V3.ext' <;> simp [Pose.apply, M3.mulVec, V3.dot, M3.col, V3.get] <;> ring
theorem sub_col (X : Pose ℝ) (c : ℝ) : X.t - c • X.R.col 2 = X.apply ⟨0, 0, -c⟩ := by
  rw [← add_col]; v3
theorem apply_add (X : Pose ℝ) (p q : V3 ℝ) : X.apply (p + q) = X.apply p + X.R.mulVec q := by
  simp only [Pose.apply, M3.mulVec_add]; v3
theorem dot_apply (X : Pose ℝ) (n p : V3 ℝ) : n.dot (X.apply p) = (X.R.tr.mulVec n).dot p + n.dot X.t := by
  rw [Pose.apply, dot_add, dot_comm n, M3.dot_mulVec, dot_comm p]

/-- The vector `C` of the code. -/
theorem rimVec_eq {tol r : ℝ} {X : Pose ℝ} (hX : X.Rigid) {n : V3 ℝ} :
    rimVec tol r (X.R.col 2) n ((X.R.col 2).dot n) =
      if |(X.R.tr.mulVec n).z + 1| < tol ∨ |(X.R.tr.mulVec n).z - 1| < tol then 0 else X.R.mulVec (rim r (X.R.tr.mulVec n)) := by
  rw [rimVec, col_dot]
  set Q := X.R.tr.mulVec n with hQ
  have hn : n = X.R.mulVec Q := (M3.Orthonormal.mul_tr hX n).symm
  have hc : Q.z • X.R.col 2 - n = X.R.mulVec ⟨-Q.x, -Q.y, 0⟩ := by
    have h2 : X.R.mulVec ⟨0, 0, Q.z⟩ = Q.z • X.R.col 2 := by
      apply V3.ext' <;> simp [M3.mulVec, V3.dot, M3.col, V3.get] <;> ring
    rw [← h2]
    conv_lhs => rw [hn]
    rw [← M3.mulVec_sub]
    congr 1
    apply V3.ext' <;> simp
  split_ifs
  · rfl
  · rw [hc, M3.Orthonormal.nrm hX]
    have : (⟨-Q.x, -Q.y, 0⟩ : V3 ℝ).nrm = rho Q := by
      rw [nrm, rho]; congr 1; simp [V3.dot]
    rw [this, rim, M3.mulVec_smul]

theorem unit_split {d : V3 ℝ} (hd : d.dot d = 1) : rho d * rho d = 1 - d.z * d.z := by
  have hd' : d.x * d.x + d.y * d.y + d.z * d.z = 1 := hd
  rw [rho_sq]; linarith

theorem rho_ne_zero {d : V3 ℝ} (hd : d.dot d = 1) (h1 : d.z ≠ 1) (h2 : d.z ≠ -1) : rho d ≠ 0 := by
  intro h
  have := unit_split hd
  rw [h] at this
  have h3 : (d.z - 1) * (d.z + 1) = 0 := by linarith
  rcases mul_eq_zero.1 h3 with h | h
  · exact h1 (by linarith)
  · exact h2 (by linarith)

end Flat
end Fcl
