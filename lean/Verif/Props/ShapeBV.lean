import Verif.Geom.BVLemmas

/-!
# C43 and C62: the boxes of shapes and of collision objects enclose them

`Placed X.R X.t g.pts` is the set of points of the shape `g` at the pose `X`.
-/

namespace Fcl
open ComputeBV
set_option linter.unusedSectionVars false

/-- **C43.** The box computed for a shape at a pose contains all points of the shape there. Half spaces and planes are
unbounded: for them, all points with coordinates up to the largest number. -/
theorem C43_encloses (big : ℝ) (g : Geo ℝ) (hg : g.WF) (X : Pose ℝ) (hX : X.Rigid) (q : V3 ℝ)
    (hq : q ∈ Placed X.R X.t g.pts) (hb : g.Bounded ∨ q.InRange big (-big)) : q ∈ (ComputeBV.aabb big g X).pts := by
  obtain ⟨p, hp, rfl⟩ := hq
  cases g with
  | box side => exact box_mem hp
  | sphere r => exact sphere_mem hX hg hp
  | capsule r lz => exact capsule_mem hX hg.1 hp
  | cylinder r lz => exact cylinder_mem hg.1 hp
  | cone r lz => exact cylinder_mem hg.1 (cone_subset hg.2 hp)
  | ellipsoid radii => exact ellipsoid_mem hp
  | halfspace n d =>
    have hb := hb.resolve_left id
    have hn : n.dot n = 1 := hg
    show _ ∈ (halfspaceBox big _ _).pts
    rw [transform_eq hX hn]
    refine halfspaceBox_mem ?_ hb ?_
    · rw [← V3.dot_def, M3.Orthonormal.dot hX, hn]
    · have h1 := transform_dot (n := n) (d := d) hX p
      have h2 : n.dot p ≤ d := hp
      show V3.dot _ (X.apply p) ≤ _
      linarith
  | plane n d =>
    have hb := hb.resolve_left id
    have hn : n.dot n = 1 := hg
    show _ ∈ (planeBox big _ _).pts
    rw [transform_eq hX hn]
    refine planeBox_mem ?_ hb ?_
    · rw [← V3.dot_def, M3.Orthonormal.dot hX, hn]
    · have h1 := transform_dot (n := n) (d := d) hX p
      have h2 : n.dot p = d := hp
      show V3.dot _ (X.apply p) = _
      linarith
  | triangle a b c => exact triangle_mem hp
  | convex vs => exact convex_mem hp

/-! ### Minimality -/

theorem pts_subset_of_corners {a b : AABB ℝ}
    (h : b.lo.x ≤ a.lo.x ∧ a.hi.x ≤ b.hi.x ∧ b.lo.y ≤ a.lo.y ∧ a.hi.y ≤ b.hi.y ∧ b.lo.z ≤ a.lo.z ∧ a.hi.z ≤ b.hi.z) :
    a.pts ⊆ b.pts := by
  rintro p ⟨⟨h1, h2⟩, ⟨h3, h4⟩, h5, h6⟩
  exact ⟨⟨by linarith, by linarith⟩, ⟨by linarith, by linarith⟩, by linarith, by linarith⟩

/-- The box around `X.t` is least when for every row of the rotation the shape has points that see the extents. -/
theorem around_least {X : Pose ℝ} {S : Set (V3 ℝ)} {d : V3 ℝ} {b : AABB ℝ} (hb : Placed X.R X.t S ⊆ b.pts)
    (h0 : (∃ p ∈ S, X.R.r0.dot p = d.x) ∧ ∃ p ∈ S, X.R.r0.dot p = -d.x)
    (h1 : (∃ p ∈ S, X.R.r1.dot p = d.y) ∧ ∃ p ∈ S, X.R.r1.dot p = -d.y)
    (h2 : (∃ p ∈ S, X.R.r2.dot p = d.z) ∧ ∃ p ∈ S, X.R.r2.dot p = -d.z) : (around X.t d).pts ⊆ b.pts := by
  have k : ∀ p ∈ S, X.apply p ∈ b.pts := fun p hp => hb ⟨p, hp, rfl⟩
  obtain ⟨⟨p1, q1, e1⟩, p2, q2, e2⟩ := h0
  obtain ⟨⟨p3, q3, e3⟩, p4, q4, e4⟩ := h1
  obtain ⟨⟨p5, q5, e5⟩, p6, q6, e6⟩ := h2
  have m1 : X.R.r0.dot p1 + X.t.x ≤ b.hi.x := (k _ q1).1.2
  have m2 : b.lo.x ≤ X.R.r0.dot p2 + X.t.x := (k _ q2).1.1
  have m3 : X.R.r1.dot p3 + X.t.y ≤ b.hi.y := (k _ q3).2.1.2
  have m4 : b.lo.y ≤ X.R.r1.dot p4 + X.t.y := (k _ q4).2.1.1
  have m5 : X.R.r2.dot p5 + X.t.z ≤ b.hi.z := (k _ q5).2.2.2
  have m6 : b.lo.z ≤ X.R.r2.dot p6 + X.t.z := (k _ q6).2.2.1
  refine pts_subset_of_corners ?_
  simp only [around, V3.add_x, V3.add_y, V3.add_z, V3.sub_x, V3.sub_y, V3.sub_z]
  refine ⟨?_, ?_, ?_, ?_, ?_, ?_⟩ <;> linarith

/-- A corner coordinate of the side `s` that sees the most along `a`. -/
theorem half_pick (a s : ℝ) (hs : 0 ≤ s) : ∃ x, (-(s / 2) ≤ x ∧ x ≤ s / 2) ∧ (-(s / 2) ≤ -x ∧ -x ≤ s / 2) ∧ a * x = 1 / 2 * |a * s| := by
  rw [abs_mul, abs_of_nonneg hs]
  rcases le_total 0 a with h | h
  · exact ⟨s / 2, ⟨by linarith, le_refl _⟩, ⟨by linarith, by linarith⟩, by rw [abs_of_nonneg h]; ring⟩
  · exact ⟨-(s / 2), ⟨le_refl _, by linarith⟩, ⟨by linarith, by linarith⟩, by rw [abs_of_nonpos h]; ring⟩

/-- **C43.** The boxes of boxes, spheres and capsules are the least that enclose them. -/
theorem C43_least (big : ℝ) (g : Geo ℝ) (hg : g.WF) (X : Pose ℝ) (hX : X.Rigid)
    (hk : (∃ s, g = .box s) ∨ (∃ r, g = .sphere r) ∨ ∃ r lz, g = .capsule r lz)
    (b : AABB ℝ) (hb : Placed X.R X.t g.pts ⊆ b.pts) : (ComputeBV.aabb big g X).pts ⊆ b.pts := by
  obtain ⟨u0, u1, u2⟩ := row_sq hX
  rcases hk with ⟨s, rfl⟩ | ⟨r, rfl⟩ | ⟨r, lz, rfl⟩
  · obtain ⟨s0, s1, s2⟩ := hg
    have k : ∀ u : V3 ℝ, (∃ p ∈ Shape.box s, u.dot p = 1 / 2 * (|u.x * s.x| + |u.y * s.y| + |u.z * s.z|)) ∧
        ∃ p ∈ Shape.box s, u.dot p = -(1 / 2 * (|u.x * s.x| + |u.y * s.y| + |u.z * s.z|)) := by
      intro u
      obtain ⟨x, x1, x2, x3⟩ := half_pick u.x s.x s0
      obtain ⟨y, y1, y2, y3⟩ := half_pick u.y s.y s1
      obtain ⟨z, z1, z2, z3⟩ := half_pick u.z s.z s2
      refine ⟨⟨⟨x, y, z⟩, ⟨x1, y1, z1⟩, ?_⟩, ⟨-x, -y, -z⟩, ⟨x2, y2, z2⟩, ?_⟩
      · simp only [V3.dot]; linarith
      · simp only [V3.dot]; linarith
    exact around_least hb (k _) (k _) (k _)
  · have k : ∀ u : V3 ℝ, u.dot u = 1 → (∃ p ∈ Shape.ball r, u.dot p = r) ∧ ∃ p ∈ Shape.ball r, u.dot p = -r := by
      intro u hu
      refine ⟨⟨r • u, ?_, ?_⟩, ⟨(-r) • u, ?_, ?_⟩⟩
      · show (r • u).dot (r • u) ≤ r * r
        rw [V3.dot_smul, V3.smul_dot, hu, mul_one]
      · rw [V3.dot_smul, hu, mul_one]
      · show ((-r) • u).dot ((-r) • u) ≤ r * r
        rw [V3.dot_smul, V3.smul_dot, hu, mul_one, neg_mul_neg]
      · rw [V3.dot_smul, hu, mul_one]
    exact around_least hb (k _ u0) (k _ u1) (k _ u2)
  · have k : ∀ u : V3 ℝ, u.dot u = 1 → (∃ p ∈ Shape.capsule r lz, u.dot p = 1 / 2 * |u.z * lz| + r) ∧
        ∃ p ∈ Shape.capsule r lz, u.dot p = -(1 / 2 * |u.z * lz| + r) := by
      intro u hu
      obtain ⟨c, c1, c2, c3⟩ := half_pick u.z lz hg.2
      have e : ∀ t, u.dot ⟨t * u.x, t * u.y, t * u.z⟩ = t := by
        intro t
        have : u.dot ⟨t * u.x, t * u.y, t * u.z⟩ = t * u.dot u := by simp only [V3.dot]; ring
        rw [this, hu, mul_one]
      have hu' : u.x * u.x + u.y * u.y + u.z * u.z = 1 := hu
      refine ⟨⟨⟨r * u.x, r * u.y, r * u.z + c⟩, ⟨c, c1.1, c1.2, ?_⟩, ?_⟩,
        ⟨⟨-r * u.x, -r * u.y, -r * u.z + -c⟩, ⟨-c, c2.1, c2.2, ?_⟩, ?_⟩⟩
      · apply le_of_eq
        linear_combination (r * r) * hu'
      · simp only [V3.dot]
        linear_combination r * hu' + c3
      · apply le_of_eq
        linear_combination (r * r) * hu'
      · simp only [V3.dot]
        linear_combination (-r) * hu' - c3
    exact around_least hb (k _ u0) (k _ u1) (k _ u2)

/-- **C43.** The boxes of triangles, and of convex shapes with vertices that are representable at the pose, are the
least that enclose them. -/
theorem C43_least_hull (big : ℝ) (X : Pose ℝ) (b : AABB ℝ) :
    (∀ p q r : V3 ℝ, Placed X.R X.t (Geo.triangle p q r).pts ⊆ b.pts →
      (ComputeBV.aabb big (.triangle p q r) X).pts ⊆ b.pts) ∧
    (∀ vs : List (V3 ℝ), vs ≠ [] → (∀ v ∈ vs, (X.apply v).InRange big (-big)) →
      Placed X.R X.t (Geo.convex vs).pts ⊆ b.pts → (ComputeBV.aabb big (.convex vs) X).pts ⊆ b.pts) := by
  constructor
  · intro p q r hb
    have k : ∀ v ∈ [p, q, r], X.apply v ∈ b.pts := fun v hv => hb ⟨v, .pt hv, rfl⟩
    refine (C02_constructors_least (X.apply p) (X.apply q) (X.apply r)).2.2.2 b ?_
    rintro v (rfl | rfl | rfl)
    · exact k p (by simp)
    · exact k q (by simp)
    · exact k r (by simp)
  · intro vs hne hw hb
    have h := (C02_accumulate_least big (-big) (vs.map X.apply) (by simpa using hne) (by simpa using hw)).2 b (by
      intro v hv
      obtain ⟨w, hw, rfl⟩ := List.mem_map.1 hv
      exact hb ⟨w, .pt hw, rfl⟩)
    rw [List.foldl_map] at h
    exact h

/-! ### Half spaces and planes under transformation -/

/-- **C43.** The transformed half space and plane have the points of the original, moved. -/
theorem C43_transform (n : V3 ℝ) (d : ℝ) (X : Pose ℝ) (hX : X.Rigid) (hn : n.dot n = 1) :
    Placed X.R X.t (Shape.halfspace n d) = Shape.halfspace (transform n d X).1 (transform n d X).2 ∧
    Placed X.R X.t (Shape.plane n d) = Shape.plane (transform n d X).1 (transform n d X).2 ∧
    (transform n d X).1.dot (transform n d X).1 = 1 := by
  rw [transform_eq hX hn]
  have key : ∀ q, (X.R.mulVec n).dot q - (d + (X.R.mulVec n).dot X.t) = n.dot (X.inv.apply q) - d := by
    intro q
    have := transform_dot (n := n) (d := d) hX (X.inv.apply q)
    rwa [Pose.apply_inv hX] at this
  refine ⟨?_, ?_, ?_⟩
  · ext q
    constructor
    · rintro ⟨p, hp, rfl⟩
      have h1 := transform_dot (n := n) (d := d) hX p
      have h2 : n.dot p ≤ d := hp
      show V3.dot _ (X.apply p) ≤ _
      linarith
    · intro h
      have h : (X.R.mulVec n).dot q ≤ d + (X.R.mulVec n).dot X.t := h
      refine ⟨X.inv.apply q, ?_, (Pose.apply_inv hX q).symm⟩
      show n.dot (X.inv.apply q) ≤ d
      linarith [key q]
  · ext q
    constructor
    · rintro ⟨p, hp, rfl⟩
      have h1 := transform_dot (n := n) (d := d) hX p
      have h2 : n.dot p = d := hp
      show V3.dot _ (X.apply p) = _
      linarith
    · intro h
      have h : (X.R.mulVec n).dot q = d + (X.R.mulVec n).dot X.t := h
      refine ⟨X.inv.apply q, ?_, (Pose.apply_inv hX q).symm⟩
      show n.dot (X.inv.apply q) = d
      linarith [key q]
  · rw [M3.Orthonormal.dot hX, hn]

/-- **C43.** The constructors keep the set and make the normal a unit vector. -/
theorem C43_constructor (n : V3 ℝ) (d : ℝ) (hn : n ≠ 0) :
    Shape.halfspace (unitNormal n d).1 (unitNormal n d).2 = Shape.halfspace n d ∧
    Shape.plane (unitNormal n d).1 (unitNormal n d).2 = Shape.plane n d ∧
    (unitNormal n d).1.dot (unitNormal n d).1 = 1 := by
  have h := V3.nrm_pos hn
  refine ⟨?_, ?_, unitNormal_dot n d⟩ <;> rw [unitNormal, if_pos h] <;> ext p
  · show V3.dot ((1 / n.nrm) • n) p ≤ 1 / n.nrm * d ↔ n.dot p ≤ d
    rw [V3.smul_dot]
    exact mul_le_mul_iff_right₀ (by positivity)
  · show V3.dot ((1 / n.nrm) • n) p = 1 / n.nrm * d ↔ n.dot p = d
    rw [V3.smul_dot]
    exact mul_right_inj' (by positivity)

/-! ### C62: collision objects -/

/-- The stored box encloses the shape, and so does the stored ball. -/
def LocalBV.Covers (g : LocalBV) (S : Set (V3 ℝ)) : Prop :=
  ∀ p ∈ S, p ∈ g.box.pts ∧ g.center.dist p ≤ g.radius

theorem mid_sq {a b x : ℝ} (h1 : a ≤ x) (h2 : x ≤ b) :
    ((a + b) * (1 / 2) - x) * ((a + b) * (1 / 2) - x) ≤ (a - (a + b) * (1 / 2)) * (a - (a + b) * (1 / 2)) := by
  nlinarith [mul_nonneg (sub_nonneg.2 h1) (sub_nonneg.2 h2)]

theorem ofBox_covers {b : AABB ℝ} {p : V3 ℝ} (h : p ∈ b.pts) :
    p ∈ (LocalBV.ofBox b).box.pts ∧ (LocalBV.ofBox b).center.dist p ≤ (LocalBV.ofBox b).radius := by
  refine ⟨h, ?_⟩
  obtain ⟨⟨h1, h2⟩, ⟨h3, h4⟩, h5, h6⟩ := h
  rw [V3.dist_eq]
  refine Real.sqrt_le_sqrt ?_
  have k1 := mid_sq h1 h2
  have k2 := mid_sq h3 h4
  have k3 := mid_sq h5 h6
  simp only [LocalBV.ofBox, V3.dot, AABB.center, V3.sub_x, V3.sub_y, V3.sub_z] at *
  linarith

theorem sym_mem {p d : V3 ℝ} (hx : |p.x| ≤ d.x) (hy : |p.y| ≤ d.y) (hz : |p.z| ≤ d.z) : p ∈ (LocalBV.sym d).pts :=
  ⟨abs_le.1 hx, abs_le.1 hy, abs_le.1 hz⟩

/-- **C62.** The box and ball that a shape stores about itself enclose it. -/
theorem C62_local (big : ℝ) (g : Geo ℝ) (hg : g.WF) (p : V3 ℝ) (hp : p ∈ g.pts)
    (hb : g.Bounded ∨ p.InRange big (-big)) :
    p ∈ (LocalBV.ofGeo big g).box.pts ∧ (LocalBV.ofGeo big g).center.dist p ≤ (LocalBV.ofGeo big g).radius := by
  cases g with
  | box s =>
    obtain ⟨h1, h2, h3⟩ := hp
    refine ofBox_covers (sym_mem ?_ ?_ ?_)
    · have := abs_half h1; show |p.x| ≤ 1 / 2 * s.x; linarith
    · have := abs_half h2; show |p.y| ≤ 1 / 2 * s.y; linarith
    · have := abs_half h3; show |p.z| ≤ 1 / 2 * s.z; linarith
  | sphere r =>
    have hr : 0 ≤ r := hg
    have hp : p.x * p.x + p.y * p.y + p.z * p.z ≤ r * r := hp
    refine ⟨sym_mem ?_ ?_ ?_, ?_⟩
    · exact abs_le_of_sq hr (by nlinarith [mul_self_nonneg p.y, mul_self_nonneg p.z])
    · exact abs_le_of_sq hr (by nlinarith [mul_self_nonneg p.x, mul_self_nonneg p.z])
    · exact abs_le_of_sq hr (by nlinarith [mul_self_nonneg p.x, mul_self_nonneg p.y])
    · rw [V3.dist_eq]
      refine (V3.nrm_le_iff hr).2 ?_
      simp only [LocalBV.ofGeo, LocalBV.sym, AABB.center, V3.dot, V3.sub_x, V3.sub_y, V3.sub_z, V3.neg_x, V3.neg_y, V3.neg_z]
      nlinarith
  | capsule r lz =>
    obtain ⟨hr, hl⟩ := hg
    obtain ⟨c, h1, h2, h3⟩ := hp
    refine ofBox_covers (sym_mem ?_ ?_ ?_)
    · exact abs_le_of_sq hr (by nlinarith [mul_self_nonneg p.y, mul_self_nonneg (p.z - c)])
    · exact abs_le_of_sq hr (by nlinarith [mul_self_nonneg p.x, mul_self_nonneg (p.z - c)])
    · have := abs_le_of_sq hr (x := p.z - c) (by nlinarith [mul_self_nonneg p.x, mul_self_nonneg p.y])
      rw [abs_le] at this ⊢
      constructor <;> simp only <;> linarith
  | cylinder r lz =>
    obtain ⟨hr, hl⟩ := hg
    obtain ⟨h1, h2⟩ := hp
    refine ofBox_covers (sym_mem ?_ ?_ ?_)
    · exact abs_le_of_sq hr (by nlinarith [mul_self_nonneg p.y])
    · exact abs_le_of_sq hr (by nlinarith [mul_self_nonneg p.x])
    · have := abs_half h2; show |p.z| ≤ 1 / 2 * lz; linarith
  | cone r lz =>
    obtain ⟨hr, hl⟩ := hg
    obtain ⟨h1, h2⟩ := cone_subset hl hp
    refine ofBox_covers (sym_mem ?_ ?_ ?_)
    · exact abs_le_of_sq hr (by nlinarith [mul_self_nonneg p.y])
    · exact abs_le_of_sq hr (by nlinarith [mul_self_nonneg p.x])
    · have := abs_half h2; show |p.z| ≤ 1 / 2 * lz; linarith
  | ellipsoid s =>
    obtain ⟨s1, s2, s3⟩ := hg
    obtain ⟨q, hq, rfl⟩ := hp
    have k : ∀ m x : ℝ, 0 ≤ m → |x| ≤ 1 → |m * x| ≤ m := by
      intro m x hm hx
      rw [abs_mul, abs_of_nonneg hm]
      nlinarith [abs_nonneg x]
    refine ofBox_covers (sym_mem ?_ ?_ ?_)
    · exact k _ _ s1 (abs_le_of_sq zero_le_one (by nlinarith [mul_self_nonneg q.y, mul_self_nonneg q.z]))
    · exact k _ _ s2 (abs_le_of_sq zero_le_one (by nlinarith [mul_self_nonneg q.x, mul_self_nonneg q.z]))
    · exact k _ _ s3 (abs_le_of_sq zero_le_one (by nlinarith [mul_self_nonneg q.x, mul_self_nonneg q.y]))
  | halfspace n d => exact ofBox_covers (halfspaceBox_mem hg (hb.resolve_left id) hp)
  | plane n d => exact ofBox_covers (planeBox_mem hg (hb.resolve_left id) hp)
  | triangle a b c =>
    refine ofBox_covers (aabb_hull ?_ hp)
    have := (C02_constructors_least a b c).2.2.1
    intro v hv
    simp only [List.mem_cons, List.not_mem_nil, or_false] at hv
    exact this hv
  | convex vs => exact ofBox_covers (aabb_hull (foldl_addPt_mem vs _) hp)

/-- The loop of `computeLocalAABB` finds an upper bound. -/
theorem foldl_max_ge (l : List (V3 ℝ)) (f : V3 ℝ → ℝ) (m : ℝ) :
    m ≤ l.foldl (fun m v => if f v > m then f v else m) m ∧
    ∀ v ∈ l, f v ≤ l.foldl (fun m v => if f v > m then f v else m) m := by
  induction l generalizing m with
  | nil => exact ⟨le_refl _, by simp⟩
  | cons a l ih =>
    rw [List.foldl_cons]
    obtain ⟨h1, h2⟩ := ih (if f a > m then f a else m)
    have h3 : m ≤ (if f a > m then f a else m) ∧ f a ≤ (if f a > m then f a else m) := by
      split
      · rename_i h; exact ⟨h.le, le_refl _⟩
      · rename_i h; exact ⟨le_refl _, not_lt.1 h⟩
    refine ⟨h3.1.trans h1, ?_⟩
    rintro v (_ | ⟨_, hv⟩)
    · exact h3.2.trans h1
    · exact h2 v hv

theorem ball_convex {c p q : V3 ℝ} {r t : ℝ} (hp : c.dist p ≤ r) (hq : c.dist q ≤ r) (h0 : 0 ≤ t) (h1 : t ≤ 1) :
    c.dist ((1 - t) • p + t • q) ≤ r := by
  rw [V3.dist_eq] at *
  have e : c - ((1 - t) • p + t • q) = (1 - t) • (c - p) + t • (c - q) := by v3
  rw [e]
  refine (V3.nrm_add_le _ _).trans ?_
  rw [V3.nrm_smul, V3.nrm_smul, abs_of_nonneg h0, abs_of_nonneg (sub_nonneg.2 h1)]
  nlinarith

/-- **C62.** The box and ball that a mesh stores about itself enclose the hull of its vertices, hence all its
triangles. -/
theorem C62_local_mesh (big : ℝ) (vs : List (V3 ℝ)) : (LocalBV.ofMesh big vs).Covers {p | HullOf vs p} := by
  intro p hp
  refine ⟨aabb_hull (foldl_addPt_mem vs _) hp, ?_⟩
  refine HullOf.subset (S := {p | (LocalBV.ofMesh big vs).center.dist p ≤ (LocalBV.ofMesh big vs).radius}) ?_ ?_ hp
  · intro v hv
    show V3.dist _ _ ≤ _
    rw [V3.dist_eq]
    refine Real.sqrt_le_sqrt ?_
    exact (foldl_max_ge vs (fun v => ((LocalBV.ofMesh big vs).center - v).dot ((LocalBV.ofMesh big vs).center - v)) 0).2 v hv
  · intro p q hp hq t h0 h1
    exact ball_convex hp hq h0 h1

/-- A coordinate of a vector is at most its length. -/
theorem coord_le_nrm (v : V3 ℝ) : |v.x| ≤ v.nrm ∧ |v.y| ≤ v.nrm ∧ |v.z| ≤ v.nrm := by
  have h := V3.nrm_mul_self v
  rw [V3.dot] at h
  refine ⟨?_, ?_, ?_⟩ <;> refine abs_le_of_sq (V3.nrm_nonneg v) ?_ <;>
  nlinarith [mul_self_nonneg v.x, mul_self_nonneg v.y, mul_self_nonneg v.z]

/-- **C62, exact part.** The box of a collision object encloses the geometry at its pose, unless the rotation is taken
for the identity without being it. -/
theorem C62_object_partial (prec : ℝ) (g : LocalBV) (S : Set (V3 ℝ)) (hg : g.Covers S) (X : Pose ℝ) (hX : X.Rigid)
    (hI : X.R.isIdentity prec = true → X.R = M3.one) :
    Placed X.R X.t S ⊆ (CollisionObject.computeAABB prec g X).pts := by
  rintro q ⟨p, hp, rfl⟩
  obtain ⟨h1, h2⟩ := hg p hp
  rw [CollisionObject.computeAABB]
  split
  · rename_i h
    rw [hI h, M3.one_mulVec]
    obtain ⟨⟨a, b⟩, ⟨c, d⟩, e, f⟩ := h1
    refine ⟨⟨?_, ?_⟩, ⟨?_, ?_⟩, ?_, ?_⟩ <;> simp only [AABB.translate, V3.add_x, V3.add_y, V3.add_z] <;> linarith
  · have h3 : (X.apply g.center - X.apply p).nrm ≤ g.radius := by
      rw [← V3.dist_eq, Pose.dist_apply hX]; exact h2
    obtain ⟨a, b, c⟩ := coord_le_nrm (X.apply g.center - X.apply p)
    have a := abs_le.1 (a.trans h3)
    have b := abs_le.1 (b.trans h3)
    have c := abs_le.1 (c.trans h3)
    simp only [V3.sub_x, V3.sub_y, V3.sub_z] at a b c
    show X.apply p ∈ _
    refine ⟨⟨?_, ?_⟩, ⟨?_, ?_⟩, ?_, ?_⟩ <;>
    simp only [V3.add_x, V3.add_y, V3.add_z, V3.sub_x, V3.sub_y, V3.sub_z] <;> linarith

theorem approx_row {prec a b c : ℝ} {x y z : ℝ} (hp : 0 ≤ prec) (ha : |a - 1| ≤ min |a| |(1 : ℝ)| * prec) (hb : |b| ≤ prec)
    (hc : |c| ≤ prec) : |a * x + b * y + c * z - x| ≤ prec * (|x| + |y| + |z|) := by
  have ha : |a - 1| ≤ prec := by
    have : min |a| |(1 : ℝ)| ≤ 1 := (min_le_right _ _).trans (by rw [abs_one])
    nlinarith
  have e : a * x + b * y + c * z - x = (a - 1) * x + b * y + c * z := by ring
  rw [e]
  refine (abs_add_three _ _ _).trans ?_
  rw [abs_mul, abs_mul, abs_mul]
  nlinarith [abs_nonneg x, abs_nonneg y, abs_nonneg z]

/-- **C62, what holds always.** No point of the geometry is outside of the box by more than the precision of the
identity test times the size of the point in the frame of the geometry. -/
theorem C62_object_slack (prec : ℝ) (hprec : 0 ≤ prec) (g : LocalBV) (S : Set (V3 ℝ)) (hg : g.Covers S) (X : Pose ℝ)
    (hX : X.Rigid) (p : V3 ℝ) (hp : p ∈ S) :
    ∃ q ∈ (CollisionObject.computeAABB prec g X).pts,
      |(X.apply p).x - q.x| ≤ prec * (|p.x| + |p.y| + |p.z|) ∧ |(X.apply p).y - q.y| ≤ prec * (|p.x| + |p.y| + |p.z|) ∧
      |(X.apply p).z - q.z| ≤ prec * (|p.x| + |p.y| + |p.z|) := by
  by_cases h : X.R.isIdentity prec = true
  · refine ⟨p + X.t, ?_, ?_⟩
    · rw [CollisionObject.computeAABB, if_pos h]
      obtain ⟨⟨a, b⟩, ⟨c, d⟩, e, f⟩ := (hg p hp).1
      refine ⟨⟨?_, ?_⟩, ⟨?_, ?_⟩, ?_, ?_⟩ <;> simp only [AABB.translate, V3.add_x, V3.add_y, V3.add_z] <;> linarith
    · simp only [M3.isIdentity, approx1, Bool.and_eq_true, decide_eq_true_eq] at h
      obtain ⟨⟨⟨⟨h1, h2⟩, h3⟩, ⟨h4, h5⟩, h6⟩, ⟨h7, h8⟩, h9⟩ := h
      refine ⟨?_, ?_, ?_⟩
      · have := approx_row (x := p.x) (y := p.y) (z := p.z) hprec h1 h2 h3
        simp only [Pose.apply, M3.mulVec, V3.dot, V3.add_x]
        rwa [add_sub_add_right_eq_sub]
      · have := approx_row (x := p.y) (y := p.x) (z := p.z) hprec h5 h4 h6
        simp only [Pose.apply, M3.mulVec, V3.dot, V3.add_y]
        rw [add_sub_add_right_eq_sub]
        calc _ = _ := by congr 1; ring
          _ ≤ _ := this
          _ = _ := by ring
      · have := approx_row (x := p.z) (y := p.x) (z := p.y) hprec h9 h7 h8
        simp only [Pose.apply, M3.mulVec, V3.dot, V3.add_z]
        rw [add_sub_add_right_eq_sub]
        calc _ = _ := by congr 1; ring
          _ ≤ _ := this
          _ = _ := by ring
  · refine ⟨X.apply p, C62_object_partial prec g S hg X hX (fun h' => absurd h' h) ⟨p, hp, rfl⟩, ?_⟩
    simp only [sub_self, abs_zero]
    have : 0 ≤ prec * (|p.x| + |p.y| + |p.z|) := by positivity
    exact ⟨this, this, this⟩

/-- A rotation about the z axis with rational entries. -/
noncomputable def rotZ (c s : ℝ) : M3 ℝ := ⟨⟨c, -s, 0⟩, ⟨s, c, 0⟩, ⟨0, 0, 1⟩⟩

theorem rotZ_orthonormal {c s : ℝ} (h : c * c + s * s = 1) : (rotZ c s).Orthonormal := by
  constructor <;>
  simp only [rotZ, M3.mul, M3.tr, M3.col, V3.get, M3.one, V3.dot, M3.mk.injEq, V3.mk.injEq] <;>
  refine ⟨⟨?_, ?_, ?_⟩, ⟨?_, ?_, ?_⟩, ?_, ?_, ?_⟩ <;> linarith

/-- **C62 is violated** for every positive precision of the identity test: some box at some pose has a corner outside of
the box of its collision object. -/
theorem C62_violated (prec : ℝ) (hprec : 0 < prec) : ∃ (side : V3 ℝ) (X : Pose ℝ), X.Rigid ∧
    (Geo.box side).WF ∧ ¬ Placed X.R X.t (Geo.box side).pts ⊆
      (CollisionObject.computeAABB prec (LocalBV.ofGeo 0 (.box side)) X).pts := by
  obtain ⟨u, hu0, hu1, hu2⟩ : ∃ u : ℝ, 0 < u ∧ u ≤ 1 / 4 ∧ 4 * u ≤ prec :=
    ⟨min (1 / 4) (prec / 4), by positivity, min_le_left _ _, by have := min_le_right (1 / 4) (prec / 4); linarith⟩
  have hd : 0 < 1 + u * u := by nlinarith
  set c := (1 - u * u) / (1 + u * u) with hc
  set s := 2 * u / (1 + u * u) with hs
  have hcs : c * c + s * s = 1 := by rw [hc, hs]; field_simp; ring
  have hs0 : 0 < s := by rw [hs]; positivity
  have hsu : s ≤ 2 * u := by rw [hs, div_le_iff₀ hd]; nlinarith
  have hc1 : c - 1 = -(2 * u * u) / (1 + u * u) := by rw [hc]; field_simp; ring
  have hc2 : c ≤ 1 := by
    have : -(2 * u * u) / (1 + u * u) ≤ 0 := by rw [div_le_iff₀ hd]; nlinarith
    linarith
  have hc3 : 1 - 2 * u * u ≤ c := by
    have : -(2 * u * u) ≤ -(2 * u * u) / (1 + u * u) := by rw [le_div_iff₀ hd]; nlinarith [mul_pos (mul_pos hu0 hu0) (mul_pos hu0 hu0)]
    linarith
  have hc4 : 1 / 2 ≤ c := by nlinarith
  refine ⟨⟨0, 2, 0⟩, ⟨rotZ c s, 0⟩, rotZ_orthonormal hcs, by simp [Geo.WF], fun h => ?_⟩
  have hI : (rotZ c s).isIdentity prec = true := by
    simp only [M3.isIdentity, approx1, Bool.and_eq_true, decide_eq_true_eq]
    have k1 : |c - 1| ≤ min |c| |(1 : ℝ)| * prec := by
      rw [abs_of_nonpos (by linarith), abs_of_nonneg (by linarith), abs_one, min_eq_left hc2]
      nlinarith
    have k2 : |s| ≤ prec := by rw [abs_of_pos hs0]; linarith
    have k3 : |(0 : ℝ)| ≤ prec := by rw [abs_zero]; exact hprec.le
    refine ⟨⟨⟨⟨k1, by show |-s| ≤ prec; rw [abs_neg]; exact k2⟩, k3⟩, ⟨k2, k1⟩, k3⟩, ⟨k3, k3⟩, ?_⟩
    show |(1 : ℝ) - 1| ≤ min |(1 : ℝ)| |(1 : ℝ)| * prec
    rw [_root_.sub_self, abs_zero, abs_one, min_self, one_mul]; exact hprec.le
  have hm := h ⟨⟨0, 1, 0⟩, by refine ⟨?_, ?_, ?_⟩ <;> constructor <;> norm_num, rfl⟩
  rw [CollisionObject.computeAABB, if_pos hI] at hm
  have := hm.1.1
  simp [LocalBV.ofGeo, LocalBV.ofBox, LocalBV.sym, AABB.translate, M3.mulVec, V3.dot, rotZ] at this
  linarith

/-! ### Examples -/

/-- A rotated and moved pose. -/
noncomputable def exPose : Pose ℝ := ⟨rotZ (3 / 5) (4 / 5), ⟨1, 2, 3⟩⟩
theorem exPose_rigid : exPose.Rigid := rotZ_orthonormal (by norm_num)

example : (Geo.capsule (1 : ℝ) 2).WF ∧ (⟨2, 2, 4⟩ : V3 ℝ) ∈ Placed exPose.R exPose.t (Geo.capsule (1 : ℝ) 2).pts := by
  refine ⟨⟨by norm_num, by norm_num⟩, ⟨3 / 5, -4 / 5, 1⟩, ⟨1, by norm_num, by norm_num, by norm_num⟩, ?_⟩
  simp only [exPose, rotZ, M3.mulVec, V3.dot]
  apply V3.ext' <;> simp <;> norm_num

example : (Geo.halfspace (⟨0, 3 / 5, 4 / 5⟩ : V3 ℝ) 1).WF ∧ (⟨0, 3 / 5, 4 / 5⟩ : V3 ℝ) ∈ (Geo.halfspace (⟨0, 3 / 5, 4 / 5⟩ : V3 ℝ) 1).pts := by
  constructor
  · show (0 : ℝ) * 0 + 3 / 5 * (3 / 5) + 4 / 5 * (4 / 5) = 1; norm_num
  · show (0 : ℝ) * 0 + 3 / 5 * (3 / 5) + 4 / 5 * (4 / 5) ≤ 1; norm_num

/-- The box of the rotated unit cube. -/
example : (ComputeBV.box (⟨2, 2, 2⟩ : V3 ℝ) exPose) = ⟨⟨-2 / 5, 3 / 5, 2⟩, ⟨12 / 5, 17 / 5, 4⟩⟩ := by
  simp only [ComputeBV.box, around, exPose, rotZ]
  norm_num [AABB.mk.injEq, abs_of_pos, abs_of_neg]
  constructor <;> apply V3.ext' <;> simp <;> norm_num

example : (LocalBV.ofGeo 0 (.box ⟨2, 2, 2⟩)).Covers (Geo.box (⟨2, 2, 2⟩ : V3 ℝ)).pts :=
  fun p hp => C62_local 0 (.box ⟨2, 2, 2⟩) ⟨by norm_num, by norm_num, by norm_num⟩ p hp (.inl trivial)

example : exPose.R.isIdentity (1 / 1000) = true → exPose.R = M3.one := by
  intro h
  exfalso
  simp only [M3.isIdentity, Bool.and_eq_true, decide_eq_true_eq] at h
  have : |-(4 / 5 : ℝ)| ≤ 1 / 1000 := h.1.1.1.2
  rw [abs_neg, abs_of_pos (by norm_num)] at this
  norm_num at this

end Fcl
