import Verif.Geom.QuerySpec
import Verif.Geom.Space

/-!
# Distance and penetration of thickened sets

All points within `r` of a set `A`. Spheres are thickened points, capsules are thickened segments.
-/

namespace Fcl

/-- All points within `r` of `A`. -/
def Thick (A : Set (V3 ℝ)) (r : ℝ) : Set (V3 ℝ) := {p | ∃ a ∈ A, p.dist a ≤ r}

theorem V3.len_eq (t : V3 ℝ) : t.len = t.nrm := by
  rw [V3.len, V3.dist_eq]; congr 1; v3

theorem V3.unit_dot_le {u v : V3 ℝ} (hu : u.nrm = 1) : u.dot v ≤ v.nrm := by
  have := V3.dot_le u v
  rwa [hu, one_mul] at this

theorem thick_zero (A : Set (V3 ℝ)) : Thick A 0 = A := by
  ext p
  constructor
  · rintro ⟨a, ha, h⟩
    rw [V3.dist_eq_zero (le_antisymm h (V3.dist_nonneg _ _))]
    exact ha
  · intro h
    exact ⟨p, h, by rw [V3.dist_self]⟩

theorem touch_symm {A B : Set (V3 ℝ)} : Touch A B ↔ Touch B A := ⟨fun ⟨p, h, k⟩ => ⟨p, k, h⟩, fun ⟨p, h, k⟩ => ⟨p, k, h⟩⟩

theorem dist_symm {A B : Set (V3 ℝ)} {d : ℝ} {p q : V3 ℝ} (h : IsDist A B d p q) : IsDist B A d q p :=
  ⟨h.2, h.1, by rw [V3.dist_comm, h.3], fun a ha b hb => by rw [V3.dist_comm]; exact h.4 b hb a ha⟩

theorem isDist_nonneg {A B : Set (V3 ℝ)} {d : ℝ} {p q : V3 ℝ} (h : IsDist A B d p q) : 0 ≤ d := by
  rw [← h.attained]; exact V3.dist_nonneg _ _

/-- The distance determines whether there is a common point. -/
theorem isDist_touch {A B : Set (V3 ℝ)} {d : ℝ} {p q : V3 ℝ} (h : IsDist A B d p q) : Touch A B ↔ d = 0 := by
  constructor
  · rintro ⟨x, hA, hB⟩
    have := h.least x hA x hB
    rw [V3.dist_self] at this
    exact le_antisymm this (isDist_nonneg h)
  · rintro rfl
    have := V3.dist_eq_zero h.attained
    exact ⟨p, h.left, this ▸ h.right⟩

/-- Two points closer than the sum of the radii have a point within the radii of both. -/
theorem between {a b : V3 ℝ} {r1 r2 : ℝ} (h1 : 0 ≤ r1) (h2 : 0 ≤ r2) (h : a.dist b ≤ r1 + r2) :
    ∃ p : V3 ℝ, p.dist a ≤ r1 ∧ p.dist b ≤ r2 := by
  rcases le_or_gt (a.dist b) r1 with h' | h'
  · exact ⟨b, by rwa [V3.dist_comm], by rwa [V3.dist_self]⟩
  · have hd : 0 < a.dist b := lt_of_le_of_lt h1 h'
    have hs : 0 ≤ r1 / a.dist b := by positivity
    have hs' : r1 / a.dist b ≤ 1 := by rw [div_le_one hd]; exact h'.le
    refine ⟨a + (r1 / a.dist b) • (b - a), ?_, ?_⟩
    · have e : a + (r1 / a.dist b) • (b - a) - a = (r1 / a.dist b) • (b - a) := by v3
      rw [V3.dist_eq, e, V3.nrm_smul, ← V3.dist_eq, V3.dist_comm b a, abs_of_nonneg hs, div_mul_cancel₀ _ hd.ne']
    · have e : a + (r1 / a.dist b) • (b - a) - b = (1 - r1 / a.dist b) • (a - b) := by v3
      rw [V3.dist_eq, e, V3.nrm_smul, ← V3.dist_eq, abs_of_nonneg (sub_nonneg.2 hs'), sub_mul, div_mul_cancel₀ _ hd.ne']
      linarith

theorem thick_touch_of {A B : Set (V3 ℝ)} {a b : V3 ℝ} {r1 r2 : ℝ} (ha : a ∈ A) (hb : b ∈ B) (h1 : 0 ≤ r1) (h2 : 0 ≤ r2)
    (h : a.dist b ≤ r1 + r2) : Touch (Thick A r1) (Thick B r2) := by
  obtain ⟨p, h3, h4⟩ := between h1 h2 h
  exact ⟨p, ⟨a, ha, h3⟩, b, hb, h4⟩

theorem thick_touch {A B : Set (V3 ℝ)} {d r1 r2 : ℝ} {a b : V3 ℝ} (h : IsDist A B d a b) (h1 : 0 ≤ r1) (h2 : 0 ≤ r2) :
    Touch (Thick A r1) (Thick B r2) ↔ d ≤ r1 + r2 := by
  constructor
  · rintro ⟨p, ⟨x, hx, hpx⟩, y, hy, hpy⟩
    have k1 := h.least x hx y hy
    have k2 := V3.dist_triangle x p y
    rw [V3.dist_comm x p] at k2
    linarith
  · intro h'
    exact thick_touch_of h.left h.right h1 h2 (by rw [h.attained]; exact h')

theorem thick_dist {A B : Set (V3 ℝ)} {d r1 r2 : ℝ} {a b : V3 ℝ} (h : IsDist A B d a b) (h1 : 0 ≤ r1) (h2 : 0 ≤ r2)
    (hd : r1 + r2 < d) :
    IsDist (Thick A r1) (Thick B r2) (d - r1 - r2) (a + (r1 / d) • (b - a)) (b - (r2 / d) • (b - a)) := by
  have hd0 : 0 < d := by linarith
  have hn : (b - a).nrm = d := by rw [← V3.dist_eq, V3.dist_comm, h.attained]
  refine ⟨⟨a, h.left, ?_⟩, ⟨b, h.right, ?_⟩, ?_, ?_⟩
  · have e : a + (r1 / d) • (b - a) - a = (r1 / d) • (b - a) := by v3
    rw [V3.dist_eq, e, V3.nrm_smul, hn, abs_of_nonneg (by positivity), div_mul_cancel₀ _ hd0.ne']
  · have e : b - (r2 / d) • (b - a) - b = (-(r2 / d)) • (b - a) := by v3
    rw [V3.dist_eq, e, V3.nrm_smul, hn, abs_neg, abs_of_nonneg (by positivity), div_mul_cancel₀ _ hd0.ne']
  · have e : a + (r1 / d) • (b - a) - (b - (r2 / d) • (b - a)) = (-((d - r1 - r2) / d)) • (b - a) := by
      have : (d - r1 - r2) / d = 1 - r1 / d - r2 / d := by field_simp
      rw [this]; v3
    rw [V3.dist_eq, e, V3.nrm_smul, hn, abs_neg, abs_of_nonneg (div_nonneg (by linarith) hd0.le),
      div_mul_cancel₀ _ hd0.ne']
  · rintro p ⟨x, hx, hpx⟩ q ⟨y, hy, hqy⟩
    have k1 := h.least x hx y hy
    have k2 := V3.dist_triangle x p y
    have k3 := V3.dist_triangle p q y
    rw [V3.dist_comm x p] at k2
    linarith

theorem thick_moved (B : Set (V3 ℝ)) (r : ℝ) (t : V3 ℝ) : Moved (Thick B r) t = Thick (Moved B t) r := by
  have e : ∀ p b : V3 ℝ, (p + t).dist (b + t) = p.dist b := by
    intro p b; rw [V3.dist_eq, V3.dist_eq]; congr 1; v3
  ext q
  constructor
  · rintro ⟨p, ⟨b, hb, h⟩, rfl⟩
    exact ⟨b + t, ⟨b, hb, rfl⟩, by rwa [e]⟩
  · rintro ⟨_, ⟨b, hb, rfl⟩, h⟩
    have e' : q = (q - t) + t := by v3
    refine ⟨q - t, ⟨b, hb, ?_⟩, e'⟩
    rw [← e, ← e']; exact h

/-- A direction in which the cores are `d` apart separates the thickened sets. -/
theorem thick_separates {A B : Set (V3 ℝ)} {d r1 r2 : ℝ} {u : V3 ℝ} (hu : u.nrm = 1)
    (h : ∀ x ∈ A, ∀ y ∈ B, d ≤ u.dot (y - x)) : SeparatesAlong (Thick A r1) (Thick B r2) u (r1 + r2 - d) := by
  refine ⟨by rw [V3.len_eq, hu], ?_⟩
  rintro e he ⟨p, ⟨x, hx, hpx⟩, _, ⟨y, hy, hqy⟩, rfl⟩
  rename_i q
  have k1 := h x hx y hy
  have k2 : u.dot (q + ⟨(r1 + r2 - d + e) * u.x, (r1 + r2 - d + e) * u.y, (r1 + r2 - d + e) * u.z⟩ - x) ≤ r1 :=
    (V3.unit_dot_le hu).trans (by rw [← V3.dist_eq]; exact hpx)
  have k3 : u.dot (y - q) ≤ r2 := (V3.unit_dot_le hu).trans (by rw [← V3.dist_eq, V3.dist_comm]; exact hqy)
  have hu' : u.x * u.x + u.y * u.y + u.z * u.z = 1 := by
    have := V3.nrm_mul_self u
    rw [hu, V3.dot] at this
    linarith
  simp only [V3.dot, V3.sub_x, V3.sub_y, V3.sub_z, V3.add_x, V3.add_y, V3.add_z] at k1 k2 k3
  have k4 : (r1 + r2 - d + e) * (u.x * u.x + u.y * u.y + u.z * u.z) = r1 + r2 - d + e := by rw [hu', mul_one]
  linarith

theorem thick_keep {A B : Set (V3 ℝ)} {d r1 r2 : ℝ} {a b : V3 ℝ} (h : IsDist A B d a b) (h1 : 0 ≤ r1) (h2 : 0 ≤ r2)
    (t : V3 ℝ) (ht : t.len < r1 + r2 - d) : Touch (Thick A r1) (Moved (Thick B r2) t) := by
  rw [thick_moved]
  refine thick_touch_of h.left (b := b + t) ⟨b, h.right, rfl⟩ h1 h2 ?_
  have k := V3.dist_triangle a b (b + t)
  have e : b.dist (b + t) = t.len := by
    rw [V3.len_eq, V3.dist_eq, ← V3.nrm_neg]; congr 1; v3
  rw [e, h.attained] at k
  linarith

/-- A separating direction of the right length gives the penetration depth. -/
theorem isDepth_of {A B : Set (V3 ℝ)} {d : ℝ} {n : V3 ℝ} (hd : 0 ≤ d) (h1 : SeparatesAlong A B n d)
    (h2 : ∀ t : V3 ℝ, t.len < d → Touch A (Moved B t)) : IsDepth A B d := by
  refine ⟨h2, fun e he => ⟨⟨(d + e) * n.x, (d + e) * n.y, (d + e) * n.z⟩, ?_, h1.2 e he⟩⟩
  have e' : (⟨(d + e) * n.x, (d + e) * n.y, (d + e) * n.z⟩ : V3 ℝ) = (d + e) • n := rfl
  have hn := h1.1
  rw [V3.len_eq] at hn
  rw [e', V3.len_eq, V3.nrm_smul, hn, abs_of_nonneg (by linarith), mul_one]

/-- The set contains the segments between its points. -/
def ConvexSet (A : Set (V3 ℝ)) : Prop := ∀ p ∈ A, ∀ q ∈ A, ∀ t : ℝ, 0 ≤ t → t ≤ 1 → (1 - t) • p + t • q ∈ A

theorem small_step {c q : ℝ} (h : ∀ s : ℝ, 0 ≤ s → s ≤ 1 → 0 ≤ s * (s * q - 2 * c)) : c ≤ 0 := by
  by_contra hc
  push Not at hc
  rcases le_or_gt q c with hq | hq
  · have := h 1 zero_le_one (le_refl _)
    linarith
  · have hq0 : 0 < q := by linarith
    have := h (c / q) (by positivity) (by rw [div_le_one hq0]; exact hq.le)
    have e : c / q * (c / q * q - 2 * c) = -(c * c / q) := by field_simp; ring
    rw [e] at this
    have : 0 < c * c / q := by positivity
    linarith

/-- The nearest point of a convex set: no other point is further ahead. -/
theorem near_dot {A : Set (V3 ℝ)} (hA : ConvexSet A) {a b : V3 ℝ} (ha : a ∈ A) (h : ∀ x ∈ A, a.dist b ≤ x.dist b)
    {x : V3 ℝ} (hx : x ∈ A) : (b - a).dot (x - a) ≤ 0 := by
  refine small_step (q := (x - a).dot (x - a)) fun s h0 h1 => ?_
  have k := h _ (hA a ha x hx s h0 h1)
  rw [V3.dist_eq, V3.dist_eq] at k
  have k2 := mul_self_le_mul_self (V3.nrm_nonneg _) k
  rw [V3.nrm_mul_self, V3.nrm_mul_self] at k2
  simp only [V3.dot, V3.sub_x, V3.sub_y, V3.sub_z, V3.add_x, V3.add_y, V3.add_z, V3.smul_x, V3.smul_y, V3.smul_z] at *
  linarith

/-- Convex sets at a positive distance are that far apart in the direction of the nearest points. -/
theorem isDist_direction {A B : Set (V3 ℝ)} (hA : ConvexSet A) (hB : ConvexSet B) {d : ℝ} {a b : V3 ℝ}
    (h : IsDist A B d a b) (hd : 0 < d) :
    ((1 / d) • (b - a)).nrm = 1 ∧ ∀ x ∈ A, ∀ y ∈ B, d ≤ ((1 / d) • (b - a)).dot (y - x) := by
  have hn : (b - a).nrm = d := by rw [← V3.dist_eq, V3.dist_comm, h.attained]
  refine ⟨?_, fun x hx y hy => ?_⟩
  · rw [V3.nrm_smul, hn, abs_of_pos (by positivity)]
    field_simp
  · have k1 := near_dot hA h.left (b := b) (fun x hx => by rw [h.attained]; exact h.least x hx b h.right) hx
    have k2 := near_dot hB h.right (b := a) (fun y hy => by rw [V3.dist_comm, h.attained, V3.dist_comm]; exact h.least a h.left y hy) hy
    have k3 : (b - a).dot (b - a) = d * d := by rw [← V3.nrm_mul_self, hn]
    have k4 : (b - a).dot (y - x) = (b - a).dot (b - a) - (b - a).dot (x - a) - (a - b).dot (y - b) := by
      simp only [V3.dot, V3.sub_x, V3.sub_y, V3.sub_z]; ring
    rw [V3.smul_dot, one_div, ← div_eq_inv_mul, le_div_iff₀ hd]
    linarith

/-! ### Rigid transformations -/

theorem placed_touch {X : Pose ℝ} (hX : X.Rigid) {A B : Set (V3 ℝ)} :
    Touch (Placed X.R X.t A) (Placed X.R X.t B) ↔ Touch A B := by
  constructor
  · rintro ⟨_, ⟨p, hp, rfl⟩, q, hq, h⟩
    have := Pose.apply_injective hX h
    exact ⟨p, hp, this ▸ hq⟩
  · rintro ⟨p, h1, h2⟩
    exact ⟨X.apply p, ⟨p, h1, rfl⟩, p, h2, rfl⟩

theorem placed_dist {X : Pose ℝ} (hX : X.Rigid) {A B : Set (V3 ℝ)} {d : ℝ} {a b : V3 ℝ} (h : IsDist A B d a b) :
    IsDist (Placed X.R X.t A) (Placed X.R X.t B) d (X.apply a) (X.apply b) := by
  refine ⟨⟨a, h.left, rfl⟩, ⟨b, h.right, rfl⟩, by rw [Pose.dist_apply hX, h.attained], ?_⟩
  rintro _ ⟨x, hx, rfl⟩ _ ⟨y, hy, rfl⟩
  have := Pose.dist_apply hX x y
  rw [Pose.apply, Pose.apply] at this
  rw [this]
  exact h.least x hx y hy

theorem placed_moved {X : Pose ℝ} (B : Set (V3 ℝ)) (t : V3 ℝ) :
    Moved (Placed X.R X.t B) (X.R.mulVec t) = Placed X.R X.t (Moved B t) := by
  have e : ∀ p, X.R.mulVec p + X.t + X.R.mulVec t = X.R.mulVec (p + t) + X.t := by
    intro p; rw [M3.mulVec_add]; v3
  ext q
  constructor
  · rintro ⟨_, ⟨p, hp, rfl⟩, rfl⟩
    exact ⟨p + t, ⟨p, hp, rfl⟩, e p⟩
  · rintro ⟨_, ⟨p, hp, rfl⟩, rfl⟩
    exact ⟨_, ⟨p, hp, rfl⟩, (e p).symm⟩

theorem placed_moved' {X : Pose ℝ} (hX : X.Rigid) (B : Set (V3 ℝ)) (t : V3 ℝ) :
    Moved (Placed X.R X.t B) t = Placed X.R X.t (Moved B (X.R.tr.mulVec t)) := by
  rw [← placed_moved, M3.Orthonormal.mul_tr hX]

theorem placed_separates {X : Pose ℝ} (hX : X.Rigid) {A B : Set (V3 ℝ)} {n : V3 ℝ} {d : ℝ} (h : SeparatesAlong A B n d) :
    SeparatesAlong (Placed X.R X.t A) (Placed X.R X.t B) (X.R.mulVec n) d := by
  refine ⟨by rw [V3.len_eq, M3.Orthonormal.nrm hX, ← V3.len_eq, h.1], fun e he => ?_⟩
  have : (⟨(d + e) * (X.R.mulVec n).x, (d + e) * (X.R.mulVec n).y, (d + e) * (X.R.mulVec n).z⟩ : V3 ℝ) =
      X.R.mulVec ((d + e) • n) := by rw [M3.mulVec_smul]; rfl
  rw [this, placed_moved, placed_touch hX]
  exact h.2 e he

theorem placed_keep {X : Pose ℝ} (hX : X.Rigid) {A B : Set (V3 ℝ)} {d : ℝ}
    (h : ∀ t : V3 ℝ, t.len < d → Touch A (Moved B t)) (t : V3 ℝ) (ht : t.len < d) :
    Touch (Placed X.R X.t A) (Moved (Placed X.R X.t B) t) := by
  rw [placed_moved' hX, placed_touch hX]
  refine h _ ?_
  rw [V3.len_eq, M3.Orthonormal.nrm hX.tr, ← V3.len_eq]
  exact ht

theorem placed_isDepth {X : Pose ℝ} (hX : X.Rigid) {A B : Set (V3 ℝ)} {d : ℝ} (h : IsDepth A B d) :
    IsDepth (Placed X.R X.t A) (Placed X.R X.t B) d := by
  refine ⟨placed_keep hX h.1, fun e he => ?_⟩
  obtain ⟨t, h1, h2⟩ := h.2 e he
  refine ⟨X.R.mulVec t, by rw [V3.len_eq, M3.Orthonormal.nrm hX, ← V3.len_eq]; exact h1, ?_⟩
  rw [placed_moved, placed_touch hX]
  exact h2

/-- A placed ball is a thickened point. -/
theorem placed_ball {X : Pose ℝ} (hX : X.Rigid) {r : ℝ} (hr : 0 ≤ r) :
    Placed X.R X.t (Shape.ball r) = Thick {X.t} r := by
  ext q
  constructor
  · rintro ⟨p, hp, rfl⟩
    refine ⟨X.t, rfl, ?_⟩
    have e : X.R.mulVec p + X.t - X.t = X.R.mulVec p := by v3
    rw [V3.dist_eq, e, M3.Orthonormal.nrm hX, V3.nrm_le_iff hr]
    exact hp
  · rintro ⟨_, rfl, h⟩
    refine ⟨X.inv.apply q, ?_, (Pose.apply_inv hX q).symm⟩
    have h' : (X.inv.apply q).nrm ≤ r := by
      have e : (X.inv.apply q).nrm = (X.inv.apply q).dist 0 := by rw [← V3.len_eq]; rfl
      rw [e, Pose.dist_inv hX, Pose.apply_zero]; exact h
    exact (V3.nrm_le_iff hr).1 h'

/-- A thickened point in the frame `X`. -/
theorem thick_point_placed {X : Pose ℝ} (hX : X.Rigid) (c : V3 ℝ) (r : ℝ) :
    Thick {c} r = Placed X.R X.t (Thick {X.inv.apply c} r) := by
  ext q
  constructor
  · rintro ⟨_, rfl, h⟩
    refine ⟨X.inv.apply q, ⟨_, rfl, ?_⟩, (Pose.apply_inv hX q).symm⟩
    rw [Pose.dist_inv hX, Pose.apply_inv hX]; exact h
  · rintro ⟨p, ⟨_, rfl, h⟩, rfl⟩
    refine ⟨c, rfl, ?_⟩
    have := Pose.dist_apply hX p (X.inv.apply c)
    rw [Pose.apply_inv hX] at this
    exact (this.trans_le h)

theorem convex_point (c : V3 ℝ) : ConvexSet {c} := by
  rintro p rfl q rfl t _ _
  show _ = _
  v3

theorem isDist_points (a b : V3 ℝ) : IsDist {a} {b} (a.dist b) a b :=
  ⟨rfl, rfl, rfl, by rintro _ rfl _ rfl; exact le_refl _⟩

end Fcl
