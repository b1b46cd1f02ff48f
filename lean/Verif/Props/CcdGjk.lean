import Verif.Ccd.DistLemmas
import Mathlib.Analysis.Convex.StdSimplex

/-!
# C78, C79, C80: the distance query of the default solver
-/

namespace Fcl
open V3 Ccd

/-- What the default solver needs of a shape: it is bounded, its sizes are sensible, an ellipsoid and a cone are not
degenerate, and the extreme vertices of a convex are right (C51). -/
structure Geo.Ready (extreme : V3 ℝ → Option (V3 ℝ)) (g : Geo ℝ) : Prop where
  bounded : g.Bounded
  wf : g.WF
  ellipsoid : ∀ s, g = .ellipsoid s → 0 < s.x ∧ 0 < s.y ∧ 0 < s.z
  cone : ∀ r lz, g = .cone r lz → 0 < r ∨ 0 < lz
  convex : ∀ vs, g = .convex vs → ∀ d, ∃ p, extreme d = some p ∧ IsSupport (Shape.convex vs) d p

namespace Ccd

theorem local_ready {eps big : ℝ} (he : 0 < eps) (hbig : 0 < big) {extreme : V3 ℝ → Option (V3 ℝ)} {g : Geo ℝ}
    (h : g.Ready extreme) {d : V3 ℝ} (hd : d ≠ 0) :
    ∃ p, localSupport eps big extreme g d = some p ∧ IsSupportUpTo (slack eps g) g.pts d p := by
  have hw := h.wf
  have hb := h.bounded
  cases g with
  | box s => exact ⟨_, rfl, (Ccd.box_support hw _).upTo⟩
  | sphere r =>
    obtain ⟨p, h1, h2⟩ := Ccd.sphere_support hw hd
    exact ⟨p, h1, h2.upTo⟩
  | capsule r lz =>
    obtain ⟨p, h1, h2⟩ := Ccd.capsule_support hw.1 hw.2 hd
    exact ⟨p, h1, h2.upTo⟩
  | cylinder r lz => exact ⟨_, rfl, Ccd.cylinder_support he hw.1 hw.2 _⟩
  | cone r lz =>
    obtain ⟨p, h1, h2⟩ := Support.cone_support hw.1 hw.2 (h.cone _ _ rfl) d
    exact ⟨p, h1, h2.upTo⟩
  | ellipsoid s =>
    obtain ⟨p, h1, h2⟩ := Support.ellipsoid_support (h.ellipsoid _ rfl) hd
    exact ⟨p, h1, h2.upTo⟩
  | halfspace n k => exact hb.elim
  | plane n k => exact hb.elim
  | triangle a b c =>
    obtain ⟨p, h1, h2⟩ := Ccd.triangle_support hbig a b c d
    exact ⟨p, h1, h2.upTo⟩
  | convex vs =>
    obtain ⟨p, h1, h2⟩ := h.convex vs rfl d
    exact ⟨p, h1, h2.upTo⟩

theorem local_mem {eps big : ℝ} (he : 0 < eps) (hbig : 0 < big) {extreme : V3 ℝ → Option (V3 ℝ)} {g : Geo ℝ}
    (h : g.Ready extreme) {d p : V3 ℝ} (hp : localSupport eps big extreme g d = some p) : p ∈ g.pts := by
  by_cases hd : d = 0
  · subst hd
    have hw := h.wf
    have hb := h.bounded
    have h0 : Real.sqrt ((0 : V3 ℝ).dot 0) = 0 := by simp [dot]
    cases g with
    | box s => exact Option.some.inj hp ▸ (Ccd.box_support hw _).1
    | sphere r =>
      simp [localSupport, sphere, Support.quot, h0] at hp
    | capsule r lz =>
      simp [localSupport, capsule, Support.quot, h0] at hp
    | cylinder r lz => exact Option.some.inj hp ▸ (Ccd.cylinder_support he hw.1 hw.2 _).1
    | cone r lz =>
      obtain ⟨q, h1, h2⟩ := Support.cone_support hw.1 hw.2 (h.cone _ _ rfl) 0
      have : Support.cone r lz 0 = some p := hp
      rw [h1] at this
      exact Option.some.inj this ▸ h2.1
    | ellipsoid s =>
      have hz : (⟨0, 0, 0⟩ : V3 ℝ).dot 0 = 0 := by simp [dot]
      simp [localSupport, Support.ellipsoid, Support.quot, hz] at hp
    | halfspace n k => exact hb.elim
    | plane n k => exact hb.elim
    | triangle a b c =>
      obtain ⟨q, h1, h2⟩ := Ccd.triangle_support hbig a b c 0
      have : triLoop 0 (centre a b c) [a, b, c] (-big) none = some p := hp
      rw [h1] at this
      exact Option.some.inj this ▸ h2.1
    | convex vs =>
      obtain ⟨q, h1, h2⟩ := h.convex vs rfl 0
      have : extreme 0 = some p := hp
      rw [h1] at this
      exact Option.some.inj this ▸ h2.1
  · obtain ⟨q, h1, h2⟩ := local_ready he hbig h hd
    rw [h1] at hp
    exact Option.some.inj hp ▸ h2.1

theorem turn_ne {tf : Pose ℝ} (hR : tf.Rigid) {d : V3 ℝ} (hd : d ≠ 0) : tf.R.tr.mulVec d ≠ 0 := by
  intro h
  have := M3.Orthonormal.mul_tr hR d
  rw [h, M3.mulVec_zero] at this
  exact hd this.symm

variable {c : Cfg} {e1 e2 : V3 ℝ → Option (V3 ℝ)} {g1 g2 : Geo ℝ} {tf1 tf2 : Pose ℝ}

theorem support_ready (he : 0 < c.ceps) (hbig : 0 < c.big) (h1 : tf1.Rigid) (r1 : g1.Ready e1) {d : V3 ℝ} (hd : d ≠ 0) :
    ∃ p, support c.ceps c.big e1 g1 tf1 d = some p ∧ IsSupportUpTo (slack c.ceps g1) (Placed tf1.R tf1.t g1.pts) d p := by
  obtain ⟨p, e, h⟩ := local_ready he hbig r1 (turn_ne h1 hd)
  exact ⟨tf1.apply p, by unfold support; rw [e]; rfl, h.placed⟩

theorem support_mem (he : 0 < c.ceps) (hbig : 0 < c.big) (r1 : g1.Ready e1) {d p : V3 ℝ}
    (hp : support c.ceps c.big e1 g1 tf1 d = some p) : p ∈ Placed tf1.R tf1.t g1.pts := by
  unfold support at hp
  rcases e : localSupport c.ceps c.big e1 g1 (tf1.R.tr.mulVec d) with _ | q
  · rw [e] at hp; simp at hp
  · rw [e] at hp
    simp only [Option.map_some, Option.some.injEq] at hp
    exact ⟨q, local_mem he hbig r1 e, hp.symm⟩

theorem shapes_supports (he : 0 < c.ceps) (hbig : 0 < c.big) (h1 : tf1.Rigid) (h2 : tf2.Rigid) (r1 : g1.Ready e1) (r2 : g2.Ready e2) :
    Supports (shapesSupport c e1 e2 g1 tf1 g2 tf2) (Placed tf1.R tf1.t g1.pts) (Placed tf2.R tf2.t g2.pts)
      (slack c.ceps g1 + slack c.ceps g2) := by
  have split : ∀ d p, shapesSupport c e1 e2 g1 tf1 g2 tf2 d = some p → ∃ v1 v2, support c.ceps c.big e1 g1 tf1 d = some v1 ∧
      support c.ceps c.big e2 g2 tf2 (-d) = some v2 ∧ p = ⟨v1 - v2, v1, v2⟩ := by
    intro d p hp
    unfold shapesSupport pairSupport at hp
    rcases a1 : support c.ceps c.big e1 g1 tf1 d with _ | v1
    · rw [a1] at hp; simp at hp
    rcases a2 : support c.ceps c.big e2 g2 tf2 (-d) with _ | v2
    · rw [a1, a2] at hp; simp at hp
    · rw [a1, a2] at hp
      simp only [Option.bind_some, Option.map_some, Option.some.injEq] at hp
      exact ⟨v1, v2, rfl, rfl, hp.symm⟩
  constructor
  · intro d p hp
    obtain ⟨v1, v2, a1, a2, rfl⟩ := split d p hp
    exact ⟨support_mem he hbig r1 a1, support_mem he hbig r2 a2, rfl⟩
  · intro d p hd hp x hx
    obtain ⟨v1, v2, a1, a2, rfl⟩ := split d p hp
    obtain ⟨a, ha, b, hb, rfl⟩ := hx
    have hd' : -d ≠ 0 := by
      intro h; apply hd
      rw [show d = -(-d) by v3, h]; v3
    obtain ⟨q1, b1, -, m1⟩ := support_ready he hbig h1 r1 hd
    obtain ⟨q2, b2, -, m2⟩ := support_ready he hbig h2 r2 hd'
    rw [a1] at b1; rw [a2] at b2
    obtain rfl := Option.some.inj b1
    obtain rfl := Option.some.inj b2
    have k1 := m1 a ha
    have k2 := m2 b hb
    simp only [dot, neg_x, neg_y, neg_z, sub_x, sub_y, sub_z] at k1 k2 ⊢
    linarith

theorem convex1 (g : Geo ℝ) (tf : Pose ℝ) : ConvexSet (Placed tf.R tf.t g.pts) := placed_convex g.pts_convex _ _

end Ccd

variable {l : Lib} {c : Cfg} {e1 e2 : V3 ℝ → Option (V3 ℝ)} {g1 g2 : Geo ℝ} {tf1 tf2 : Pose ℝ}

/-- The refinement does not run out of iterations if there are enough of them. -/
theorem Ccd.dist_minus (hl : l.Exact) {A B : Set (V3 ℝ)} (hA : ConvexSet A) (hB : ConvexSet B) {sup : V3 ℝ → Option SP} {k : ℝ}
    (hsup : Supports sup A B k) {R : ℝ} (hle : ∀ x ∈ Diff A B, x.nrm ≤ R) (ht0 : 0 < c.tol) (hit : R < (c.maxIter - 1) * c.tol)
    {s : List SP} (hs : Ok A B s) : Ccd.dist l c sup s ≠ .minus := by
  intro hm
  have h0R : 0 ≤ R := by
    obtain ⟨p, hp⟩ := List.exists_mem_of_ne_nil _ hs.2.1
    exact le_trans (nrm_nonneg _) (hle _ (hs.1 p hp).diff)
  unfold Ccd.dist at hm
  rcases hn : c.maxIter with _ | n
  · rw [hn] at hit
    push_cast at hit
    nlinarith
  rw [hn] at hm hit
  have hk := nearest_ok hl hA hB hs c.big
  unfold distLoop at hm
  simp only at hm
  split at hm
  · simp at hm
  rcases hp : (nearest l s c.big).2.2 with _ | p
  · rw [hp] at hm; simp at hm
  rw [hp] at hm
  simp only at hm
  split at hm
  · simp at hm
  rcases hw : sup (-p).normalized with _ | w
  · rw [hw] at hm; simp at hm
  rw [hw] at hm
  simp only at hm
  obtain ⟨k1, k2⟩ := hk.some p hp
  split at hm
  · simp at hm
  · have := distLoop_minus hl hA hB hsup n _ _ ⟨?_, by simp, ?_⟩ (by rw [k2]; exact nrm_nonneg _) hm
    · have hpR : (nearest l s c.big).2.1 ≤ R := by
        rw [k2]
        refine hle p (hull_sub (diff_isConvex hA hB) ?_ k1)
        intro q hq
        obtain ⟨r, hr, rfl⟩ := List.mem_map.1 hq
        exact (hk.ok.1 r hr).diff
      push_cast at hit
      linarith
    · intro r hr
      rcases List.mem_append.1 hr with h | h
      · exact hk.ok.1 r h
      · rw [List.mem_singleton.1 h]; exact hsup.made _ _ hw
    · have := hk.three
      simp; omega

/-- What the outcomes of the query are. -/
theorem Ccd.distance_cases (hl : l.Exact) (he : 0 < c.eps) (hc : 0 < c.ceps) {A B : Set (V3 ℝ)} (hA : ConvexSet A) (hB : ConvexSet B)
    {sup : V3 ℝ → Option SP} {k : ℝ} (hsup : Supports sup A B k) {R : ℝ} (hle : ∀ x ∈ Diff A B, x.nrm ≤ R)
    (hbR : R < c.big) :
    (gjkDist l c sup = .undef) ∨ (∃ s, gjk l c sup = .hit s ∧ gjkDist l c sup = .minus) ∨
    ∃ s, Ok A B s ∧ gjkDist l c sup = Ccd.dist l c sup s ∧ DOutOk c R A B (Ccd.dist l c sup s) := by
  have hg := gjk_ok hl he hc hA hB hsup
  have hd : ∀ s, Ok A B s → DOutOk c R A B (Ccd.dist l c sup s) := fun s hs =>
    distLoop_ok hl he hA hB hle hsup _ _ _ hs (Or.inl fun x hx => lt_of_le_of_lt (hle x hx) hbR)
  unfold gjkDist
  rcases e : gjk l c sup with s | ⟨s, d⟩ | s | _
  · exact Or.inr (Or.inl ⟨s, rfl, rfl⟩)
  · rw [e] at hg; exact Or.inr (Or.inr ⟨s, hg.1, rfl, hd s hg.1⟩)
  · rw [e] at hg; exact Or.inr (Or.inr ⟨s, hg, rfl, hd s hg⟩)
  · exact Or.inl rfl

/-- C78 in part: with the default solver, the distance query answers "no" (not separated) only with the distance -1. If the
shapes are `R` or less across and enough iterations are allowed, the shapes are at most `eps * (1 + R)` apart, for the
machine epsilon `eps`, or the search has ended with a tetrahedron, and the shapes are at most `CCD_EPS * R` over its
sixfold volume apart. Missing: that the tetrahedron is not too thin. -/
theorem C78_false_partial (hl : l.Exact) (he : 0 < c.eps) (hc : 0 < c.ceps) (hbig : 0 < c.big) (h1 : tf1.Rigid) (h2 : tf2.Rigid)
    (r1 : g1.Ready e1) (r2 : g2.Ready e2) {R : ℝ}
    (hR : ∀ a ∈ Placed tf1.R tf1.t g1.pts, ∀ b ∈ Placed tf2.R tf2.t g2.pts, a.dist b ≤ R)
    (hbR : R < c.big) (ht : 0 < c.tol) (hit : R < (c.maxIter - 1) * c.tol) {d : ℝ} {pts : Option (V3 ℝ × V3 ℝ)}
    (h : shapeDistance l c e1 e2 g1 tf1 g2 tf2 = some (false, d, pts)) :
    d = -1 ∧ ∃ a ∈ Placed tf1.R tf1.t g1.pts, ∃ b ∈ Placed tf2.R tf2.t g2.pts,
      a.dist b ≤ c.eps * (1 + R) ∨
      ∃ p q r s : SP, gjk l c (shapesSupport c e1 e2 g1 tf1 g2 tf2) = .hit [p, q, r, s] ∧
        |((r.v - s.v).cross (q.v - s.v)).dot (p.v - s.v)| * a.dist b ≤ c.ceps * R := by
  have hsup := shapes_supports (tf1 := tf1) (tf2 := tf2) hc hbig h1 h2 r1 r2
  have hA := convex1 g1 tf1
  have hB := convex1 g2 tf2
  have hle : ∀ x ∈ Diff (Placed tf1.R tf1.t g1.pts) (Placed tf2.R tf2.t g2.pts), x.nrm ≤ R := by
    rintro x ⟨a, ha, b, hb, rfl⟩; rw [← V3.dist_eq]; exact hR a ha b hb
  unfold shapeDistance at h
  rcases Ccd.distance_cases hl he hc hA hB hsup hle hbR with e | ⟨s, eg, e⟩ | ⟨s, hs, e, hd⟩
  · rw [e] at h; simp at h
  · have hg := gjk_ok hl he hc hA hB hsup
    rw [eg] at hg
    rw [e] at h
    simp only [Option.some.injEq, Prod.mk.injEq] at h
    refine ⟨h.2.1.symm, ?_⟩
    have hpos : 0 ≤ c.eps * R := by
      obtain ⟨p, hp⟩ := List.exists_mem_of_ne_nil _ hg.1.2.1
      exact mul_nonneg he.le (le_trans (nrm_nonneg _) (hle _ (hg.1.1 p hp).diff))
    rcases hg.2 with ⟨x, hx, k⟩ | ⟨x, hx, b, hb, k⟩ | ⟨p, q, r, a, hs, k⟩
    · obtain ⟨a, ha, b, hb, rfl⟩ := hx
      exact ⟨a, ha, b, hb, Or.inl (by rw [V3.dist_eq]; linarith)⟩
    · obtain ⟨a', ha', b', hb', rfl⟩ := hx
      refine ⟨a', ha', b', hb', Or.inl ?_⟩
      have := mul_le_mul_of_nonneg_left (hle b hb) he.le
      rw [V3.dist_eq]; linarith
    · have hm : Made (Placed tf1.R tf1.t g1.pts) (Placed tf2.R tf2.t g2.pts) a := hg.1.1 a (by rw [hs]; simp)
      have haR := hle a.v hm.diff
      subst hs
      rcases k with k | ⟨x, hx, k⟩
      · refine ⟨a.v1, hm.1, a.v2, hm.2.1, Or.inr ⟨p, q, r, a, eg, ?_⟩⟩
        show |vol p.v q.v r.v a.v| * _ ≤ _
        have := hR _ hm.1 _ hm.2.1
        rw [V3.dist_eq] at this ⊢
        exact mul_le_mul k.le this (nrm_nonneg _) hc.le
      · obtain ⟨a', ha', b', hb', rfl⟩ := hx
        refine ⟨a', ha', b', hb', Or.inr ⟨p, q, r, a, eg, ?_⟩⟩
        show |vol p.v q.v r.v a.v| * _ ≤ _
        rw [V3.dist_eq, mul_comm]
        have h4 := mul_le_mul_of_nonneg_left haR hc.le
        linarith
  · rw [e] at h
    rcases e2 : Ccd.dist l c (shapesSupport c e1 e2 g1 tf1 g2 tf2) s with ⟨d', pts'⟩ | _ | _
    · rw [e2] at hd h
      obtain ⟨⟨x, hx, rfl⟩, -⟩ := hd
      simp [not_lt.2 (nrm_nonneg x)] at h
    · exact absurd e2 (Ccd.dist_minus hl hA hB hsup hle ht hit hs)
    · rw [e2] at h; simp at h

theorem Ccd.distance_ret (hl : l.Exact) (he : 0 < c.eps) (hc : 0 < c.ceps) (hbig : 0 < c.big) (h1 : tf1.Rigid) (h2 : tf2.Rigid)
    (r1 : g1.Ready e1) (r2 : g2.Ready e2) {R : ℝ}
    (hR : ∀ a ∈ Placed tf1.R tf1.t g1.pts, ∀ b ∈ Placed tf2.R tf2.t g2.pts, a.dist b ≤ R) (hbR : R < c.big) {d : ℝ}
    {pts : Option (V3 ℝ × V3 ℝ)} (h : shapeDistance l c e1 e2 g1 tf1 g2 tf2 = some (true, d, pts)) :
    DOutOk c R (Placed tf1.R tf1.t g1.pts) (Placed tf2.R tf2.t g2.pts) (.ret d pts) := by
  have hsup := shapes_supports (tf1 := tf1) (tf2 := tf2) hc hbig h1 h2 r1 r2
  have hle : ∀ x ∈ Diff (Placed tf1.R tf1.t g1.pts) (Placed tf2.R tf2.t g2.pts), x.nrm ≤ R := by
    rintro x ⟨a, ha, b, hb, rfl⟩; rw [← V3.dist_eq]; exact hR a ha b hb
  unfold shapeDistance at h
  rcases Ccd.distance_cases hl he hc (convex1 g1 tf1) (convex1 g2 tf2) hsup hle hbR with e | ⟨s, eg, e⟩ | ⟨s, hs, e, hd⟩
  · rw [e] at h; simp at h
  · rw [e] at h; simp at h
  · rw [e] at h
    rcases e2 : Ccd.dist l c (shapesSupport c e1 e2 g1 tf1 g2 tf2) s with ⟨d', pts'⟩ | _ | _
    · rw [e2] at hd h
      simp only [Option.some.injEq, Prod.mk.injEq] at h
      rw [← h.2.1, ← h.2.2]; exact hd
    · rw [e2] at h; simp at h
    · rw [e2] at h; simp at h

/-- C79: when the distance query of the default solver answers "yes", the distance is that of two points of the shapes. So it is
never less than the distance of the shapes. -/
theorem C79_upper (hl : l.Exact) (he : 0 < c.eps) (hc : 0 < c.ceps) (hbig : 0 < c.big) (h1 : tf1.Rigid) (h2 : tf2.Rigid)
    (r1 : g1.Ready e1) (r2 : g2.Ready e2) {R : ℝ}
    (hR : ∀ a ∈ Placed tf1.R tf1.t g1.pts, ∀ b ∈ Placed tf2.R tf2.t g2.pts, a.dist b ≤ R) (hbR : R < c.big) {d : ℝ} {pts : Option (V3 ℝ × V3 ℝ)}
    (h : shapeDistance l c e1 e2 g1 tf1 g2 tf2 = some (true, d, pts)) :
    (∃ a ∈ Placed tf1.R tf1.t g1.pts, ∃ b ∈ Placed tf2.R tf2.t g2.pts, a.dist b = d) ∧
    ∀ D p q, IsDist (Placed tf1.R tf1.t g1.pts) (Placed tf2.R tf2.t g2.pts) D p q → D ≤ d := by
  obtain ⟨⟨x, ⟨a, ha, b, hb, rfl⟩, hx⟩, -⟩ := Ccd.distance_ret hl he hc hbig h1 h2 r1 r2 hR hbR h
  rw [← V3.dist_eq] at hx
  exact ⟨⟨a, ha, b, hb, hx⟩, fun D p q hD => hx ▸ hD.least a ha b hb⟩

/-- C79 in part: the points that come with it are at that distance, up to machine epsilon `eps` relative to the size `R`. They
are points of the two shapes, or leave segments in the shapes by a part `σ` such that `σ` times the length of the difference of
the segments is at most `4 * eps * (1 + R)`. Missing: the last case can leave the shapes if that length is small, and the
points can be made from a variable that was never written (`pts = none`, see `C79_violated`). -/
theorem C79_points_partial (hl : l.Exact) (he : 0 < c.eps) (hc : 0 < c.ceps) (hbig : 0 < c.big) (h1 : tf1.Rigid) (h2 : tf2.Rigid)
    (r1 : g1.Ready e1) (r2 : g2.Ready e2) {R : ℝ}
    (hR : ∀ a ∈ Placed tf1.R tf1.t g1.pts, ∀ b ∈ Placed tf2.R tf2.t g2.pts, a.dist b ≤ R) (hbR : R < c.big) {d : ℝ} {p q : V3 ℝ}
    (h : shapeDistance l c e1 e2 g1 tf1 g2 tf2 = some (true, d, some (p, q))) :
    (p ∈ Placed tf1.R tf1.t g1.pts ∧ q ∈ Placed tf2.R tf2.t g2.pts ∧ |p.dist q - d| ≤ 2 * c.eps) ∨
    (∃ a ∈ Placed tf1.R tf1.t g1.pts, ∃ a' ∈ Placed tf1.R tf1.t g1.pts, ∃ b ∈ Placed tf2.R tf2.t g2.pts,
      ∃ b' ∈ Placed tf2.R tf2.t g2.pts, ∃ s σ : ℝ, -σ ≤ s ∧ s ≤ 1 + σ ∧ p = a + s • (a' - a) ∧ q = b + s • (b' - b) ∧
        c.eps ≤ (a - b).dist (a' - b') ∧ σ * (a - b).dist (a' - b') ≤ 4 * c.eps * (1 + R)) ∧
      |p.dist q - d| ≤ 6 * c.eps * (1 + R) :=
  (Ccd.distance_ret hl he hc hbig h1 h2 r1 r2 hR hbR h).2 _ rfl

/-- C80 in part: when the search for a common point ends because all of one shape is behind the other one in some direction, the
shapes have no common point (for cylinders, `CCD_EPS` times the size is left). Missing: the search also ends in other ways
without a common point, see `C80_violated_overlap`. -/
theorem C80_apart_partial (hl : l.Exact) (he : 0 < c.eps) (hc : 0 < c.ceps) (hbig : 0 < c.big) (h1 : tf1.Rigid) (h2 : tf2.Rigid)
    (r1 : g1.Ready e1) (r2 : g2.Ready e2) {s : List SP} {dir : V3 ℝ}
    (h : gjk l c (shapesSupport c e1 e2 g1 tf1 g2 tf2) = .apart s dir) :
    (∀ a ∈ Placed tf1.R tf1.t g1.pts, ∀ b ∈ Placed tf2.R tf2.t g2.pts, (a - b).dot dir < slack c.ceps g1 + slack c.ceps g2) ∧
    (slack c.ceps g1 + slack c.ceps g2 = 0 → ¬ Touch (Placed tf1.R tf1.t g1.pts) (Placed tf2.R tf2.t g2.pts)) := by
  have hsup := shapes_supports (tf1 := tf1) (tf2 := tf2) hc hbig h1 h2 r1 r2
  have hg := gjk_ok hl he hc (convex1 g1 tf1) (convex1 g2 tf2) hsup
  rw [h] at hg
  have key : ∀ a ∈ Placed tf1.R tf1.t g1.pts, ∀ b ∈ Placed tf2.R tf2.t g2.pts,
      (a - b).dot dir < slack c.ceps g1 + slack c.ceps g2 := fun a ha b hb => hg.2.2 _ ⟨a, ha, b, hb, rfl⟩
  refine ⟨key, ?_⟩
  rintro h0 ⟨p, hp, hq⟩
  have := key p hp p hq
  rw [h0, show p - p = (0 : V3 ℝ) by v3] at this
  simp [dot] at this

namespace Ccd

/-- The functions that are assumed of libccd exist. -/
theorem exists_nearest (P a b d : V3 ℝ) : ∃ w, HullOf [a, b, d] w ∧ ∀ x, HullOf [a, b, d] x → (w - P).dot (w - P) ≤ (x - P).dot (x - P) := by
  let f : (Fin 3 → ℝ) → V3 ℝ := fun u => u 0 • a + u 1 • b + u 2 • d
  let F : (Fin 3 → ℝ) → ℝ := fun u =>
    (u 0 * a.x + u 1 * b.x + u 2 * d.x - P.x) * (u 0 * a.x + u 1 * b.x + u 2 * d.x - P.x) +
    (u 0 * a.y + u 1 * b.y + u 2 * d.y - P.y) * (u 0 * a.y + u 1 * b.y + u 2 * d.y - P.y) +
    (u 0 * a.z + u 1 * b.z + u 2 * d.z - P.z) * (u 0 * a.z + u 1 * b.z + u 2 * d.z - P.z)
  have hF : ∀ u, F u = (f u - P).dot (f u - P) := by intro u; simp [F, f, dot]
  have hcont : Continuous F := by fun_prop
  obtain ⟨u, hu, hmin⟩ := (isCompact_stdSimplex ℝ (Fin 3)).exists_isMinOn ⟨_, single_mem_stdSimplex ℝ (0 : Fin 3)⟩ hcont.continuousOn
  refine ⟨f u, ?_, ?_⟩
  · have h0 := hu.1
    have h1 := hu.2
    rw [Fin.sum_univ_three] at h1
    have hc : ConvexSet {x | HullOf [a, b, d] x} := fun p hp q hq t t0 t1 => HullOf.seg t t0 t1 hp hq
    exact comb3 hc (HullOf.pt (by simp)) (HullOf.pt (by simp)) (HullOf.pt (by simp)) (h0 0) (h0 1) (h0 2) h1
  · intro x hx
    obtain ⟨v, w, v0, w0, vw, rfl⟩ := hull_three hx
    have hmem : (![1 - v - w, v, w] : Fin 3 → ℝ) ∈ stdSimplex ℝ (Fin 3) := by
      constructor
      · intro i
        fin_cases i
        · show 0 ≤ 1 - v - w; linarith
        · exact v0
        · exact w0
      · rw [Fin.sum_univ_three]
        show 1 - v - w + v + w = 1; ring
    have := hmin hmem
    rw [Set.mem_ofPred_eq, hF, hF] at this
    have e : f ![1 - v - w, v, w] = a + v • (b - a) + w • (d - a) := by
      show (1 - v - w) • a + v • b + w • d = _
      v3
    rwa [e] at this

theorem hull_pair {a b x : V3 ℝ} (h : HullOf [a, b, b] x) : HullOf [a, b] x := by
  induction h with
  | pt hp => exact .pt (by simpa using hp)
  | seg t h0 h1 _ _ ih1 ih2 => exact .seg t h0 h1 ih1 ih2

theorem pair_hull {a b x : V3 ℝ} (h : HullOf [a, b] x) : HullOf [a, b, b] x := by
  induction h with
  | pt hp => exact .pt (by simpa using hp)
  | seg t h0 h1 _ _ ih1 ih2 => exact .seg t h0 h1 ih1 ih2

/-- Functions as they are assumed of libccd. -/
noncomputable def exactLib : Lib where
  tri P a b d := (((exists_nearest P a b d).choose - P).dot ((exists_nearest P a b d).choose - P), (exists_nearest P a b d).choose)
  seg P a b := (((exists_nearest P a b b).choose - P).dot ((exists_nearest P a b b).choose - P), (exists_nearest P a b b).choose)
  eq _ _ := false

theorem exactLib_exact : exactLib.Exact where
  tri_mem P a b d := (exists_nearest P a b d).choose_spec.1
  tri_val _ _ _ _ := rfl
  tri_min P a b d := (exists_nearest P a b d).choose_spec.2
  seg_mem P a b := hull_pair (exists_nearest P a b b).choose_spec.1
  seg_val _ _ _ := rfl
  seg_min P a b x hx := (exists_nearest P a b b).choose_spec.2 x (pair_hull hx)

/-- The result of the functions of libccd is determined: the point that has all corners in front of it. -/
theorem hull_front {L : List (V3 ℝ)} {y w : V3 ℝ} (hf : ∀ v ∈ L, 0 ≤ y.dot (v - y)) (hw : HullOf L w) (hm : w.dot w ≤ y.dot y) : w = y := by
  have h1 : 0 ≤ y.dot (w - y) := by
    have : ∀ x, HullOf L x → y.dot y ≤ y.dot x := by
      intro x hx
      induction hx with
      | pt hp =>
        have := hf _ hp
        rw [dot_sub] at this; linarith
      | seg t h0 h1 _ _ ih1 ih2 =>
        rw [dot_add, dot_smul, dot_smul]
        exact le_mean (by linarith) h0 (by ring) ih1 ih2
    have := this w hw
    rw [dot_sub]; linarith
  have e : (w - y).dot (w - y) = w.dot w - y.dot y - 2 * y.dot (w - y) := by simp [dot]; ring
  have h0 : (w - y).dot (w - y) = 0 := le_antisymm (by rw [e]; linarith) (dot_self_nonneg _)
  have h2 := dot_self_eq_zero h0
  rw [show w = (w - y) + y by v3, h2]; v3

theorem tri_eq {l : Lib} (hl : l.Exact) {a b d y : V3 ℝ} (hy : HullOf [a, b, d] y) (hf : ∀ v ∈ [a, b, d], 0 ≤ y.dot (v - y)) :
    l.tri 0 a b d = (y.dot y, y) := by
  have z : ∀ x : V3 ℝ, x - 0 = x := fun x => by v3
  have hm := hl.tri_min 0 a b d y hy
  have hv := hl.tri_val 0 a b d
  rw [z] at hm hv
  have e := hull_front hf (hl.tri_mem 0 a b d) (by rw [← hv]; exact hm)
  rw [e] at hv
  exact Prod.ext hv e

theorem seg_eq {l : Lib} (hl : l.Exact) {a b y : V3 ℝ} (hy : HullOf [a, b] y) (hf : ∀ v ∈ [a, b], 0 ≤ y.dot (v - y)) :
    l.seg 0 a b = (y.dot y, y) := by
  have z : ∀ x : V3 ℝ, x - 0 = x := fun x => by v3
  have hm := hl.seg_min 0 a b y hy
  have hv := hl.seg_val 0 a b
  rw [z] at hm hv
  have e := hull_front hf (hl.seg_mem 0 a b) (by rw [← hv]; exact hm)
  rw [e] at hv
  exact Prod.ext hv e

/-- The support function of two boxes that are not rotated. -/
theorem boxes_support (c : Cfg) (e1 e2 : V3 ℝ → Option (V3 ℝ)) (s1 s2 t d : V3 ℝ) :
    shapesSupport c e1 e2 (.box s1) Pose.id (.box s2) ⟨M3.one, t⟩ d =
      some ⟨box s1 d - (box s2 (-d) + t), box s1 d, box s2 (-d) + t⟩ := by
  have e : ∀ v : V3 ℝ, (M3.one : M3 ℝ).tr.mulVec v = v := fun v => M3.one_mulVec v
  have h1 : support c.ceps c.big e1 (.box s1) Pose.id d = some (box s1 d) := by
    show some ((Pose.id : Pose ℝ).apply (box s1 ((M3.one : M3 ℝ).tr.mulVec d))) = _
    rw [Pose.id_apply, e]
  have h2 : support c.ceps c.big e2 (.box s2) ⟨M3.one, t⟩ (-d) = some (box s2 (-d) + t) := by
    show some ((M3.one : M3 ℝ).mulVec (box s2 ((M3.one : M3 ℝ).tr.mulVec (-d))) + t) = _
    rw [M3.one_mulVec, e]
  unfold shapesSupport pairSupport
  rw [h1, h2]; rfl

/-- The support point of a box depends on the signs only. -/
theorem box_scale {k : ℝ} (hk : 0 < k) (s d : V3 ℝ) : box s (k • d) = box s d := by
  have e : ∀ x : ℝ, (k * x ≥ 0) = (x ≥ 0) := fun x => propext ⟨fun h => nonneg_of_mul_nonneg_right h hk, fun h => mul_nonneg hk.le h⟩
  simp only [box, smul_x, smul_y, smul_z, e]

theorem boxes_scale (c : Cfg) (e1 e2 : V3 ℝ → Option (V3 ℝ)) (s1 s2 t d : V3 ℝ) {k : ℝ} (hk : 0 < k) :
    shapesSupport c e1 e2 (.box s1) Pose.id (.box s2) ⟨M3.one, t⟩ (k • d) =
      shapesSupport c e1 e2 (.box s1) Pose.id (.box s2) ⟨M3.one, t⟩ d := by
  rw [boxes_support, boxes_support, show -(k • d) = k • (-d) by v3, box_scale hk, box_scale hk]

theorem boxes_normalized (c : Cfg) (e1 e2 : V3 ℝ → Option (V3 ℝ)) (s1 s2 t d : V3 ℝ) :
    shapesSupport c e1 e2 (.box s1) Pose.id (.box s2) ⟨M3.one, t⟩ d.normalized =
      shapesSupport c e1 e2 (.box s1) Pose.id (.box s2) ⟨M3.one, t⟩ d := by
  unfold normalized
  split
  · rfl
  · rename_i h
    have : 0 < d.nrm := lt_of_le_of_ne (nrm_nonneg d) (Ne.symm h)
    exact boxes_scale c e1 e2 s1 s2 t d (by positivity)

end Ccd

/-- C80 does not hold: two boxes of unit thickness, side by side at the distance 4. The query of the default solver gives
`sqrt (145 / 4)`, more than 6. The search ends with one corner of the difference, and the next corner is as far from the
origin, which is taken for the end of the progress. This is so for every tolerance and all functions of libccd. -/
theorem C80_violated_distance (l : Lib) (e1 e2 : V3 ℝ → Option (V3 ℝ)) {c : Cfg} (ht : 0 < c.tol) (hn : 1 ≤ c.maxIter) (hbig : 100 + c.tol ≤ c.big) :
    shapeDistance l c e1 e2 (.box ⟨1, 5, 2⟩) Pose.id (.box ⟨1, 4, 2⟩) ⟨M3.one, ⟨-5, 0, 0⟩⟩ =
        some (true, Real.sqrt (145 / 4), some (⟨1 / 2, 5 / 2, 1⟩, ⟨-11 / 2, 2, 1⟩)) ∧
      IsDist (Placed (Pose.id : Pose ℝ).R (Pose.id : Pose ℝ).t (Geo.box ⟨1, 5, 2⟩ : Geo ℝ).pts)
        (Placed (M3.one : M3 ℝ) ⟨-5, 0, 0⟩ (Geo.box ⟨1, 4, 2⟩ : Geo ℝ).pts) 4 ⟨-1 / 2, 0, 0⟩ ⟨-9 / 2, 0, 0⟩ ∧
      6 < Real.sqrt (145 / 4) := by
  have h6 : (6 : ℝ) < Real.sqrt (145 / 4) := by
    rw [show (6 : ℝ) = Real.sqrt 36 by rw [show (36 : ℝ) = 6 * 6 by norm_num]; exact (Real.sqrt_mul_self (by norm_num)).symm]
    exact Real.sqrt_lt_sqrt (by norm_num) (by norm_num)
  have h100 : Real.sqrt (145 / 4) ≤ 100 := by
    rw [Real.sqrt_le_left (by norm_num)]; norm_num
  refine ⟨?_, ?_, h6⟩
  · let sup := shapesSupport c e1 e2 (.box ⟨1, 5, 2⟩) Pose.id (.box ⟨1, 4, 2⟩) ⟨M3.one, ⟨-5, 0, 0⟩⟩
    let P0 : SP := ⟨⟨6, 1 / 2, 0⟩, ⟨1 / 2, 5 / 2, 1⟩, ⟨-11 / 2, 2, 1⟩⟩
    let P1 : SP := ⟨⟨4, -9 / 2, 0⟩, ⟨-1 / 2, -5 / 2, 1⟩, ⟨-9 / 2, 2, 1⟩⟩
    have s0 : sup ⟨1, 0, 0⟩ = some P0 := by
      show shapesSupport _ _ _ _ _ _ _ _ = _
      rw [boxes_support]
      simp only [Option.some.injEq, P0, SP.mk.injEq]
      refine ⟨?_, ?_, ?_⟩ <;> apply V3.ext' <;> norm_num [box]
    have s1 : sup (-P0.v) = some P1 := by
      show shapesSupport _ _ _ _ _ _ _ _ = _
      rw [boxes_support]
      simp only [Option.some.injEq, P0, P1, SP.mk.injEq]
      refine ⟨?_, ?_, ?_⟩ <;> apply V3.ext' <;> norm_num [box]
    have s2 : sup (-P0.v).normalized = some P1 := by
      rw [← s1]; exact boxes_normalized _ _ _ _ _ _ _
    obtain ⟨n, hn'⟩ : ∃ n, c.maxIter = n + 1 := ⟨c.maxIter - 1, by omega⟩
    have hg : gjk l c sup = .apart [P0] (-P0.v) := by
      unfold gjk
      rw [s0]
      simp only [hn', gjkLoop, s1]
      rw [if_pos (by norm_num [dot, P0, P1])]
    have q0 : Real.sqrt (P0.v.dot P0.v) = Real.sqrt (145 / 4) := by congr 1; norm_num [dot, P0]
    have q1 : Real.sqrt (P1.v.dot P1.v) = Real.sqrt (145 / 4) := by congr 1; norm_num [dot, P1]
    have hd : Ccd.dist l c sup [P0] = .ret (Real.sqrt (145 / 4)) (some (⟨1 / 2, 5 / 2, 1⟩, ⟨-11 / 2, 2, 1⟩)) := by
      have hp0 : P0.v ≠ 0 := by
        intro h
        have := congrArg V3.x h
        norm_num [P0] at this
      unfold Ccd.dist
      rw [hn', distLoop]
      simp only [nearest, q0]
      rw [if_neg (by linarith), if_neg hp0, s2]
      simp only [q1]
      rw [if_pos (by rw [_root_.sub_self, abs_zero]; exact ht)]
      rfl
    have : gjkDist l c sup = .ret (Real.sqrt (145 / 4)) (some (⟨1 / 2, 5 / 2, 1⟩, ⟨-11 / 2, 2, 1⟩)) := by
      unfold gjkDist; rw [hg]; exact hd
    unfold shapeDistance
    rw [this]
    show some (!decide (Real.sqrt (145 / 4) < 0), _, _) = _
    rw [decide_eq_false (not_lt.2 (Real.sqrt_nonneg _))]; rfl
  · refine ⟨⟨⟨-1 / 2, 0, 0⟩, ?_, ?_⟩, ⟨⟨1 / 2, 0, 0⟩, ?_, ?_⟩, ?_, ?_⟩
    · refine ⟨⟨?_, ?_⟩, ⟨?_, ?_⟩, ⟨?_, ?_⟩⟩ <;> norm_num
    · show _ = (Pose.id : Pose ℝ).apply _
      rw [Pose.id_apply]
    · refine ⟨⟨?_, ?_⟩, ⟨?_, ?_⟩, ⟨?_, ?_⟩⟩ <;> norm_num
    · rw [M3.one_mulVec]; apply V3.ext' <;> norm_num
    · rw [V3.dist_eq]
      exact nrm_unique (by norm_num) (by norm_num [dot])
    · rintro _ ⟨a, ⟨⟨ha, -⟩, -⟩, rfl⟩ _ ⟨b, ⟨⟨-, hb⟩, -⟩, rfl⟩
      have ha' : -(1 / 2 : ℝ) ≤ a.x := ha
      have hb' : b.x ≤ (1 / 2 : ℝ) := hb
      have ex : 4 ≤ (((Pose.id : Pose ℝ).R.mulVec a + (Pose.id : Pose ℝ).t) - ((M3.one : M3 ℝ).mulVec b + ⟨-5, 0, 0⟩)).x := by
        have : (Pose.id : Pose ℝ).R.mulVec a + (Pose.id : Pose ℝ).t = a := Pose.id_apply a
        rw [this, M3.one_mulVec]
        simp only [sub_x, add_x]; linarith
      rw [V3.dist_eq]
      refine le_trans ex ?_
      refine le_trans (le_abs_self _) (abs_le_of_sq_le_sq ?_ (nrm_nonneg _))
      rw [sq, sq, nrm_mul_self]
      simp only [dot]
      nlinarith [mul_self_nonneg (((Pose.id : Pose ℝ).R.mulVec a + (Pose.id : Pose ℝ).t) - ((M3.one : M3 ℝ).mulVec b + ⟨-5, 0, 0⟩)).y,
        mul_self_nonneg (((Pose.id : Pose ℝ).R.mulVec a + (Pose.id : Pose ℝ).t) - ((M3.one : M3 ℝ).mulVec b + ⟨-5, 0, 0⟩)).z]

/-- C79 does not hold: the points for two boxes at the distance 1 are made from a variable that was never written. The
refinement has found the nearest triangle; the next corner is one of its own, no triangle with it is better, and the
nearest point of this iteration is not set. -/
theorem C79_violated (hl : l.Exact) (e1 e2 : V3 ℝ → Option (V3 ℝ)) {c : Cfg} (ht : 0 < c.tol) (ht1 : c.tol ≤ 1) (hn : 4 ≤ c.maxIter)
    (hbig : 100 ≤ c.big) :
    shapeDistance l c e1 e2 (.box ⟨2, 4, 6⟩) Pose.id (.box ⟨2, 6, 2⟩) ⟨M3.one, ⟨2, -1, -5⟩⟩ = some (true, 1, none) := by
  let sup := shapesSupport c e1 e2 (.box ⟨2, 4, 6⟩) Pose.id (.box ⟨2, 6, 2⟩) ⟨M3.one, ⟨2, -1, -5⟩⟩
  let P0 : SP := ⟨⟨0, 0, 7⟩, ⟨1, 2, 3⟩, ⟨1, 2, -4⟩⟩
  let P1 : SP := ⟨⟨-2, 0, 1⟩, ⟨1, 2, -3⟩, ⟨3, 2, -4⟩⟩
  let P2 : SP := ⟨⟨0, 0, 1⟩, ⟨1, 2, -3⟩, ⟨1, 2, -4⟩⟩
  have s0 : sup ⟨1, 0, 0⟩ = some P0 := by
    show shapesSupport _ _ _ _ _ _ _ _ = _
    rw [boxes_support]
    simp only [Option.some.injEq, P0, SP.mk.injEq]
    refine ⟨?_, ?_, ?_⟩ <;> apply V3.ext' <;> norm_num [box]
  have s1 : sup (-P0.v) = some P1 := by
    show shapesSupport _ _ _ _ _ _ _ _ = _
    rw [boxes_support]
    simp only [Option.some.injEq, P0, P1, SP.mk.injEq]
    refine ⟨?_, ?_, ?_⟩ <;> apply V3.ext' <;> norm_num [box]
  have s2 : sup (-P1.v) = some P2 := by
    show shapesSupport _ _ _ _ _ _ _ _ = _
    rw [boxes_support]
    simp only [Option.some.injEq, P1, P2, SP.mk.injEq]
    refine ⟨?_, ?_, ?_⟩ <;> apply V3.ext' <;> norm_num [box]
  have s3 : sup (-P2.v) = some P1 := by
    show shapesSupport _ _ _ _ _ _ _ _ = _
    rw [boxes_support]
    simp only [Option.some.injEq, P1, P2, SP.mk.injEq]
    refine ⟨?_, ?_, ?_⟩ <;> apply V3.ext' <;> norm_num [box]
  have nz : ∀ d, sup d.normalized = sup d := fun d => boxes_normalized _ _ _ _ _ _ _
  obtain ⟨n, hn'⟩ : ∃ n, c.maxIter = n + 1 + 1 + 1 + 1 := ⟨c.maxIter - 4, by omega⟩
  have hg : gjk l c sup = .apart [P0] (-P0.v) := by
    unfold gjk
    rw [s0]
    simp only [hn', gjkLoop, s1]
    rw [if_pos (by norm_num [dot, P0, P1])]
  have q0 : Real.sqrt (P0.v.dot P0.v) = 7 := by
    rw [show P0.v.dot P0.v = 7 * 7 by norm_num [dot, P0]]; exact Real.sqrt_mul_self (by norm_num)
  have q1 : Real.sqrt (P1.v.dot P1.v) = Real.sqrt 5 := by congr 1; norm_num [dot, P1]
  have q2 : Real.sqrt (P2.v.dot P2.v) = 1 := by
    rw [show P2.v.dot P2.v = 1 * 1 by norm_num [dot, P2]]; exact Real.sqrt_mul_self (by norm_num)
  have r5 : (2 : ℝ) ≤ Real.sqrt 5 ∧ Real.sqrt 5 ≤ 3 := by
    constructor
    · rw [show (2 : ℝ) = Real.sqrt (2 * 2) from (Real.sqrt_mul_self (by norm_num)).symm]
      exact Real.sqrt_le_sqrt (by norm_num)
    · rw [Real.sqrt_le_left (by norm_num)]; norm_num
  have n0 : P0.v ≠ 0 := by intro h; have := congrArg V3.z h; norm_num [P0] at this
  have n1 : P1.v ≠ 0 := by intro h; have := congrArg V3.z h; norm_num [P1] at this
  have n2 : P2.v ≠ 0 := by intro h; have := congrArg V3.z h; norm_num [P2] at this
  have t1 : l.seg 0 P0.v P1.v = (P1.v.dot P1.v, P1.v) :=
    seg_eq hl (.pt (by simp)) (by simp only [List.mem_cons, List.not_mem_nil, or_false, forall_eq_or_imp, forall_eq]
                                  refine ⟨?_, ?_⟩ <;> norm_num [dot, P0, P1])
  have t2 : l.tri 0 P0.v P1.v P2.v = (P2.v.dot P2.v, P2.v) :=
    tri_eq hl (.pt (by simp)) (by simp only [List.mem_cons, List.not_mem_nil, or_false, forall_eq_or_imp, forall_eq]
                                  refine ⟨?_, ?_, ?_⟩ <;> norm_num [dot, P0, P1, P2])
  have t3 : l.tri 0 P1.v P1.v P2.v = (P2.v.dot P2.v, P2.v) :=
    tri_eq hl (.pt (by simp)) (by simp only [List.mem_cons, List.not_mem_nil, or_false, forall_eq_or_imp, forall_eq]
                                  refine ⟨?_, ?_, ?_⟩ <;> norm_num [dot, P1, P2])
  have t4 : l.tri 0 P0.v P1.v P1.v = (P1.v.dot P1.v, P1.v) :=
    tri_eq hl (.pt (by simp)) (by simp only [List.mem_cons, List.not_mem_nil, or_false, forall_eq_or_imp, forall_eq]
                                  refine ⟨?_, ?_, ?_⟩ <;> norm_num [dot, P0, P1])
  have hr : reduce l P0 P1 P2 P1 1 = ([P0, P1, P2], 1, none) := by
    have a0 : reduceTry l P0 P1 P2 P1 0 = (P2.v.dot P2.v, P2.v) := t3
    have a1 : reduceTry l P0 P1 P2 P1 1 = (P2.v.dot P2.v, P2.v) := t2
    have a2 : reduceTry l P0 P1 P2 P1 2 = (P1.v.dot P1.v, P1.v) := t4
    have hf : [0, 1, 2].foldl (reduceStep l P0 P1 P2 P1) (1, 3, none) = (1, 3, none) := by
      simp only [List.foldl_cons, List.foldl_nil, reduceStep, a0, a1, a2, q1, q2]
      rw [if_neg (by norm_num), if_neg (by norm_num), if_neg (by push Not; show (1 : ℝ) ≤ _; linarith [r5.1])]
    unfold reduce
    rw [hf]; rfl
  have hd : Ccd.dist l c sup [P0] = .ret 1 none := by
    unfold Ccd.dist
    rw [hn', distLoop]
    simp only [nearest, q0]
    rw [if_neg (by linarith), if_neg n0, nz, s1]
    simp only [q1]
    rw [if_neg (by rw [abs_of_nonneg (by linarith [r5.2])]; linarith [r5.2]), distLoop]
    simp only [List.cons_append, List.nil_append, nearest, t1, q1]
    rw [if_neg (by linarith [r5.2]), if_neg n1, nz, s2]
    simp only [q2]
    rw [if_neg (by rw [abs_of_nonneg (by linarith [r5.1])]; linarith [r5.1]), distLoop]
    simp only [List.cons_append, List.nil_append, nearest, t2, q2]
    rw [if_neg (by linarith [r5.1]), if_neg n2, nz, s3]
    simp only [q1]
    rw [if_neg (by rw [abs_sub_comm, abs_of_nonneg (by linarith [r5.1])]; linarith [r5.1]), distLoop]
    simp only [List.cons_append, List.nil_append, nearest, hr]
    rw [if_pos (by rw [_root_.sub_self]; exact ht)]
    rfl
  have : gjkDist l c sup = .ret 1 none := by
    unfold gjkDist; rw [hg]; exact hd
  unfold shapeDistance
  rw [this]
  show some (!decide ((1 : ℝ) < 0), _, _) = _
  rw [decide_eq_false (by norm_num)]; rfl

theorem Ccd.box_ready (e : V3 ℝ → Option (V3 ℝ)) {s : V3 ℝ} (h : 0 ≤ s.x ∧ 0 ≤ s.y ∧ 0 ≤ s.z) : (Geo.box s : Geo ℝ).Ready e where
  bounded := trivial
  wf := h
  ellipsoid := by intro s h; cases h
  cone := by intro r lz h; cases h
  convex := by intro vs h; cases h

namespace Ccd.Small

/-- Two small boxes that overlap. -/
noncomputable def sup (c : Cfg) (e1 e2 : V3 ℝ → Option (V3 ℝ)) (s : ℝ) : V3 ℝ → Option SP :=
  shapesSupport c e1 e2 (.box ⟨2 * s, 2 * s, 2 * s⟩) Pose.id (.box ⟨6 * s, 8 * s, 2 * s⟩) ⟨M3.one, ⟨-3 * s, 0, s⟩⟩

noncomputable def P0 (s : ℝ) : SP := ⟨⟨7 * s, -3 * s, -s⟩, ⟨s, s, s⟩, ⟨-6 * s, 4 * s, 2 * s⟩⟩
noncomputable def P1 (s : ℝ) : SP := ⟨⟨-s, 5 * s, s⟩, ⟨-s, s, s⟩, ⟨0, -4 * s, 0⟩⟩
noncomputable def P2 (s : ℝ) : SP := ⟨⟨-s, -5 * s, -3 * s⟩, ⟨-s, -s, -s⟩, ⟨0, 4 * s, 2 * s⟩⟩

theorem sup0 (c : Cfg) (e1 e2 : V3 ℝ → Option (V3 ℝ)) (s : ℝ) : sup c e1 e2 s ⟨1, 0, 0⟩ = some (P0 s) := by
  unfold sup
  rw [boxes_support]
  simp only [Option.some.injEq, P0, SP.mk.injEq]
  refine ⟨?_, ?_, ?_⟩ <;> apply V3.ext' <;> norm_num [box] <;> ring

theorem sup1 (c : Cfg) (e1 e2 : V3 ℝ → Option (V3 ℝ)) {s : ℝ} (hs : 0 < s) : sup c e1 e2 s (-(P0 s).v) = some (P1 s) := by
  unfold sup
  rw [show -(P0 s).v = s • (⟨-7, 3, 1⟩ : V3 ℝ) by apply V3.ext' <;> simp [P0] <;> ring, boxes_scale _ _ _ _ _ _ _ hs, boxes_support]
  simp only [Option.some.injEq, P1, SP.mk.injEq]
  refine ⟨?_, ?_, ?_⟩ <;> apply V3.ext' <;> norm_num [box] <;> ring

theorem sup2 (c : Cfg) (e1 e2 : V3 ℝ → Option (V3 ℝ)) (s : ℝ) {k : ℝ} (hk : 0 < k) :
    sup c e1 e2 s (k • (⟨-268, -260, -32⟩ : V3 ℝ)) = some (P2 s) := by
  unfold sup
  rw [boxes_scale _ _ _ _ _ _ _ hk, boxes_support]
  simp only [Option.some.injEq, P2, SP.mk.injEq]
  refine ⟨?_, ?_, ?_⟩ <;> apply V3.ext' <;> norm_num [box] <;> ring

theorem normal (s : ℝ) : (P0 s).v.cross ((P0 s).v - (P1 s).v) = (s * s) • (⟨-2, 6, -32⟩ : V3 ℝ) := by
  apply V3.ext' <;> simp [P0, P1, cross] <;> ring

/-- The first step goes on with two points, in a direction of the length of the segment. -/
theorem step1 {c : Cfg} (he : 0 < c.eps) (he1 : c.eps ≤ 1 / 10) {s : ℝ} (hs : 0 < s) :
    ∃ k : ℝ, 0 < k ∧ doSimplex2 c (P0 s) (P1 s) = .go [P0 s, P1 s] (k • (⟨-268, -260, -32⟩ : V3 ℝ)) ∧ k * k * 140448 = 132 * (s * s) := by
  have hn : (P0 s).v.cross ((P0 s).v - (P1 s).v) ≠ 0 := by
    rw [normal]
    intro h
    have := congrArg V3.x h
    simp [hs.ne'] at this
  have hpos := nrm_pos hn
  have hsq := nrm_mul_self ((P0 s).v.cross ((P0 s).v - (P1 s).v))
  have hd : ((P0 s).v.cross ((P0 s).v - (P1 s).v)).dot ((P0 s).v.cross ((P0 s).v - (P1 s).v)) = 1064 * (s * s * (s * s)) := by
    rw [normal]; simp [dot]; ring
  obtain ⟨m, hm⟩ : ∃ m, m = ((P0 s).v.cross ((P0 s).v - (P1 s).v)).nrm := ⟨_, rfl⟩
  rw [← hm] at hpos hsq
  rw [hd] at hsq
  refine ⟨1 / m * (s * s * s), by positivity, ?_, ?_⟩
  · unfold doSimplex2
    simp only
    have hlt : ¬ ((P0 s).v.cross ((P0 s).v - (P1 s).v)).dot ((P0 s).v.cross ((P0 s).v - (P1 s).v)) <
        ((P0 s).v - (P1 s).v).dot ((P0 s).v - (P1 s).v) * (P0 s).v.dot (P0 s).v * c.eps * c.eps := by
      rw [hd, show ((P0 s).v - (P1 s).v).dot ((P0 s).v - (P1 s).v) * (P0 s).v.dot (P0 s).v = 7788 * (s * s * (s * s)) by
        simp [P0, P1, dot]; ring]
      push Not
      have h4 : 0 < s * s * (s * s) := by positivity
      have : c.eps * c.eps ≤ 1 / 100 := by nlinarith
      nlinarith
    rw [if_neg hlt]
    congr 1
    rw [normalized, ← hm, if_neg hpos.ne', normal]
    apply V3.ext' <;> simp [P0, P1, cross] <;> ring
  · have : m ≠ 0 := hpos.ne'
    field_simp
    nlinarith

/-- The search stops without a common point. -/
theorem stuck {l : Lib} (hl : l.Exact) (e1 e2 : V3 ℝ → Option (V3 ℝ)) {c : Cfg} (he : 0 < c.eps) (he1 : c.eps ≤ 1 / 10) {s : ℝ} (hs : 0 < s)
    (h1 : 2 * c.eps ≤ s) (h2 : s ≤ 1 / 10) (h3 : 3792 * s ^ 4 < c.ceps) (h4 : c.ceps ≤ 132 * s ^ 2) (hn : 2 ≤ c.maxIter) :
    ∃ r, gjk l c (sup c e1 e2 s) = .stuck r := by
  obtain ⟨n, hn'⟩ : ∃ n, c.maxIter = n + 1 + 1 := ⟨c.maxIter - 2, by omega⟩
  obtain ⟨k, hk, hs2, hkk⟩ := step1 he he1 hs
  -- the triangle does not touch the origin
  have ht : tiny c (l.tri 0 (P2 s).v (P1 s).v (P0 s).v).1 = false := by
    have hw := hl.tri_mem 0 (P2 s).v (P1 s).v (P0 s).v
    have hv := hl.tri_val 0 (P2 s).v (P1 s).v (P0 s).v
    generalize l.tri 0 (P2 s).v (P1 s).v (P0 s).v = r at hw hv
    rw [show r.2 - 0 = r.2 by v3] at hv
    have hp : 12 * r.2.x + 32 * r.2.y - 80 * r.2.z = 68 * s := by
      have : ∀ x, HullOf [(P2 s).v, (P1 s).v, (P0 s).v] x → 12 * x.x + 32 * x.y - 80 * x.z = 68 * s := by
        intro x hx
        induction hx with
        | pt hp =>
          simp only [List.mem_cons, List.not_mem_nil, or_false] at hp
          rcases hp with rfl | rfl | rfl <;> simp [P0, P1, P2] <;> ring
        | seg t _ _ _ _ ih1 ih2 =>
          simp only [add_x, add_y, add_z, smul_x, smul_y, smul_z]
          linear_combination (1 - t) * ih1 + t * ih2
      exact this _ hw
    have hge : c.eps * c.eps ≤ r.1 := by
      rw [hv]
      simp only [dot]
      have e1 : c.eps * c.eps ≤ s * s / 4 := by nlinarith
      nlinarith [mul_self_nonneg (12 * r.2.y - 32 * r.2.x), mul_self_nonneg (12 * r.2.z + 80 * r.2.x),
        mul_self_nonneg (32 * r.2.z + 80 * r.2.y), congrArg (fun x => x * x) hp]
    simp only [tiny, decide_eq_false_iff_not, not_lt]
    exact le_trans hge (le_abs_self _)
  have hz : isZero c.ceps ((k • (⟨-268, -260, -32⟩ : V3 ℝ)).dot (k • (⟨-268, -260, -32⟩ : V3 ℝ))) = false := by
    have : (k • (⟨-268, -260, -32⟩ : V3 ℝ)).dot (k • (⟨-268, -260, -32⟩ : V3 ℝ)) = 132 * s ^ 2 := by
      rw [show 132 * s ^ 2 = 132 * (s * s) by ring, ← hkk]
      simp [dot]; ring
    rw [this]
    simp only [isZero, decide_eq_false_iff_not, not_lt]
    exact le_trans h4 (le_abs_self _)
  have h0 : 0 < c.ceps := lt_of_le_of_lt (by positivity) h3
  -- the second step
  have step2 : (∃ r, doSimplex3 l c (P0 s) (P1 s) (P2 s) = .stuck r) ∨
      ∃ r d, doSimplex3 l c (P0 s) (P1 s) (P2 s) = .go r d ∧ isZero c.ceps (d.dot d) = true := by
    unfold doSimplex3
    rw [ht]
    simp only [Bool.false_eq_true, if_false]
    by_cases hq : (l.eq (P2 s).v (P1 s).v || l.eq (P2 s).v (P0 s).v) = true
    · rw [if_pos hq]; exact Or.inl ⟨_, rfl⟩
    · rw [if_neg hq]
      have u1 : upZero c (((((P1 s).v - (P2 s).v).cross ((P0 s).v - (P2 s).v)).cross ((P0 s).v - (P2 s).v)).dot (-(P2 s).v)) = true := by
        have : ((((P1 s).v - (P2 s).v).cross ((P0 s).v - (P2 s).v)).cross ((P0 s).v - (P2 s).v)).dot (-(P2 s).v) = -(3792 * s ^ 4) := by
          simp [P0, P1, P2, cross, dot]; ring
        rw [this]
        simp only [upZero, isZero, Bool.or_eq_true, decide_eq_true_eq]
        left
        rw [abs_neg, abs_of_nonneg (by positivity)]; exact h3
      have u2 : upZero c (((P0 s).v - (P2 s).v).dot (-(P2 s).v)) = true := by
        have : ((P0 s).v - (P2 s).v).dot (-(P2 s).v) = 24 * s ^ 2 := by simp [P0, P2, dot]; ring
        rw [this]
        simp only [upZero, Bool.or_eq_true, decide_eq_true_eq]
        right; positivity
      rw [if_pos u1, if_pos u2]
      refine Or.inr ⟨_, _, rfl, ?_⟩
      have : (tripleCross ((P0 s).v - (P2 s).v) (-(P2 s).v) ((P0 s).v - (P2 s).v)).dot
          (tripleCross ((P0 s).v - (P2 s).v) (-(P2 s).v) ((P0 s).v - (P2 s).v)) = 139968 * s ^ 6 := by
        simp [tripleCross, P0, P2, cross, dot]; ring
      rw [this]
      simp only [isZero, decide_eq_true_eq]
      rw [abs_of_nonneg (by positivity)]
      have hs2 : s ^ 2 ≤ 1 / 100 := by nlinarith
      have hs4 : 0 < s ^ 4 := by positivity
      have : s ^ 6 = s ^ 4 * s ^ 2 := by ring
      nlinarith
  have hdot1 : ¬ (P1 s).v.dot (-(P0 s).v) < 0 := by
    have : (P1 s).v.dot (-(P0 s).v) = 23 * s ^ 2 := by simp [P0, P1, dot]; ring
    rw [this, not_lt]; positivity
  have hdot2 : ¬ (P2 s).v.dot (k • (⟨-268, -260, -32⟩ : V3 ℝ)) < 0 := by
    have : (P2 s).v.dot (k • (⟨-268, -260, -32⟩ : V3 ℝ)) = 1664 * (k * s) := by simp [P2, dot]; ring
    rw [this, not_lt]; positivity
  unfold gjk
  rw [sup0]
  simp only [hn']
  rw [gjkLoop, sup1 c e1 e2 hs]
  simp only
  rw [if_neg hdot1]
  show ∃ r, (match doSimplex2 c (P0 s) (P1 s) with
    | .inside s' => Out.hit s'
    | .stuck s' => Out.stuck s'
    | .go s' dir' => if isZero c.ceps (dir'.dot dir') then Out.stuck s' else gjkLoop l c (sup c e1 e2 s) (n + 1) s' dir') = .stuck r
  rw [hs2]
  simp only [hz, Bool.false_eq_true, if_false]
  rw [gjkLoop, sup2 c e1 e2 s hk]
  simp only
  rw [if_neg hdot2]
  show ∃ r, (match doSimplex3 l c (P0 s) (P1 s) (P2 s) with
    | .inside s' => Out.hit s'
    | .stuck s' => Out.stuck s'
    | .go s' dir' => if isZero c.ceps (dir'.dot dir') then Out.stuck s' else gjkLoop l c (sup c e1 e2 s) n s' dir') = .stuck r
  rcases step2 with ⟨r, h⟩ | ⟨r, d, h, h'⟩
  · rw [h]; exact ⟨r, rfl⟩
  · rw [h]; simp only [h', if_true]; exact ⟨r, rfl⟩

end Ccd.Small

/-- C80 does not hold: two boxes of the size `s` that overlap are not found to, if `s` is small: with `CCD_EPS` at `2e-16`, for
`s` between `1e-8` and `1e-5`. The direction of the search has a length of the order of the cube of the size, which is taken
for zero. -/
theorem C80_violated_overlap (hl : l.Exact) (e1 e2 : V3 ℝ → Option (V3 ℝ)) {c : Cfg} (he : 0 < c.eps) (he1 : c.eps ≤ 1 / 10) (ht : 0 < c.tol)
    {s : ℝ} (hs : 0 < s) (h1 : 2 * c.eps ≤ s) (h2 : s ≤ 1 / 10) (h3 : 3792 * s ^ 4 < c.ceps) (h4 : c.ceps ≤ 132 * s ^ 2)
    (hn : 2 ≤ c.maxIter) (hit : 10 * s < (c.maxIter - 1) * c.tol) (hbig : 10 ≤ c.big) :
    (∀ d pts, shapeDistance l c e1 e2 (.box ⟨2 * s, 2 * s, 2 * s⟩) Pose.id (.box ⟨6 * s, 8 * s, 2 * s⟩) ⟨M3.one, ⟨-3 * s, 0, s⟩⟩ ≠
      some (false, d, pts)) ∧
    (∀ x : V3 ℝ, (⟨-s / 2, 0, s / 2⟩ : V3 ℝ).dist x ≤ s / 2 →
      x ∈ Placed (Pose.id : Pose ℝ).R (Pose.id : Pose ℝ).t (Geo.box ⟨2 * s, 2 * s, 2 * s⟩ : Geo ℝ).pts ∧
      x ∈ Placed (M3.one : M3 ℝ) ⟨-3 * s, 0, s⟩ (Geo.box ⟨6 * s, 8 * s, 2 * s⟩ : Geo ℝ).pts) := by
  have h0 : 0 < c.ceps := lt_of_le_of_lt (by positivity) h3
  have hb : 0 < c.big := by linarith
  have hsup := shapes_supports (c := c) (e1 := e1) (e2 := e2) (tf1 := Pose.id) (tf2 := ⟨M3.one, ⟨-3 * s, 0, s⟩⟩) h0 hb Pose.id_rigid
    M3.orthonormal_one
    (box_ready e1 (s := ⟨2 * s, 2 * s, 2 * s⟩) ⟨by simp; linarith, by simp; linarith, by simp; linarith⟩)
    (box_ready e2 (s := ⟨6 * s, 8 * s, 2 * s⟩) ⟨by simp; linarith, by simp; linarith, by simp; linarith⟩)
  have hle : ∀ x ∈ Diff (Placed (Pose.id : Pose ℝ).R (Pose.id : Pose ℝ).t (Geo.box ⟨2 * s, 2 * s, 2 * s⟩ : Geo ℝ).pts)
      (Placed (M3.one : M3 ℝ) ⟨-3 * s, 0, s⟩ (Geo.box ⟨6 * s, 8 * s, 2 * s⟩ : Geo ℝ).pts), x.nrm ≤ 10 * s := by
    rintro _ ⟨_, ⟨a, ha, rfl⟩, _, ⟨b, hb, rfl⟩, rfl⟩
    have e : (Pose.id : Pose ℝ).R.mulVec a + (Pose.id : Pose ℝ).t = a := Pose.id_apply a
    rw [e, M3.one_mulVec]
    obtain ⟨⟨a1, a2⟩, ⟨a3, a4⟩, a5, a6⟩ := ha
    obtain ⟨⟨b1, b2⟩, ⟨b3, b4⟩, b5, b6⟩ := hb
    simp only at a1 a2 a3 a4 a5 a6 b1 b2 b3 b4 b5 b6
    rw [nrm_le_iff (by linarith)]
    have sq : ∀ x m : ℝ, -m ≤ x → x ≤ m → x * x ≤ m * m := fun x m u v => by nlinarith
    have q1 := sq (a - (b + ⟨-3 * s, 0, s⟩)).x (7 * s) (by simp; linarith) (by simp; linarith)
    have q2 := sq (a - (b + ⟨-3 * s, 0, s⟩)).y (5 * s) (by simp; linarith) (by simp; linarith)
    have q3 := sq (a - (b + ⟨-3 * s, 0, s⟩)).z (3 * s) (by simp; linarith) (by simp; linarith)
    simp only [dot]
    nlinarith [mul_self_nonneg s]
  constructor
  · intro d pts h
    obtain ⟨r, hr⟩ := Small.stuck hl e1 e2 he he1 hs h1 h2 h3 h4 hn
    have hg := gjk_ok hl he h0 (convex1 (Geo.box ⟨2 * s, 2 * s, 2 * s⟩) Pose.id)
      (convex1 (Geo.box ⟨6 * s, 8 * s, 2 * s⟩) ⟨M3.one, ⟨-3 * s, 0, s⟩⟩) hsup
    have hr' : gjk l c (shapesSupport c e1 e2 (.box ⟨2 * s, 2 * s, 2 * s⟩) Pose.id (.box ⟨6 * s, 8 * s, 2 * s⟩)
      ⟨M3.one, ⟨-3 * s, 0, s⟩⟩) = .stuck r := hr
    rw [hr'] at hg
    have hm := Ccd.dist_minus hl (convex1 (Geo.box ⟨2 * s, 2 * s, 2 * s⟩) Pose.id)
      (convex1 (Geo.box ⟨6 * s, 8 * s, 2 * s⟩) ⟨M3.one, ⟨-3 * s, 0, s⟩⟩) hsup hle ht hit hg
    have hd := distLoop_ok hl he (convex1 (Geo.box ⟨2 * s, 2 * s, 2 * s⟩) Pose.id)
      (convex1 (Geo.box ⟨6 * s, 8 * s, 2 * s⟩) ⟨M3.one, ⟨-3 * s, 0, s⟩⟩) hle hsup c.maxIter r c.big hg
      (Or.inl fun x hx => lt_of_le_of_lt (hle x hx) (by linarith))
    unfold shapeDistance gjkDist at h
    rw [hr'] at h
    simp only at h
    rcases e : Ccd.dist l c (shapesSupport c e1 e2 (.box ⟨2 * s, 2 * s, 2 * s⟩) Pose.id (.box ⟨6 * s, 8 * s, 2 * s⟩)
      ⟨M3.one, ⟨-3 * s, 0, s⟩⟩) r with ⟨d', pts'⟩ | _ | _
    · rw [e] at h
      have e' : distLoop l c (shapesSupport c e1 e2 (.box ⟨2 * s, 2 * s, 2 * s⟩) Pose.id (.box ⟨6 * s, 8 * s, 2 * s⟩)
        ⟨M3.one, ⟨-3 * s, 0, s⟩⟩) c.maxIter r c.big = .ret d' pts' := e
      rw [e'] at hd
      obtain ⟨⟨x, hx, rfl⟩, -⟩ := hd
      simp [not_lt.2 (nrm_nonneg x)] at h
    · exact hm e
    · rw [e] at h; simp at h
  · intro x hx
    rw [V3.dist_eq, nrm_le_iff (by linarith)] at hx
    simp only [dot, sub_x, sub_y, sub_z] at hx
    have bd : ∀ u : ℝ, u * u ≤ s / 2 * (s / 2) → -(s / 2) ≤ u ∧ u ≤ s / 2 := fun u hu =>
      abs_le.1 (abs_le_of_sq_le_sq (by nlinarith) (by linarith))
    obtain ⟨x1, x2⟩ := bd (-s / 2 - x.x) (by nlinarith [mul_self_nonneg (0 - x.y), mul_self_nonneg (s / 2 - x.z)])
    obtain ⟨y1, y2⟩ := bd (0 - x.y) (by nlinarith [mul_self_nonneg (-s / 2 - x.x), mul_self_nonneg (s / 2 - x.z)])
    obtain ⟨z1, z2⟩ := bd (s / 2 - x.z) (by nlinarith [mul_self_nonneg (-s / 2 - x.x), mul_self_nonneg (0 - x.y)])
    refine ⟨⟨x, ⟨⟨?_, ?_⟩, ⟨?_, ?_⟩, ?_, ?_⟩, (Pose.id_apply x).symm⟩, ⟨x - ⟨-3 * s, 0, s⟩, ⟨⟨?_, ?_⟩, ⟨?_, ?_⟩, ?_, ?_⟩, ?_⟩⟩
    all_goals first
      | (rw [M3.one_mulVec]; v3)
      | (simp; linarith)

/-! ### The hypotheses are met -/

namespace Ccd

noncomputable def cfg0 : Cfg := ⟨1 / 2 ^ 52, 1 / 2 ^ 52, 10 ^ 100, 1 / 100, 1000⟩

/-- Two cubes in the same place: the first two corners of the difference are on a line with the origin. -/
theorem cubes_hit (l : Lib) (e1 e2 : V3 ℝ → Option (V3 ℝ)) :
    shapeDistance l cfg0 e1 e2 (.box ⟨2, 2, 2⟩) Pose.id (.box ⟨2, 2, 2⟩) ⟨M3.one, 0⟩ = some (false, -1, some (0, 0)) := by
  have s0 : shapesSupport cfg0 e1 e2 (.box ⟨2, 2, 2⟩) Pose.id (.box ⟨2, 2, 2⟩) ⟨M3.one, 0⟩ ⟨1, 0, 0⟩ =
      some ⟨⟨2, 0, 0⟩, ⟨1, 1, 1⟩, ⟨-1, 1, 1⟩⟩ := by
    rw [boxes_support]
    simp only [Option.some.injEq, SP.mk.injEq]
    refine ⟨?_, ?_, ?_⟩ <;> apply V3.ext' <;> norm_num [box]
  have s1 : shapesSupport cfg0 e1 e2 (.box ⟨2, 2, 2⟩) Pose.id (.box ⟨2, 2, 2⟩) ⟨M3.one, 0⟩ (-⟨2, 0, 0⟩) =
      some ⟨⟨-2, 0, 0⟩, ⟨-1, 1, 1⟩, ⟨1, 1, 1⟩⟩ := by
    rw [boxes_support]
    simp only [Option.some.injEq, SP.mk.injEq]
    refine ⟨?_, ?_, ?_⟩ <;> apply V3.ext' <;> norm_num [box]
  have hg : gjk l cfg0 (shapesSupport cfg0 e1 e2 (.box ⟨2, 2, 2⟩) Pose.id (.box ⟨2, 2, 2⟩) ⟨M3.one, 0⟩) =
      .hit [⟨⟨2, 0, 0⟩, ⟨1, 1, 1⟩, ⟨-1, 1, 1⟩⟩, ⟨⟨-2, 0, 0⟩, ⟨-1, 1, 1⟩, ⟨1, 1, 1⟩⟩] := by
    unfold gjk
    rw [s0]
    show gjkLoop l cfg0 _ (999 + 1) _ _ = _
    rw [gjkLoop, s1]
    simp only
    rw [if_neg (by norm_num [dot])]
    simp only [List.cons_append, List.nil_append, doSimplex, doSimplex2]
    rw [if_pos (by norm_num [dot, cross, cfg0])]
  unfold shapeDistance gjkDist
  rw [hg]
  simp only
  norm_num

theorem cubes_near : ∀ a ∈ Placed (Pose.id : Pose ℝ).R (Pose.id : Pose ℝ).t (Geo.box ⟨2, 2, 2⟩ : Geo ℝ).pts,
    ∀ b ∈ Placed (M3.one : M3 ℝ) 0 (Geo.box ⟨2, 2, 2⟩ : Geo ℝ).pts, a.dist b ≤ 4 := by
  rintro _ ⟨a, ha, rfl⟩ _ ⟨b, hb, rfl⟩
  have e : (Pose.id : Pose ℝ).R.mulVec a + (Pose.id : Pose ℝ).t = a := Pose.id_apply a
  rw [e, M3.one_mulVec, V3.dist_eq, nrm_le_iff (by norm_num)]
  obtain ⟨⟨a1, a2⟩, ⟨a3, a4⟩, a5, a6⟩ := ha
  obtain ⟨⟨b1, b2⟩, ⟨b3, b4⟩, b5, b6⟩ := hb
  simp only at a1 a2 a3 a4 a5 a6 b1 b2 b3 b4 b5 b6
  simp only [dot, sub_x, sub_y, sub_z, add_x, add_y, add_z, zero_x, zero_y, zero_z, add_zero]
  have sq : ∀ x : ℝ, -2 ≤ x → x ≤ 2 → x * x ≤ 4 := fun x u v => by nlinarith
  have := sq (a.x - b.x) (by linarith) (by linarith)
  have := sq (a.y - b.y) (by linarith) (by linarith)
  have := sq (a.z - b.z) (by linarith) (by linarith)
  linarith

theorem plates_near : ∀ a ∈ Placed (Pose.id : Pose ℝ).R (Pose.id : Pose ℝ).t (Geo.box ⟨1, 5, 2⟩ : Geo ℝ).pts,
    ∀ b ∈ Placed (M3.one : M3 ℝ) ⟨-5, 0, 0⟩ (Geo.box ⟨1, 4, 2⟩ : Geo ℝ).pts, a.dist b ≤ 10 := by
  rintro _ ⟨a, ha, rfl⟩ _ ⟨b, hb, rfl⟩
  have e : (Pose.id : Pose ℝ).R.mulVec a + (Pose.id : Pose ℝ).t = a := Pose.id_apply a
  rw [e, M3.one_mulVec, V3.dist_eq, nrm_le_iff (by norm_num)]
  obtain ⟨⟨a1, a2⟩, ⟨a3, a4⟩, a5, a6⟩ := ha
  obtain ⟨⟨b1, b2⟩, ⟨b3, b4⟩, b5, b6⟩ := hb
  simp only at a1 a2 a3 a4 a5 a6 b1 b2 b3 b4 b5 b6
  simp only [dot, sub_x, sub_y, sub_z, add_x, add_y, add_z, add_zero]
  have := mul_nonneg (show 0 ≤ 6 - (a.x - (b.x + -5)) by linarith) (show 0 ≤ 6 + (a.x - (b.x + -5)) by linarith)
  have := mul_nonneg (show 0 ≤ 5 - (a.y - b.y) by linarith) (show 0 ≤ 5 + (a.y - b.y) by linarith)
  have := mul_nonneg (show 0 ≤ 2 - (a.z - b.z) by linarith) (show 0 ≤ 2 + (a.z - b.z) by linarith)
  nlinarith

end Ccd

/-- C78 for two cubes in the same place. -/
example (e1 e2 : V3 ℝ → Option (V3 ℝ)) :=
  C78_false_partial exactLib_exact (c := cfg0) (by norm_num [cfg0]) (by norm_num [cfg0]) (by norm_num [cfg0]) Pose.id_rigid
    (tf2 := ⟨M3.one, 0⟩) M3.orthonormal_one (box_ready e1 (s := ⟨2, 2, 2⟩) (by norm_num)) (box_ready e2 (s := ⟨2, 2, 2⟩) (by norm_num))
    (R := 4) cubes_near (by norm_num [cfg0]) (by norm_num [cfg0]) (by norm_num [cfg0]) (cubes_hit _ e1 e2)

/-- C79 for two plates side by side. -/
example (e1 e2 : V3 ℝ → Option (V3 ℝ)) :=
  C79_upper exactLib_exact (c := cfg0) (by norm_num [cfg0]) (by norm_num [cfg0]) (by norm_num [cfg0]) Pose.id_rigid
    (tf2 := ⟨M3.one, ⟨-5, 0, 0⟩⟩) M3.orthonormal_one (box_ready e1 (s := ⟨1, 5, 2⟩) (by norm_num)) (box_ready e2 (s := ⟨1, 4, 2⟩) (by norm_num))
    (R := 10) plates_near (by norm_num [cfg0])
    (C80_violated_distance _ e1 e2 (c := cfg0) (by norm_num [cfg0]) (by norm_num [cfg0]) (by norm_num [cfg0])).1

example (e1 e2 : V3 ℝ → Option (V3 ℝ)) :=
  C79_points_partial exactLib_exact (c := cfg0) (by norm_num [cfg0]) (by norm_num [cfg0]) (by norm_num [cfg0]) Pose.id_rigid
    (tf2 := ⟨M3.one, ⟨-5, 0, 0⟩⟩) M3.orthonormal_one (box_ready e1 (s := ⟨1, 5, 2⟩) (by norm_num)) (box_ready e2 (s := ⟨1, 4, 2⟩) (by norm_num))
    (R := 10) plates_near (by norm_num [cfg0])
    (C80_violated_distance _ e1 e2 (c := cfg0) (by norm_num [cfg0]) (by norm_num [cfg0]) (by norm_num [cfg0])).1

/-- C80 for the plates: the search ends with a direction that separates them. -/
example (e1 e2 : V3 ℝ → Option (V3 ℝ)) : ¬ Touch (Placed (Pose.id : Pose ℝ).R (Pose.id : Pose ℝ).t (Geo.box ⟨1, 5, 2⟩ : Geo ℝ).pts)
    (Placed (M3.one : M3 ℝ) ⟨-5, 0, 0⟩ (Geo.box ⟨1, 4, 2⟩ : Geo ℝ).pts) := by
  have s0 : shapesSupport cfg0 e1 e2 (.box ⟨1, 5, 2⟩) Pose.id (.box ⟨1, 4, 2⟩) ⟨M3.one, ⟨-5, 0, 0⟩⟩ ⟨1, 0, 0⟩ =
      some ⟨⟨6, 1 / 2, 0⟩, ⟨1 / 2, 5 / 2, 1⟩, ⟨-11 / 2, 2, 1⟩⟩ := by
    rw [boxes_support]
    simp only [Option.some.injEq, SP.mk.injEq]
    refine ⟨?_, ?_, ?_⟩ <;> apply V3.ext' <;> norm_num [box]
  obtain ⟨q, s1, hq⟩ : ∃ q : SP, shapesSupport cfg0 e1 e2 (.box ⟨1, 5, 2⟩) Pose.id (.box ⟨1, 4, 2⟩) ⟨M3.one, ⟨-5, 0, 0⟩⟩ (-⟨6, 1 / 2, 0⟩) = some q ∧
      q.v.dot (-⟨6, 1 / 2, 0⟩) < 0 := by
    rw [boxes_support]
    exact ⟨_, rfl, by norm_num [box, dot]⟩
  have hg : gjk exactLib cfg0 (shapesSupport cfg0 e1 e2 (.box ⟨1, 5, 2⟩) Pose.id (.box ⟨1, 4, 2⟩) ⟨M3.one, ⟨-5, 0, 0⟩⟩) =
      .apart [⟨⟨6, 1 / 2, 0⟩, ⟨1 / 2, 5 / 2, 1⟩, ⟨-11 / 2, 2, 1⟩⟩] (-⟨6, 1 / 2, 0⟩) := by
    unfold gjk
    rw [s0]
    show gjkLoop exactLib cfg0 _ (999 + 1) _ _ = _
    rw [gjkLoop, s1]
    simp only
    rw [if_pos hq]
  exact (C80_apart_partial exactLib_exact (by norm_num [cfg0]) (by norm_num [cfg0]) (by norm_num [cfg0]) Pose.id_rigid
    (tf2 := ⟨M3.one, ⟨-5, 0, 0⟩⟩) M3.orthonormal_one (box_ready e1 (s := ⟨1, 5, 2⟩) (by norm_num)) (box_ready e2 (s := ⟨1, 4, 2⟩) (by norm_num)) hg).2
    (by simp [slack])

end Fcl
