import Verif.Ccd.GjkLemmas

/-!
# Facts about the distance query of the default solver
-/

namespace Fcl
open V3

namespace Ccd

theorem hull_two {a b p : V3 ℝ} (h : HullOf [a, b] p) : ∃ t : ℝ, 0 ≤ t ∧ t ≤ 1 ∧ p = a + t • (b - a) := by
  induction h with
  | pt hp =>
    simp only [List.mem_cons, List.not_mem_nil, or_false] at hp
    rcases hp with rfl | rfl
    · exact ⟨0, le_refl _, zero_le_one, by v3⟩
    · exact ⟨1, zero_le_one, le_refl _, by v3⟩
  | seg t h0 h1 _ _ ih1 ih2 =>
    obtain ⟨u, u0, u1, rfl⟩ := ih1
    obtain ⟨w, w0, w1, rfl⟩ := ih2
    exact ⟨(1 - t) * u + t * w, le_mean (by linarith) h0 (by ring) u0 w0, mean_le (by linarith) h0 (by ring) u1 w1, by v3⟩

theorem hull_three {a b d p : V3 ℝ} (h : HullOf [a, b, d] p) :
    ∃ u w : ℝ, 0 ≤ u ∧ 0 ≤ w ∧ u + w ≤ 1 ∧ p = a + u • (b - a) + w • (d - a) := by
  induction h with
  | pt hp =>
    simp only [List.mem_cons, List.not_mem_nil, or_false] at hp
    rcases hp with rfl | rfl | rfl
    · exact ⟨0, 0, le_refl _, le_refl _, by norm_num, by v3⟩
    · exact ⟨1, 0, zero_le_one, le_refl _, by norm_num, by v3⟩
    · exact ⟨0, 1, le_refl _, zero_le_one, by norm_num, by v3⟩
  | seg t h0 h1 _ _ ih1 ih2 =>
    obtain ⟨u, w, u0, w0, s1, rfl⟩ := ih1
    obtain ⟨u', w', u0', w0', s1', rfl⟩ := ih2
    refine ⟨(1 - t) * u + t * u', (1 - t) * w + t * w', le_mean (by linarith) h0 (by ring) u0 u0',
      le_mean (by linarith) h0 (by ring) w0 w0', ?_, by v3⟩
    have := mean_le (s := 1 - t) (by linarith) h0 (by ring) s1 s1'
    linarith

/-- The points of the two shapes for a point of a segment. -/
theorem point2 {A B : Set (V3 ℝ)} (hA : ConvexSet A) (hB : ConvexSet B) {a b : SP} (ha : Made A B a) (hb : Made A B b) {t : ℝ}
    (t0 : 0 ≤ t) (t1 : t ≤ 1) :
    a.v1 + t • (b.v1 - a.v1) ∈ A ∧ a.v2 + t • (b.v2 - a.v2) ∈ B ∧
      a.v1 + t • (b.v1 - a.v1) - (a.v2 + t • (b.v2 - a.v2)) = a.v + t • (b.v - a.v) := by
  refine ⟨?_, ?_, ?_⟩
  · convert hA _ ha.1 _ hb.1 t t0 t1 using 1; v3
  · convert hB _ ha.2.1 _ hb.2.1 t t0 t1 using 1; v3
  · rw [ha.2.2, hb.2.2]; v3

/-- The points of the two shapes for a point of a triangle. -/
theorem point3 {A B : Set (V3 ℝ)} (hA : ConvexSet A) (hB : ConvexSet B) {a b d : SP} (ha : Made A B a) (hb : Made A B b)
    (hd : Made A B d) {u w : ℝ} (u0 : 0 ≤ u) (w0 : 0 ≤ w) (h1 : u + w ≤ 1) :
    a.v1 + u • (b.v1 - a.v1) + w • (d.v1 - a.v1) ∈ A ∧ a.v2 + u • (b.v2 - a.v2) + w • (d.v2 - a.v2) ∈ B ∧
      a.v1 + u • (b.v1 - a.v1) + w • (d.v1 - a.v1) - (a.v2 + u • (b.v2 - a.v2) + w • (d.v2 - a.v2)) =
        a.v + u • (b.v - a.v) + w • (d.v - a.v) := by
  refine ⟨?_, ?_, ?_⟩
  · convert comb3 hA ha.1 hb.1 hd.1 (u := 1 - u - w) (by linarith) u0 w0 (by ring) using 1; v3
  · convert comb3 hB ha.2.1 hb.2.1 hd.2.1 (u := 1 - u - w) (by linarith) u0 w0 (by ring) using 1; v3
  · rw [ha.2.2, hb.2.2, hd.2.2]; v3

theorem nrm_sub_abs (a b : V3 ℝ) : |a.nrm - b.nrm| ≤ (a - b).nrm := by
  have h1 := nrm_add_le (a - b) b
  have h2 := nrm_add_le (b - a) a
  rw [show a - b + b = a by v3] at h1
  rw [show b - a + a = b by v3, ← nrm_neg (b - a), show -(b - a) = a - b by v3] at h2
  rw [abs_le]; constructor <;> linarith

theorem widest_max (v : V3 ℝ) : |v.x| ≤ |widest v v| ∧ |v.y| ≤ |widest v v| ∧ |v.z| ≤ |widest v v| := by
  unfold widest
  split
  · rename_i h; exact ⟨le_refl _, h.1, h.2⟩
  split
  · rename_i h1 h
    refine ⟨?_, le_refl _, h⟩
    by_contra hc
    push Not at hc
    exact h1 ⟨hc.le, by linarith⟩
  · rename_i h1 h
    push Not at h
    refine ⟨?_, h.le, le_refl _⟩
    by_contra hc
    push Not at hc
    exact h1 ⟨by linarith, hc.le⟩

theorem widest_lin (u a v : V3 ℝ) (t : ℝ) : widest u (a + t • v) = widest u a + t * widest u v := by
  unfold widest; split_ifs <;> simp

theorem widest_le (u v : V3 ℝ) : |widest u v| ≤ v.nrm := by
  have h : widest u v * widest u v ≤ v.nrm * v.nrm := by
    rw [nrm_mul_self]
    unfold widest
    simp only [dot]
    split_ifs <;> nlinarith [mul_self_nonneg v.x, mul_self_nonneg v.y, mul_self_nonneg v.z]
  rw [← abs_mul_abs_self] at h
  by_contra hc
  push Not at hc
  nlinarith [nrm_nonneg v]

theorem nrm_le_two {v : V3 ℝ} {e : ℝ} (he : 0 ≤ e) (h : |widest v v| < e) : v.nrm ≤ 2 * e := by
  obtain ⟨h1, h2, h3⟩ := widest_max v
  rw [nrm_le_iff (by linarith)]
  have k : ∀ x : ℝ, |x| ≤ |widest v v| → x * x ≤ e * e := fun x hx => by
    rw [← abs_mul_abs_self x]; exact mul_self_le_mul_self (abs_nonneg _) (by linarith)
  have := k _ h1; have := k _ h2; have := k _ h3
  simp only [dot]; nlinarith [mul_self_nonneg e]

/-- Two points on the lines through two points of each set, with the same parameter, that leave the segments by the part
`σ` at most. The lengths of the segments of differences times `σ` are at most `tol`. -/
def Extended (eps tol : ℝ) (A B : Set (V3 ℝ)) (p q : V3 ℝ) : Prop :=
  ∃ a ∈ A, ∃ a' ∈ A, ∃ b ∈ B, ∃ b' ∈ B, ∃ s σ : ℝ, -σ ≤ s ∧ s ≤ 1 + σ ∧ p = a + s • (a' - a) ∧ q = b + s • (b' - b) ∧
    eps ≤ (a - b).dist (a' - b') ∧ σ * (a - b).dist (a' - b') ≤ tol

/-- What is known of the points that `distance` gives for the distance `d`. -/
def PtsOk (c : Cfg) (R : ℝ) (A B : Set (V3 ℝ)) (d : ℝ) (p : V3 ℝ × V3 ℝ) : Prop :=
  (p.1 ∈ A ∧ p.2 ∈ B ∧ |p.1.dist p.2 - d| ≤ 2 * c.eps) ∨
  Extended c.eps (4 * c.eps * (1 + R)) A B p.1 p.2 ∧ |p.1.dist p.2 - d| ≤ 6 * c.eps * (1 + R)

theorem ptsOk_exact {c : Cfg} (he : 0 < c.eps) {A B : Set (V3 ℝ)} {p q x : V3 ℝ} {R : ℝ} (h1 : p ∈ A) (h2 : q ∈ B) (h3 : p - q = x) :
    PtsOk c R A B x.nrm (p, q) := by
  refine Or.inl ⟨h1, h2, ?_⟩
  rw [V3.dist_eq]
  show |(p - q).nrm - x.nrm| ≤ _
  rw [h3, _root_.sub_self, abs_zero]; linarith

theorem segment_ok {c : Cfg} (he : 0 < c.eps) {A B : Set (V3 ℝ)} (hA : ConvexSet A) (hB : ConvexSet B) {a b : SP}
    (ha : Made A B a) (hb : Made A B b) {p : V3 ℝ} {R : ℝ} (hp : HullOf [a.v, b.v] p) : PtsOk c R A B p.nrm (segmentPoints c a b p) := by
  obtain ⟨t, t0, t1, rfl⟩ := hull_two hp
  unfold segmentPoints
  simp only
  split
  · rename_i h
    refine Or.inl ⟨ha.1, ha.2.1, ?_⟩
    have h2 := nrm_le_two he.le h
    have h3 := nrm_sub_abs a.v (a.v + t • (b.v - a.v))
    have e : a.v - (a.v + t • (b.v - a.v)) = (-t) • (b.v - a.v) := by v3
    rw [e, nrm_smul, abs_neg, abs_of_nonneg t0] at h3
    rw [V3.dist_eq]
    show |(a.v1 - a.v2).nrm - _| ≤ _
    rw [← ha.2.2]
    nlinarith [nrm_nonneg (b.v - a.v)]
  · rename_i h
    have h0 : widest (b.v - a.v) (b.v - a.v) ≠ 0 := by
      intro h0; rw [h0, abs_zero] at h; exact h he
    have es : (widest (b.v - a.v) (a.v + t • (b.v - a.v)) - widest (b.v - a.v) a.v) / widest (b.v - a.v) (b.v - a.v) = t := by
      rw [widest_lin]; field_simp; ring
    rw [es]
    obtain ⟨h1, h2, h3⟩ := point2 hA hB ha hb t0 t1
    exact ptsOk_exact he h1 h2 h3

theorem normalized_smul (a : V3 ℝ) : ∃ k : ℝ, a.normalized = k • a := by
  unfold normalized
  split
  · exact ⟨1, by v3⟩
  · exact ⟨_, rfl⟩

theorem flat_ne {c : Cfg} (he : 0 < c.eps) {a b d : V3 ℝ} (h : flatTri c a b d = false) :
    ((b - a).cross (d - a)).dot ((b - a).cross (d - a)) ≠ 0 := by
  intro h0
  have h0' := dot_self_eq_zero h0
  unfold flatTri at h
  split at h
  · simp at h
  obtain ⟨k, hk⟩ := normalized_smul (b - a)
  obtain ⟨m, hm⟩ := normalized_smul (d - a)
  have e : (k • (b - a)).cross (m • (d - a)) = (k * m) • ((b - a).cross (d - a)) := by
    apply V3.ext' <;> simp [cross] <;> ring
  simp only [hk, hm, e, h0'] at h
  have : ((k * m) • (0 : V3 ℝ)).dot ((k * m) • (0 : V3 ℝ)) < c.eps * c.eps := by
    simp [dot]; exact he.ne'
  simp [this] at h

theorem triangle_ok {c : Cfg} (he : 0 < c.eps) {A B : Set (V3 ℝ)} (hA : ConvexSet A) (hB : ConvexSet B) {a b d : SP}
    (ha : Made A B a) (hb : Made A B b) (hd : Made A B d) {p : V3 ℝ} {R : ℝ} (hp : HullOf [a.v, b.v, d.v] p)
    (hn : ((b.v - a.v).cross (d.v - a.v)).dot ((b.v - a.v).cross (d.v - a.v)) ≠ 0) :
    PtsOk c R A B p.nrm (trianglePoints a b d p) := by
  obtain ⟨u, w, u0, w0, h1, rfl⟩ := hull_three hp
  have eb : ((b.v - a.v).cross (d.v - a.v)).dot ((a.v + u • (b.v - a.v) + w • (d.v - a.v) - a.v).cross (d.v - a.v)) /
      ((b.v - a.v).cross (d.v - a.v)).dot ((b.v - a.v).cross (d.v - a.v)) = u := by
    rw [div_eq_iff hn]
    simp [dot, cross]; ring
  have eg : ((b.v - a.v).cross (d.v - a.v)).dot ((b.v - a.v).cross (a.v + u • (b.v - a.v) + w • (d.v - a.v) - a.v)) /
      ((b.v - a.v).cross (d.v - a.v)).dot ((b.v - a.v).cross (d.v - a.v)) = w := by
    rw [div_eq_iff hn]
    simp [dot, cross]; ring
  unfold trianglePoints
  simp only [eb, eg]
  obtain ⟨k1, k2, k3⟩ := point3 hA hB ha hb hd u0 w0 h1
  exact ptsOk_exact he k1 k2 k3

set_option maxHeartbeats 1000000 in
/-- The point on the line of the longest side of a triangle that has the same widest coordinate as a point of the
triangle. `w` is how far the third corner is from the side. -/
theorem side_near {c : Cfg} (he : 0 < c.eps) {A B : Set (V3 ℝ)} {R : ℝ} (hR : 0 ≤ R) {e1 e2 : SP}
    (h1 : Made A B e1) (h2 : Made A B e2) {v p : V3 ℝ} (hp : HullOf [e1.v, e2.v, v] p)
    (l1 : (v - e1.v).dot (v - e1.v) ≤ (e2.v - e1.v).dot (e2.v - e1.v))
    (l2 : (v - e2.v).dot (v - e2.v) ≤ (e2.v - e1.v).dot (e2.v - e1.v))
    (hw : ((e2.v - e1.v).cross (v - e1.v)).nrm ≤ 2 * c.eps * (1 + R) * (e2.v - e1.v).nrm) :
    PtsOk c R A B p.nrm (segmentPoints c e1 e2 p) := by
  obtain ⟨be, ga, b0, g0, bg, hp⟩ := hull_three hp
  have hpe : p - e1.v = be • (e2.v - e1.v) + ga • (v - e1.v) := by rw [hp]; v3
  have hv2 : v - e2.v = (v - e1.v) - (e2.v - e1.v) := by v3
  rw [hv2] at l2
  obtain ⟨D, hD⟩ : ∃ D, D = e2.v - e1.v := ⟨_, rfl⟩
  obtain ⟨V, hV⟩ : ∃ V, V = v - e1.v := ⟨_, rfl⟩
  rw [← hD, ← hV] at hpe l2 hw
  rw [← hD, ← hV] at l1
  have hLn := nrm_mul_self D
  have hL0 := nrm_nonneg D
  have hVn := nrm_mul_self V
  have hVL : V.nrm ≤ D.nrm := by
    have := nrm_nonneg V
    nlinarith
  -- how far `p` is from the first end
  have hpn : (p - e1.v).nrm ≤ D.nrm := by
    rw [hpe]
    have := nrm_add_le (be • D) (ga • V)
    rw [nrm_smul, nrm_smul, abs_of_nonneg b0, abs_of_nonneg g0] at this
    nlinarith
  unfold segmentPoints
  simp only
  rw [← hD]
  split
  · rename_i h
    have h3 := nrm_le_two he.le h
    refine Or.inl ⟨h1.1, h1.2.1, ?_⟩
    have h4 := nrm_sub_abs e1.v p
    rw [← nrm_neg (e1.v - p), show -(e1.v - p) = p - e1.v by v3] at h4
    rw [V3.dist_eq]
    show |(e1.v1 - e1.v2).nrm - _| ≤ _
    rw [← h1.2.2]
    linarith
  · rename_i h
    push Not at h
    have hm := widest_max D
    obtain ⟨m, hm'⟩ : ∃ m, m = widest D D := ⟨_, rfl⟩
    rw [← hm'] at h hm
    have hm0 : m ≠ 0 := by intro h0; rw [h0, abs_zero] at h; linarith
    have hmL : |m| ≤ D.nrm := hm' ▸ widest_le D D
    have hLm : D.nrm ≤ 2 * |m| := by
      rw [nrm_le_iff (by positivity)]
      have k : ∀ x : ℝ, |x| ≤ |m| → x * x ≤ |m| * |m| := fun x hx => by
        rw [← abs_mul_abs_self x]; exact mul_self_le_mul_self (abs_nonneg _) hx
      have := k _ hm.1; have := k _ hm.2.1; have := k _ hm.2.2
      simp only [dot]; nlinarith [abs_nonneg m]
    have hLe : c.eps ≤ D.nrm := by linarith
    have hLp : 0 < D.nrm := by linarith
    have hDD : 0 < D.dot D := by rw [← hLn]; positivity
    -- the foot of the third corner
    obtain ⟨τ, hτ⟩ : ∃ τ, τ = V.dot D / D.dot D := ⟨_, rfl⟩
    have hτD : τ * D.dot D = V.dot D := by rw [hτ]; field_simp
    obtain ⟨w, hwd⟩ : ∃ w, w = V - τ • D := ⟨_, rfl⟩
    have l2' : V.dot V - 2 * V.dot D + D.dot D ≤ D.dot D := by
      have : (V - D).dot (V - D) = V.dot V - 2 * V.dot D + D.dot D := by simp [dot]; ring
      linarith
    have hVV : 0 ≤ V.dot V := by rw [← hVn]; exact mul_self_nonneg _
    have τ0 : 0 ≤ τ := by rw [hτ]; apply div_nonneg <;> linarith
    have τ1 : τ ≤ 1 := by
      rw [hτ, div_le_one hDD]
      have := dot_le V D
      nlinarith [nrm_nonneg V]
    have hwn : w.nrm ≤ 2 * c.eps * (1 + R) := by
      have e : (D.cross V).nrm = D.nrm * w.nrm := by
        apply nrm_unique (mul_nonneg hL0 (nrm_nonneg w))
        have hww : w.dot w = V.dot V - τ * V.dot D := by
          have : w.dot w = V.dot V - 2 * τ * V.dot D + τ * (τ * D.dot D) := by rw [hwd]; simp [dot]; ring
          rw [this, hτD]; ring
        have hc : (D.cross V).dot (D.cross V) = D.dot D * V.dot V - V.dot D * V.dot D := by simp [dot, cross]; ring
        have := nrm_mul_self w
        rw [hc]
        symm
        calc D.nrm * w.nrm * (D.nrm * w.nrm) = (D.nrm * D.nrm) * (w.nrm * w.nrm) := by ring
          _ = D.dot D * V.dot V - (τ * D.dot D) * V.dot D := by rw [hLn, this, hww]; ring
          _ = _ := by rw [hτD]
      rw [e] at hw
      by_contra hcon
      push Not at hcon
      nlinarith
    -- the parameter
    have hs : (widest D p - widest D e1.v) / m = (be + ga * τ) + ga * (widest D w / m) := by
      have : p = (e1.v + (be + ga * τ) • D) + ga • w := by
        have : p = e1.v + (p - e1.v) := by v3
        rw [this, hpe, hwd]; v3
      rw [this, widest_lin, widest_lin, ← hm']; field_simp; ring
    rw [← hm', hs]
    have hwi : |widest D w| ≤ w.nrm := widest_le D w
    obtain ⟨k, hk⟩ : ∃ k, k = widest D w / m := ⟨_, rfl⟩
    rw [← hk]
    have hkm : |k| * |m| ≤ w.nrm := by
      rw [← abs_mul, hk, div_mul_cancel₀ _ hm0]; exact hwi
    have hkL : |k| * D.nrm ≤ 2 * w.nrm := by
      have := mul_le_mul_of_nonneg_left hLm (abs_nonneg k)
      linarith
    obtain ⟨k1, k2⟩ := abs_le.1 (le_refl |k|)
    have ga1 : ga ≤ 1 := by linarith
    have hgk1 : ga * k ≤ |k| := by nlinarith [abs_nonneg k]
    have hgk2 : -|k| ≤ ga * k := by nlinarith [abs_nonneg k]
    have u0 : 0 ≤ be + ga * τ := by positivity
    have u1 : be + ga * τ ≤ 1 := by nlinarith
    refine Or.inr ⟨⟨_, h1.1, _, h2.1, _, h1.2.1, _, h2.2.1, be + ga * τ + ga * k, |k|, by linarith, by linarith, rfl, rfl, ?_, ?_⟩, ?_⟩
    · rw [V3.dist_eq, ← h1.2.2, ← h2.2.2, ← nrm_neg, show -(e1.v - e2.v) = D by rw [hD]; v3]; exact hLe
    · rw [V3.dist_eq, ← h1.2.2, ← h2.2.2, ← nrm_neg, show -(e1.v - e2.v) = D by rw [hD]; v3]; linarith
    · simp only
      rw [V3.dist_eq]
      refine le_trans (nrm_sub_abs _ _) ?_
      have e : e1.v1 + (be + ga * τ + ga * k) • (e2.v1 - e1.v1) - (e1.v2 + (be + ga * τ + ga * k) • (e2.v2 - e1.v2)) - p =
          (ga * k) • D + (-ga) • w := by
        have : p = e1.v + (be + ga * τ) • D + ga • w := by
          have : p = e1.v + (p - e1.v) := by v3
          rw [this, hpe, hwd]; v3
        rw [this, hD, h1.2.2, h2.2.2]; v3
      rw [e]
      have := nrm_add_le ((ga * k) • D) ((-ga) • w)
      rw [nrm_smul, nrm_smul, abs_neg, abs_of_nonneg g0, abs_mul, abs_of_nonneg g0] at this
      have q1 : ga * |k| * D.nrm ≤ 2 * w.nrm := by
        have : ga * (|k| * D.nrm) ≤ 1 * (|k| * D.nrm) := mul_le_mul_of_nonneg_right ga1 (by positivity)
        linarith
      have q2 : ga * w.nrm ≤ w.nrm := by nlinarith [nrm_nonneg w]
      linarith

/-- A triangle that counts as one of no area has a small height over each side. -/
theorem flat_small {c : Cfg} (he : 0 < c.eps) {a b d : V3 ℝ} {R : ℝ} (ha : a.nrm ≤ R) (hb : b.nrm ≤ R) (hd : d.nrm ≤ R)
    (h : flatTri c a b d = true) {L : ℝ} (hab : (b - a).nrm ≤ L) (had : (d - a).nrm ≤ L) :
    ((b - a).cross (d - a)).nrm ≤ 2 * c.eps * (1 + R) * L := by
  have hR : 0 ≤ R := le_trans (nrm_nonneg a) ha
  have hL : 0 ≤ L := le_trans (nrm_nonneg _) hab
  have hcr : ((b - a).cross (d - a)).nrm ≤ (b - a).nrm * (d - a).nrm := by
    rw [nrm_le_iff (mul_nonneg (nrm_nonneg _) (nrm_nonneg _))]
    have e : ((b - a).cross (d - a)).dot ((b - a).cross (d - a)) =
        (b - a).dot (b - a) * (d - a).dot (d - a) - (b - a).dot (d - a) * (b - a).dot (d - a) := by simp [dot, cross]; ring
    rw [e, ← nrm_mul_self (b - a), ← nrm_mul_self (d - a)]
    nlinarith [mul_self_nonneg ((b - a).dot (d - a))]
  have co : ∀ {x y : V3 ℝ}, x.nrm ≤ R → y.nrm ≤ R → coincident c x y = true → (y - x).nrm ≤ 2 * c.eps * (1 + R) := by
    intro x y hx hy h
    have cx : ∀ {z : V3 ℝ}, z.nrm ≤ R → |z.x| ≤ R ∧ |z.y| ≤ R ∧ |z.z| ≤ R := by
      intro z hz
      have hz' := (nrm_le_iff hR).1 hz
      simp only [dot] at hz'
      refine ⟨?_, ?_, ?_⟩ <;> exact abs_le_of_sq_le_sq (by nlinarith [mul_self_nonneg z.x, mul_self_nonneg z.y, mul_self_nonneg z.z]) hR |> fun h => abs_le.2 (abs_le.1 h)
    obtain ⟨x1, x2, x3⟩ := cx hx
    obtain ⟨y1, y2, y3⟩ := cx hy
    simp only [coincident, Bool.and_eq_true, decide_eq_true_eq] at h
    have hm : ∀ {u v : ℝ}, |u| ≤ R → |v| ≤ R → max 1 (max |u| |v|) * c.eps ≤ (1 + R) * c.eps := by
      intro u v hu hv
      apply mul_le_mul_of_nonneg_right _ he.le
      exact max_le (by linarith) (max_le (by linarith) (by linarith))
    have q : ∀ {u v : ℝ}, |u| ≤ R → |v| ≤ R → |u - v| ≤ max 1 (max |u| |v|) * c.eps → (v - u) * (v - u) ≤ (1 + R) * c.eps * ((1 + R) * c.eps) := by
      intro u v hu hv h
      rw [← abs_mul_abs_self (v - u), abs_sub_comm]
      exact mul_self_le_mul_self (abs_nonneg _) (le_trans h (hm hu hv))
    have q1 := q x1 y1 h.1.1
    have q2 := q x2 y2 h.1.2
    have q3 := q x3 y3 h.2
    rw [nrm_le_iff (by positivity)]
    simp only [dot, sub_x, sub_y, sub_z]
    nlinarith [mul_self_nonneg ((1 + R) * c.eps)]
  have hb0 := nrm_nonneg (b - a)
  have hd0 := nrm_nonneg (d - a)
  have hpos : 0 ≤ 2 * c.eps * (1 + R) := by positivity
  unfold flatTri at h
  split at h
  · rename_i hc
    rw [Bool.or_eq_true] at hc
    rcases hc with hc | hc
    · have := co ha hb hc
      calc _ ≤ (b - a).nrm * (d - a).nrm := hcr
        _ ≤ 2 * c.eps * (1 + R) * L := mul_le_mul this had hd0 hpos
    · have := co ha hd hc
      calc _ ≤ (b - a).nrm * (d - a).nrm := hcr
        _ ≤ L * (2 * c.eps * (1 + R)) := mul_le_mul hab this hd0 hL
        _ = _ := by ring
  · simp only [decide_eq_true_eq] at h
    by_cases z1 : (b - a).nrm = 0
    · rw [z1, zero_mul] at hcr
      exact le_trans hcr (by positivity)
    by_cases z2 : (d - a).nrm = 0
    · rw [z2, mul_zero] at hcr
      exact le_trans hcr (by positivity)
    have n1 : (b - a).normalized = (1 / (b - a).nrm) • (b - a) := by rw [normalized, if_neg z1]
    have n2 : (d - a).normalized = (1 / (d - a).nrm) • (d - a) := by rw [normalized, if_neg z2]
    have e : (b - a).normalized.cross (d - a).normalized = (1 / ((b - a).nrm * (d - a).nrm)) • (b - a).cross (d - a) := by
      rw [n1, n2]
      apply V3.ext' <;> simp [cross] <;> field_simp
    rw [e, ← nrm_mul_self, nrm_smul] at h
    have p1 : 0 < (b - a).nrm := lt_of_le_of_ne hb0 (Ne.symm z1)
    have p2 : 0 < (d - a).nrm := lt_of_le_of_ne hd0 (Ne.symm z2)
    rw [abs_of_pos (by positivity)] at h
    have h' := lt_of_mul_self_lt_mul_self₀ he.le h
    rw [one_div, inv_mul_lt_iff₀ (by positivity)] at h'
    have d2 : (d - a).nrm ≤ 2 * R := by
      have := nrm_add_le d (-a)
      rw [nrm_neg, show d + -a = d - a by v3] at this
      linarith
    have k1 : (b - a).nrm * (d - a).nrm ≤ L * (2 * R) := mul_le_mul hab d2 hd0 hL
    have k2 := mul_le_mul_of_nonneg_right k1 he.le
    nlinarith [mul_nonneg hL he.le]

/-- The points for a triangle of no area. -/
theorem flat_ok {c : Cfg} (he : 0 < c.eps) {A B : Set (V3 ℝ)} {R : ℝ} (hR : ∀ x ∈ Diff A B, x.nrm ≤ R) {a b d : SP}
    (ha : Made A B a) (hb : Made A B b) (hd : Made A B d) {p : V3 ℝ} (hp : HullOf [a.v, b.v, d.v] p) (hf : flatTri c a.v b.v d.v = true) :
    PtsOk c R A B p.nrm (segmentPoints c (longest a b d).1 (longest a b d).2 p) := by
  have hR0 : 0 ≤ R := le_trans (nrm_nonneg _) (hR _ ha.diff)
  have sm := fun {L : ℝ} => flat_small he (hR _ ha.diff) (hR _ hb.diff) (hR _ hd.diff) hf (L := L)
  have le : ∀ {x y : V3 ℝ}, x.dot x ≤ y.dot y → x.nrm ≤ y.nrm := by
    intro x y h
    rw [nrm_le_iff (nrm_nonneg _), nrm_mul_self]; exact h
  have sym : ∀ x y : V3 ℝ, (x - y).dot (x - y) = (y - x).dot (y - x) := by intro x y; simp [dot]; ring
  have perm : ∀ {l l' : List (V3 ℝ)} {p : V3 ℝ}, (∀ x ∈ l, x ∈ l') → HullOf l p → HullOf l' p := by
    intro l l' p hl h
    clear hp
    induction h with
    | pt hp => exact HullOf.pt (hl _ hp)
    | seg t h0 h1 _ _ ih1 ih2 => exact HullOf.seg t h0 h1 ih1 ih2
  have cn : ∀ {x y : V3 ℝ}, x = y ∨ x = -y → x.nrm = y.nrm := by
    rintro x y (rfl | rfl)
    · rfl
    · exact nrm_neg y
  unfold longest
  simp only
  split
  · rename_i h
    refine side_near he hR0 ha hb hp h.1 ?_ (sm (le_refl _) (le h.1))
    exact h.2
  split
  · rename_i h
    refine side_near he hR0 ha hd (perm (by simp) hp) h.1 ?_ ?_
    · rw [sym]; exact h.2
    · rw [cn (y := (b.v - a.v).cross (d.v - a.v)) (Or.inr (by apply V3.ext' <;> simp [cross] <;> ring))]
      exact sm (le h.1) (le_refl _)
  · rename_i h1 h2
    have k : (b.v - a.v).dot (b.v - a.v) ≤ (d.v - b.v).dot (d.v - b.v) ∧ (d.v - a.v).dot (d.v - a.v) ≤ (d.v - b.v).dot (d.v - b.v) := by
      constructor
      · by_contra hc
        push Not at hc
        by_cases hx : (b.v - a.v).dot (b.v - a.v) ≥ (d.v - a.v).dot (d.v - a.v)
        · exact h1 ⟨hx, hc.le⟩
        · push Not at hx
          exact h2 ⟨hx.le, by linarith⟩
      · by_contra hc
        push Not at hc
        by_cases hx : (b.v - a.v).dot (b.v - a.v) ≥ (d.v - a.v).dot (d.v - a.v)
        · exact h1 ⟨hx, by linarith⟩
        · push Not at hx
          exact h2 ⟨hx.le, hc.le⟩
    refine side_near he hR0 hb hd (v := a.v) (perm (by simp) hp) ?_ ?_ ?_
    · rw [sym]; exact k.1
    · rw [sym]; exact k.2
    · rw [cn (y := (b.v - a.v).cross (d.v - a.v)) (Or.inl (by apply V3.ext' <;> simp [cross] <;> ring))]
      exact sm (le k.1) (le k.2)

theorem closestPoints_ok {c : Cfg} (he : 0 < c.eps) {A B : Set (V3 ℝ)} (hA : ConvexSet A) (hB : ConvexSet B) {R : ℝ}
    (hR : ∀ x ∈ Diff A B, x.nrm ≤ R) {s : List SP}
    (hs : Ok A B s) (h3 : s.length ≤ 3) {p : V3 ℝ} (hp : HullOf (s.map SP.v) p) {q : V3 ℝ × V3 ℝ}
    (hq : closestPoints c s (some p) = some q) : PtsOk c R A B p.nrm q := by
  match s, hs, hp, hq with
  | [a], hs, hp, hq =>
    have ha := hs.1 a (by simp)
    have : p = a.v := by
      have : ∀ x, HullOf [a.v] x → x = a.v := by
        intro x hx
        induction hx with
        | pt hp => simpa using hp
        | seg t _ _ _ _ ih1 ih2 => rw [ih1, ih2]; v3
      exact this p hp
    simp only [closestPoints, Option.some.injEq] at hq
    subst hq this
    exact ptsOk_exact he ha.1 ha.2.1 ha.2.2.symm
  | [a, b], hs, hp, hq =>
    simp only [closestPoints, Option.map_some, Option.some.injEq] at hq
    subst hq
    exact segment_ok he hA hB (hs.1 a (by simp)) (hs.1 b (by simp)) hp
  | [a, b, d], hs, hp, hq =>
    have ha := hs.1 a (by simp)
    have hb := hs.1 b (by simp)
    have hd := hs.1 d (by simp)
    simp only [closestPoints, Option.map_some, Option.some.injEq] at hq
    rcases hf : flatTri c a.v b.v d.v with _ | _
    · rw [hf] at hq
      simp only [Bool.false_eq_true, if_false] at hq
      subst hq
      exact triangle_ok he hA hB ha hb hd hp (flat_ne he hf)
    · rw [hf] at hq
      simp only [if_true] at hq
      subst hq
      exact flat_ok he hR ha hb hd hp hf
  | _ :: _ :: _ :: _ :: _, hs, hp, hq => simp at h3; omega

/-- What `nearest` gives: at most three points; a point of the simplex with its distance, or nothing and the distance as
it was. -/
structure NearOk (A B : Set (V3 ℝ)) (last : ℝ) (r : List SP × ℝ × Option (V3 ℝ)) : Prop where
  ok : Ok A B r.1
  three : r.1.length ≤ 3
  some : ∀ p, r.2.2 = some p → HullOf (r.1.map SP.v) p ∧ r.2.1 = p.nrm
  none : r.2.2 = none → r.2.1 = last ∧ ∃ x ∈ Diff A B, last ≤ x.nrm

theorem sqrt_tri {l : Lib} (hl : l.Exact) (a b d : V3 ℝ) : Real.sqrt (l.tri 0 a b d).1 = (l.tri 0 a b d).2.nrm := by
  rw [hl.tri_val, show (l.tri 0 a b d).2 - 0 = (l.tri 0 a b d).2 by v3]; rfl

theorem sqrt_seg {l : Lib} (hl : l.Exact) (a b : V3 ℝ) : Real.sqrt (l.seg 0 a b).1 = (l.seg 0 a b).2.nrm := by
  rw [hl.seg_val, show (l.seg 0 a b).2 - 0 = (l.seg 0 a b).2 by v3]; rfl

theorem reduce_ok {l : Lib} (hl : l.Exact) {A B : Set (V3 ℝ)} (hA : ConvexSet A) (hB : ConvexSet B) {s0 s1 s2 s3 : SP}
    (h0 : Made A B s0) (h1 : Made A B s1) (h2 : Made A B s2) (h3 : Made A B s3) (last : ℝ) :
    NearOk A B last (reduce l s0 s1 s2 s3 last) := by
  have hM := diff_isConvex hA hB
  -- the state of the loop
  let P : ℝ × ℕ × Option (V3 ℝ) → Prop := fun b =>
    (b.2.1 < 3 ∧ ∃ p, b.2.2 = some p ∧ b.1 = p.nrm ∧
      HullOf [(if b.2.1 = 0 then s3 else s0).v, (if b.2.1 = 1 then s3 else s1).v, (if b.2.1 = 2 then s3 else s2).v] p) ∨
    (b.2.1 = 3 ∧ b.2.2 = Option.none ∧ b.1 = last)
  have step : ∀ b i, i < 3 → P b → P (reduceStep l s0 s1 s2 s3 b i) := by
    intro b i hi hb
    unfold reduceStep
    split
    · exact Or.inl ⟨hi, _, rfl, sqrt_tri hl _ _ _, hl.tri_mem _ _ _ _⟩
    · exact hb
  have first : (reduceStep l s0 s1 s2 s3 (last, 3, Option.none) 0).2.2 = Option.none →
      last ≤ (l.tri 0 s3.v s1.v s2.v).2.nrm := by
    unfold reduceStep
    split
    · intro h; simp at h
    · rename_i h
      intro _
      push Not at h
      have h' : last ≤ Real.sqrt (l.tri 0 s3.v s1.v s2.v).1 := h
      rwa [sqrt_tri hl] at h'
  have keep : ∀ b i, (reduceStep l s0 s1 s2 s3 b i).2.2 = Option.none → b.2.2 = Option.none := by
    intro b i
    unfold reduceStep
    split
    · intro h; simp at h
    · exact id
  have hall : P ([0, 1, 2].foldl (reduceStep l s0 s1 s2 s3) (last, 3, Option.none)) := by
    simp only [List.foldl_cons, List.foldl_nil]
    exact step _ _ (by norm_num) (step _ _ (by norm_num) (step _ _ (by norm_num) (Or.inr ⟨rfl, rfl, rfl⟩)))
  have hsel : ∀ i j : ℕ, ∀ s, Made A B s → Made A B (if i = j then s3 else s) := by
    intro i j s hs; split <;> assumption
  refine ⟨made_of ⟨hsel _ _ _ h0, hsel _ _ _ h1, hsel _ _ _ h2⟩ (by simp [reduce]) (by simp [reduce]), by simp [reduce], ?_, ?_⟩
  · intro p hp
    rcases hall with ⟨_, q, e1, e2, e3⟩ | ⟨_, e1, _⟩
    · have : p = q := by
        have hp' : ([0, 1, 2].foldl (reduceStep l s0 s1 s2 s3) (last, 3, Option.none)).2.2 = Option.some p := hp
        rw [e1] at hp'; exact (Option.some.inj hp').symm
      subst this
      exact ⟨e3, e2⟩
    · have hp' : ([0, 1, 2].foldl (reduceStep l s0 s1 s2 s3) (last, 3, Option.none)).2.2 = Option.some p := hp
      rw [e1] at hp'; simp at hp'
  · intro hn
    rcases hall with ⟨_, q, e1, _, _⟩ | ⟨_, _, e2⟩
    · have hn' : ([0, 1, 2].foldl (reduceStep l s0 s1 s2 s3) (last, 3, Option.none)).2.2 = Option.none := hn
      rw [e1] at hn'; simp at hn'
    · refine ⟨e2, _, hull_sub hM (by simp [h3.diff, h1.diff, h2.diff]) (hl.tri_mem 0 s3.v s1.v s2.v), first ?_⟩
      exact keep _ _ (keep _ _ hn)

theorem nearest_ok {l : Lib} (hl : l.Exact) {A B : Set (V3 ℝ)} (hA : ConvexSet A) (hB : ConvexSet B) {s : List SP} (hs : Ok A B s)
    (last : ℝ) : NearOk A B last (nearest l s last) := by
  match s, hs with
  | [a], hs =>
    refine ⟨hs, by simp [nearest], ?_, by simp [nearest]⟩
    intro p hp
    have : p = a.v := (Option.some.inj hp).symm
    subst this
    exact ⟨.pt (by simp [nearest]), rfl⟩
  | [a, b], hs =>
    refine ⟨hs, by simp [nearest], ?_, by simp [nearest]⟩
    intro p hp
    have : p = (l.seg 0 a.v b.v).2 := (Option.some.inj hp).symm
    subst this
    exact ⟨hl.seg_mem _ _ _, sqrt_seg hl _ _⟩
  | [a, b, d], hs =>
    refine ⟨hs, by simp [nearest], ?_, by simp [nearest]⟩
    intro p hp
    have : p = (l.tri 0 a.v b.v d.v).2 := (Option.some.inj hp).symm
    subst this
    exact ⟨hl.tri_mem _ _ _ _, sqrt_tri hl _ _ _⟩
  | [a, b, d, e], hs =>
    exact reduce_ok hl hA hB (hs.1 a (by simp)) (hs.1 b (by simp)) (hs.1 d (by simp)) (hs.1 e (by simp)) last
  | _ :: _ :: _ :: _ :: _ :: _, hs => exact absurd hs.2.2 (by simp)
  | [], hs => exact absurd rfl hs.2.1

/-- What is known of the outcome of `_ccdDist`. -/
def DOutOk (c : Cfg) (R : ℝ) (A B : Set (V3 ℝ)) : DOut → Prop
  | .ret d pts => (∃ x ∈ Diff A B, x.nrm = d) ∧ ∀ q, pts = some q → PtsOk c R A B d q
  | .minus => True
  | .undef => True

theorem closest_none {c : Cfg} {s : List SP} (h : s.length ≠ 1) : closestPoints c s none = none := by
  match s, h with
  | [], _ => rfl
  | [_], h => simp at h
  | [_, _], _ => rfl
  | [_, _, _], _ => rfl
  | _ :: _ :: _ :: _ :: _, _ => rfl

theorem nearest_none {l : Lib} {s : List SP} (hs : s ≠ []) {last : ℝ} (h : (nearest l s last).2.2 = none) (h4 : s.length ≤ 4) :
    (nearest l s last).1.length = 3 := by
  match s, h with
  | [_], h => simp [nearest] at h
  | [_, _], h => simp [nearest] at h
  | [_, _, _], h => simp [nearest] at h
  | [_, _, _, _], h => simp [nearest, reduce]
  | _ :: _ :: _ :: _ :: _ :: _, h => simp at h4; omega
  | [], h => simp at hs

theorem distLoop_ok {l : Lib} (hl : l.Exact) {c : Cfg} (he : 0 < c.eps) {A B : Set (V3 ℝ)} (hA : ConvexSet A)
    (hB : ConvexSet B) {R : ℝ} (hR : ∀ x ∈ Diff A B, x.nrm ≤ R) {sup : V3 ℝ → Option SP} {slack : ℝ} (hs : Supports sup A B slack) (n : ℕ) (s : List SP) (last : ℝ)
    (ho : Ok A B s) (hlast : (∀ x ∈ Diff A B, x.nrm < last) ∨ ∃ x ∈ Diff A B, x.nrm = last) :
    DOutOk c R A B (distLoop l c sup n s last) := by
  have hM := diff_isConvex hA hB
  induction n generalizing s last with
  | zero => trivial
  | succ n ih =>
    have hn := nearest_ok hl hA hB ho last
    have hsub : ∀ p, HullOf ((nearest l s last).1.map SP.v) p → p ∈ Diff A B := by
      intro p hp
      refine hull_sub hM ?_ hp
      intro q hq
      obtain ⟨r, hr, rfl⟩ := List.mem_map.1 hq
      exact (hn.ok.1 r hr).diff
    have hreal : ∃ x ∈ Diff A B, x.nrm = (nearest l s last).2.1 := by
      rcases hp : (nearest l s last).2.2 with _ | p
      · obtain ⟨e, y, hy, hle⟩ := hn.none hp
        rcases hlast with h | h
        · exact absurd (h y hy) (not_lt.2 hle)
        · rw [e]; exact h
      · obtain ⟨h1, h2⟩ := hn.some p hp
        exact ⟨p, hsub p h1, h2.symm⟩
    unfold distLoop
    simp only
    split
    · refine ⟨hreal, ?_⟩
      intro q hq
      rcases hp : (nearest l s last).2.2 with _ | p
      · rw [hp, closest_none (by rw [nearest_none ho.2.1 hp ho.2.2]; norm_num)] at hq
        simp at hq
      · rw [hp] at hq
        obtain ⟨h1, h2⟩ := hn.some p hp
        rw [h2]
        exact closestPoints_ok he hA hB hR hn.ok hn.three h1 hq
    rcases hp : (nearest l s last).2.2 with _ | p
    · trivial
    simp only
    split
    · trivial
    rcases hw : sup (-p).normalized with _ | w
    · trivial
    simp only
    obtain ⟨h1, h2⟩ := hn.some p hp
    split
    · refine ⟨hreal, ?_⟩
      intro q hq
      rw [h2]
      exact closestPoints_ok he hA hB hR hn.ok hn.three h1 hq
    · refine ih _ _ ⟨?_, by simp, ?_⟩ (Or.inr hreal)
      · intro r hr
        rcases List.mem_append.1 hr with h | h
        · exact hn.ok.1 r h
        · rw [List.mem_singleton.1 h]; exact hs.made _ _ hw
      · have := hn.three
        simp; omega

/-- Every iteration that goes on has made the distance smaller by the tolerance. -/
theorem distLoop_minus {l : Lib} (hl : l.Exact) {c : Cfg} {A B : Set (V3 ℝ)} (hA : ConvexSet A)
    (hB : ConvexSet B) {sup : V3 ℝ → Option SP} {slack : ℝ} (hs : Supports sup A B slack) (n : ℕ) (s : List SP) (last : ℝ)
    (ho : Ok A B s) (h0 : 0 ≤ last) (hm : distLoop l c sup n s last = .minus) : n * c.tol ≤ last := by
  induction n generalizing s last with
  | zero => simpa using h0
  | succ n ih =>
    have hn := nearest_ok hl hA hB ho last
    unfold distLoop at hm
    simp only at hm
    split at hm
    · simp at hm
    rename_i ht
    push Not at ht
    rcases hp : (nearest l s last).2.2 with _ | p
    · rw [hp] at hm; simp at hm
    rw [hp] at hm
    simp only at hm
    split at hm
    · simp at hm
    rcases hw : sup (-p).normalized with _ | w
    · rw [hw] at hm; simp at hm
    rw [hw] at hm
    simp only at hm
    obtain ⟨h1, h2⟩ := hn.some p hp
    split at hm
    · simp at hm
    · have := ih _ _ ⟨?_, by simp, ?_⟩ (by rw [h2]; exact nrm_nonneg _) hm
      · push_cast; linarith
      · intro r hr
        rcases List.mem_append.1 hr with h | h
        · exact hn.ok.1 r h
        · rw [List.mem_singleton.1 h]; exact hs.made _ _ hw
      · have := hn.three
        simp; omega

end Ccd
end Fcl
