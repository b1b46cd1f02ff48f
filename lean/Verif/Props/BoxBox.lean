import Verif.Narrow.BoxBoxSpec
import Verif.Narrow.BoxBoxLemmas
import Verif.Geom.Thick
import Mathlib.Tactic.IntervalCases

/-!
# C99 to C101: collision of two boxes
-/

namespace Fcl
namespace BoxBox
open V3 Zono

variable {eps big : ℝ} {ang : List (ℝ × ℝ) → ℕ → ℝ} {s1 s2 : V3 ℝ} {X1 X2 : Pose ℝ} {contacts : Option (List CPoint)}

/-! ### Gaps in the world frame -/

theorem mem_box (s x : V3 ℝ) : x ∈ (Geo.box s).pts ↔ |x.x| ≤ (half s).x ∧ |x.y| ≤ (half s).y ∧ |x.z| ≤ (half s).z := by
  show (_ ∧ _ ∧ _) ↔ _
  simp only [half, smul_x, smul_y, smul_z, abs_le, one_div, ← div_eq_inv_mul]

theorem gap_smul (k : ℝ) (n : V3 ℝ) : gap s1 X1 s2 X2 (k • n) = |k| * gap s1 X1 s2 X2 n := by
  rw [gap, gap, dot_smul, abs_mul, spread_smul]; ring

/-- The gap is what the points of the boxes have between them. -/
theorem gap_points (h1 : X1.Rigid) (w1 : Sides s1) (w2 : Sides s2) (n : V3 ℝ) :
    (∀ p ∈ BoxAt s1 X1, ∀ q ∈ BoxAt s2 X2, gap s1 X1 s2 X2 n ≤ (sg ((off X1 X2).dot n) • X1.R.mulVec n).dot (q - p)) ∧
      ∃ p ∈ BoxAt s1 X1, ∃ q ∈ BoxAt s2 X2, (sg ((off X1 X2).dot n) • X1.R.mulVec n).dot (q - p) = gap s1 X1 s2 X2 n := by
  have hA := half_nonneg w1
  have hB := half_nonneg w2
  have key : ∀ x y : V3 ℝ, (X1.R.mulVec n).dot (X2.R.mulVec y + X2.t - (X1.R.mulVec x + X1.t)) =
      (off X1 X2).dot n + (y.x * ((rel X1 X2).col 0).dot n + y.y * ((rel X1 X2).col 1).dot n + y.z * ((rel X1 X2).col 2).dot n) -
        (x.x * n.x + x.y * n.y + x.z * n.z) := by
    intro x y
    have e1 : (X1.R.mulVec n).dot (X2.R.mulVec y + X2.t - (X1.R.mulVec x + X1.t)) =
        n.dot ((rel X1 X2).mulVec y + off X1 X2 - x) := by
      rw [M3.dot_mulVec, rel, off, M3.mul_mulVec]
      congr 1
      rw [show X2.R.mulVec y + X2.t - (X1.R.mulVec x + X1.t) = X2.R.mulVec y + (X2.t - X1.t) - X1.R.mulVec x by v3,
        M3.mulVec_sub, M3.mulVec_add, M3.Orthonormal.tr_mul h1]
    rw [e1]
    simp only [dot, M3.mulVec, M3.col, V3.get, add_x, add_y, add_z, sub_x, sub_y, sub_z]; ring
  obtain ⟨t, et⟩ : ∃ t, t = sg ((off X1 X2).dot n) := ⟨_, rfl⟩
  have tc : t = 1 ∨ t = -1 := et ▸ sg_cases _
  have ta : t * (off X1 X2).dot n = |(off X1 X2).dot n| := et ▸ sg_mul _
  rw [← et, gap, ← ta, spread_edges]
  have tt : |t| = 1 := by rcases tc with h | h <;> rw [h] <;> simp
  constructor
  · rintro _ ⟨x, hx, rfl⟩ _ ⟨y, hy, rfl⟩
    rw [mem_box] at hx hy
    rw [smul_dot, key]
    have b : ∀ {c z w : ℝ}, |z| ≤ w → |t * (z * c)| ≤ w * |c| := fun hz => by
      rw [abs_mul, tt, one_mul, abs_mul]; exact mul_le_mul_of_nonneg_right hz (abs_nonneg _)
    have a1 := abs_le.1 (b (c := n.x) hx.1)
    have a2 := abs_le.1 (b (c := n.y) hx.2.1)
    have a3 := abs_le.1 (b (c := n.z) hx.2.2)
    have b1 := abs_le.1 (b (c := ((rel X1 X2).col 0).dot n) hy.1)
    have b2 := abs_le.1 (b (c := ((rel X1 X2).col 1).dot n) hy.2.1)
    have b3 := abs_le.1 (b (c := ((rel X1 X2).col 2).dot n) hy.2.2)
    linarith
  · have sa : ∀ c e : ℝ, 0 ≤ c → |t * sg e * c| ≤ c := fun c e hc => by
      rw [abs_mul, abs_mul, tt, one_mul, abs_of_nonneg hc]
      rcases sg_cases e with h | h <;> rw [h] <;> simp
    have sn : ∀ c e : ℝ, 0 ≤ c → |-(t * sg e * c)| ≤ c := fun c e hc => by rw [abs_neg]; exact sa c e hc
    refine ⟨_, ⟨⟨t * sg n.x * (half s1).x, t * sg n.y * (half s1).y, t * sg n.z * (half s1).z⟩, (mem_box _ _).2
      ⟨sa _ _ hA.1, sa _ _ hA.2.1, sa _ _ hA.2.2⟩, rfl⟩, _, ⟨⟨-(t * sg (((rel X1 X2).col 0).dot n) * (half s2).x),
        -(t * sg (((rel X1 X2).col 1).dot n) * (half s2).y), -(t * sg (((rel X1 X2).col 2).dot n) * (half s2).z)⟩, (mem_box _ _).2
      ⟨sn _ _ hB.1, sn _ _ hB.2.1, sn _ _ hB.2.2⟩, rfl⟩, ?_⟩
    rw [smul_dot, key]
    have t2 : t * t = 1 := by rcases tc with h | h <;> rw [h] <;> norm_num
    rw [← sg_mul n.x, ← sg_mul n.y, ← sg_mul n.z, ← sg_mul (((rel X1 X2).col 0).dot n), ← sg_mul (((rel X1 X2).col 1).dot n),
      ← sg_mul (((rel X1 X2).col 2).dot n)]
    dsimp only
    generalize sg n.x = a1
    generalize sg n.y = a2
    generalize sg n.z = a3
    generalize sg (((rel X1 X2).col 0).dot n) = b1
    generalize sg (((rel X1 X2).col 1).dot n) = b2
    generalize sg (((rel X1 X2).col 2).dot n) = b3
    linear_combination (-((half s1).x * (a1 * n.x) + (half s1).y * (a2 * n.y) + (half s1).z * (a3 * n.z) +
      (half s2).x * (b1 * ((rel X1 X2).col 0).dot n) + (half s2).y * (b2 * ((rel X1 X2).col 1).dot n) +
      (half s2).z * (b3 * ((rel X1 X2).col 2).dot n))) * t2

theorem rotate_cross {M : M3 ℝ} (h : M.Orthonormal) : ∃ D : ℝ, (D = 1 ∨ D = -1) ∧ ∀ a b : V3 ℝ,
    M.mulVec (a.cross b) = D • (M.mulVec a).cross (M.mulVec b) := by
  obtain ⟨⟨m00, m01, m02⟩, ⟨m10, m11, m12⟩, ⟨m20, m21, m22⟩⟩ := M
  obtain ⟨D, hD, -, ⟨c00, c10, c20⟩, ⟨c01, c11, c21⟩, c02, c12, c22⟩ := h.cofactors
  refine ⟨D, mul_self_eq_one_iff.1 hD, fun a b => ?_⟩
  obtain ⟨a0, a1, a2⟩ := a
  obtain ⟨b0, b1, b2⟩ := b
  apply ext' <;> simp only [M3.mulVec, cross, dot, smul_x, smul_y, smul_z]
  · linear_combination (-D) * (c00 * (a1 * b2 - a2 * b1) + c01 * (a2 * b0 - a0 * b2) + c02 * (a0 * b1 - a1 * b0)) -
      (m00 * (a1 * b2 - a2 * b1) + m01 * (a2 * b0 - a0 * b2) + m02 * (a0 * b1 - a1 * b0)) * hD
  · linear_combination (-D) * (c10 * (a1 * b2 - a2 * b1) + c11 * (a2 * b0 - a0 * b2) + c12 * (a0 * b1 - a1 * b0)) -
      (m10 * (a1 * b2 - a2 * b1) + m11 * (a2 * b0 - a0 * b2) + m12 * (a0 * b1 - a1 * b0)) * hD
  · linear_combination (-D) * (c20 * (a1 * b2 - a2 * b1) + c21 * (a2 * b0 - a0 * b2) + c22 * (a0 * b1 - a1 * b0)) -
      (m20 * (a1 * b2 - a2 * b1) + m21 * (a2 * b0 - a0 * b2) + m22 * (a0 * b1 - a1 * b0)) * hD

theorem world_edgeAxis (h1 : X1.Rigid) : ∃ D : ℝ, (D = 1 ∨ D = -1) ∧ ∀ c,
    X1.R.mulVec (edgeAxis (rel X1 X2) c) = D • (X1.R.col (edge1 c)).cross (X2.R.col (edge2 c)) := by
  obtain ⟨D, hD, h⟩ := rotate_cross h1
  refine ⟨D, hD, fun c => ?_⟩
  rw [edgeAxis, h, one_col, rel, rel_col h1]

theorem slack_bound (he : 0 ≤ eps) (w1 : Sides s1) (w2 : Sides s2) (c : ℕ) :
    pad eps (half s1) (half s2) * padded (half s1) (half s2) c ≤ slack eps s1 s2 := by
  have hA := half_nonneg w1
  have hB := half_nonneg w2
  have hp := pad_nonneg he (half s1) (half s2)
  have e : pad eps (half s1) (half s2) = 10 * eps * max 1 (max (max (max (s1.x / 2) (s1.y / 2)) (s1.z / 2)) (max (max (s2.x / 2) (s2.y / 2)) (s2.z / 2))) := by
    rw [pad, max_comm]
    simp only [half, smul_x, smul_y, smul_z, one_div, ← div_eq_inv_mul]; ring
  rw [slack, ← e]
  refine mul_le_mul_of_nonneg_left ?_ hp
  have k : ∀ (V : V3 ℝ) (i : Fin 3), 0 ≤ V.x ∧ 0 ≤ V.y ∧ 0 ≤ V.z → 0 ≤ V.get i := fun V i h => by
    obtain ⟨a, b, c⟩ := h
    fin_cases i <;> simp [V3.get] <;> assumption
  have k1 := k _ (edge1 c) hA
  have k2 := k _ (edge2 c) hB
  rw [padded]
  simp only [half, smul_x, smul_y, smul_z] at *
  linarith

/-- The two boxes nearly touch if the gaps along the sides are not positive and the others at most `m`. -/
theorem near_of_gaps (h1 : X1.Rigid) (h2 : X2.Rigid) (w1 : Sides s1) (w2 : Sides s2) {m : ℝ}
    (hf : ∀ c, 1 ≤ c → c ≤ 6 → gap s1 X1 s2 X2 (faceAxis (rel X1 X2) c) ≤ 0)
    (hg : ∀ c, 7 ≤ c → c ≤ 15 → gap s1 X1 s2 X2 (edgeAxis (rel X1 X2) c) ≤ m) : NearTouch s1 X1 s2 X2 m := by
  by_cases h : ∀ c, 7 ≤ c → c ≤ 15 → gap s1 X1 s2 X2 (edgeAxis (rel X1 X2) c) ≤ 0
  · exact Or.inl (touch_of_gaps h1 h2 w1 w2 hf h)
  · push Not at h
    obtain ⟨c, c7, c15, hp⟩ := h
    obtain ⟨D, hD, hw⟩ := world_edgeAxis (X2 := X2) h1
    obtain ⟨g1, p, hpm, q, hqm, g2⟩ := gap_points (X2 := X2) h1 w1 w2 (edgeAxis (rel X1 X2) c)
    rw [hw] at g1 g2
    refine Or.inr ⟨edge1 c, edge2 c, sg ((off X1 X2).dot (edgeAxis (rel X1 X2) c)) * D, ?_, ?_⟩
    · rcases sg_cases ((off X1 X2).dot (edgeAxis (rel X1 X2) c)) with e | e <;> rcases hD with d | d <;> rw [e, d] <;> simp
    · have e : ∀ v : V3 ℝ, (sg ((off X1 X2).dot (edgeAxis (rel X1 X2) c)) * D) • v = sg ((off X1 X2).dot (edgeAxis (rel X1 X2) c)) • D • v := fun v => by v3
      rw [e]
      exact ⟨fun p hp' q hq => hp.trans_le (g1 p hp' q hq), p, hpm, q, hqm, g2.le.trans (hg c c7 c15)⟩

theorem intersect_fst (h1 : X1.Rigid) (h2 : X2.Rigid) (he : 0 ≤ eps) :
    (boxBoxIntersect eps big ang s1 X1 s2 X2 contacts).1 = true ↔ ∃ st, sat eps big s1 X1 s2 X2 = some st := by
  rw [boxBoxIntersect, boxBox2]
  rcases h : sat eps big s1 X1 s2 X2 with _ | st
  · simp
  · have : st.code ≠ 0 := by
      rcases (sat_some h1 h2 he h).best with ⟨k, -⟩ | ⟨k, -⟩ <;> omega
    simp [this]

/-! ### C99: the answer -/

/-- C99: If the function denies the collision, the boxes have no common point. -/
theorem C99_apart (h1 : X1.Rigid) (h2 : X2.Rigid) (w1 : Sides s1) (w2 : Sides s2) (he : 0 ≤ eps)
    (hb : (s1.x + s2.x + s2.y + s2.z) / 2 < big)
    (h : (boxBoxIntersect eps big ang s1 X1 s2 X2 contacts).1 = false) : ¬ Touch (BoxAt s1 X1) (BoxAt s2 X2) := by
  intro ht
  rcases hs : sat eps big s1 X1 s2 X2 with _ | st
  · obtain ⟨n, hn⟩ := sat_none h1 h2 w1 w2 he (by simp only [half, smul_x, smul_y, smul_z]; linarith) hs
    exact absurd (gap_of_touch h1 ht n) (not_le.2 hn)
  · have := (intersect_fst (ang := ang) (contacts := contacts) (big := big) (s1 := s1) (s2 := s2) h1 h2 he).2 ⟨st, hs⟩
    rw [this] at h; cases h

/-- C99: If the function reports a collision, the boxes touch up to the tolerance of the tests on pairs of edges. -/
theorem C99_near_partial (h1 : X1.Rigid) (h2 : X2.Rigid) (w1 : Sides s1) (w2 : Sides s2) (he : 0 ≤ eps)
    (h : (boxBoxIntersect eps big ang s1 X1 s2 X2 contacts).1 = true) : NearTouch s1 X1 s2 X2 (slack eps s1 s2) := by
  obtain ⟨st, hs⟩ := (intersect_fst h1 h2 he).1 h
  have P := sat_some h1 h2 he hs
  exact near_of_gaps h1 h2 w1 w2 (fun c c1 c6 => (P.faces c c1 c6).trans P.nonpos)
    fun c c7 c15 => (P.edges c c7 c15).trans (slack_bound he w1 w2 c)

theorem near_zero {m : ℝ} (hm : m ≤ 0) (h : NearTouch s1 X1 s2 X2 m) : Touch (BoxAt s1 X1) (BoxAt s2 X2) := by
  rcases h with h | ⟨i, j, k, -, hp, p, hpm, q, hqm, hl⟩
  · exact h
  · exact absurd (hp p hpm q hqm) (not_lt.2 (hl.trans hm))

/-- C99: Without rounding errors, and hence without the tolerance, the answer is exact. -/
theorem C99_exact (h1 : X1.Rigid) (h2 : X2.Rigid) (w1 : Sides s1) (w2 : Sides s2) (hb : (s1.x + s2.x + s2.y + s2.z) / 2 < big) :
    (boxBoxIntersect 0 big ang s1 X1 s2 X2 contacts).1 = true ↔ Touch (BoxAt s1 X1) (BoxAt s2 X2) := by
  constructor
  · intro h
    exact near_zero (by simp [slack]) (C99_near_partial h1 h2 w1 w2 le_rfl h)
  · intro h
    by_contra hn
    exact C99_apart h1 h2 w1 w2 le_rfl hb (Bool.eq_false_iff.2 hn) h

/-- For boxes with parallel sides every cross product of edges is a multiple of a side. -/
theorem aligned_edge (h1 : X1.Rigid) (ha : Aligned X1 X2) (c : ℕ) : ∃ c', 1 ≤ c' ∧ c' ≤ 6 ∧ ∃ k : ℝ,
    edgeAxis (rel X1 X2) c = k • faceAxis (rel X1 X2) c' := by
  obtain ⟨i, k, e⟩ := ha (edge2 c)
  have ec : (rel X1 X2).col (edge2 c) = k • (M3.one : M3 ℝ).col i := by
    have : ∀ u v : V3 ℝ, X1.R.mulVec u = X1.R.mulVec v → u = v := fun u v h => by
      rw [← M3.Orthonormal.tr_mul h1 u, h, M3.Orthonormal.tr_mul h1]
    apply this
    rw [rel, rel_col h1, e, M3.mulVec_smul, one_col]
  rw [edgeAxis, ec]
  have f1 : faceAxis (rel X1 X2) 1 = ⟨1, 0, 0⟩ := rfl
  have f2 : faceAxis (rel X1 X2) 2 = ⟨0, 1, 0⟩ := rfl
  have f3 : faceAxis (rel X1 X2) 3 = ⟨0, 0, 1⟩ := rfl
  generalize edge1 c = j
  fin_cases i <;> fin_cases j
  · exact ⟨1, by norm_num, by norm_num, 0, by rw [f1]; apply ext' <;> simp [cross, M3.one, M3.col, V3.get]⟩
  · exact ⟨3, by norm_num, by norm_num, -k, by rw [f3]; apply ext' <;> simp [cross, M3.one, M3.col, V3.get]⟩
  · exact ⟨2, by norm_num, by norm_num, k, by rw [f2]; apply ext' <;> simp [cross, M3.one, M3.col, V3.get]⟩
  · exact ⟨3, by norm_num, by norm_num, k, by rw [f3]; apply ext' <;> simp [cross, M3.one, M3.col, V3.get]⟩
  · exact ⟨1, by norm_num, by norm_num, 0, by rw [f1]; apply ext' <;> simp [cross, M3.one, M3.col, V3.get]⟩
  · exact ⟨1, by norm_num, by norm_num, -k, by rw [f1]; apply ext' <;> simp [cross, M3.one, M3.col, V3.get]⟩
  · exact ⟨2, by norm_num, by norm_num, -k, by rw [f2]; apply ext' <;> simp [cross, M3.one, M3.col, V3.get]⟩
  · exact ⟨1, by norm_num, by norm_num, k, by rw [f1]; apply ext' <;> simp [cross, M3.one, M3.col, V3.get]⟩
  · exact ⟨1, by norm_num, by norm_num, 0, by rw [f1]; apply ext' <;> simp [cross, M3.one, M3.col, V3.get]⟩

/-- For boxes with parallel sides it is enough to look at the sides. -/
theorem aligned_touch (h1 : X1.Rigid) (h2 : X2.Rigid) (w1 : Sides s1) (w2 : Sides s2) (ha : Aligned X1 X2)
    (hf : ∀ c, 1 ≤ c → c ≤ 6 → gap s1 X1 s2 X2 (faceAxis (rel X1 X2) c) ≤ 0) : Touch (BoxAt s1 X1) (BoxAt s2 X2) := by
  refine touch_of_gaps h1 h2 w1 w2 hf fun c c7 c15 => ?_
  obtain ⟨c', k1, k2, k, e⟩ := aligned_edge h1 ha c
  rw [e, gap_smul]
  exact mul_nonpos_of_nonneg_of_nonpos (abs_nonneg k) (hf c' k1 k2)

/-- C99: For boxes with parallel sides the answer is exact, with the tolerance. -/
theorem C99_aligned (h1 : X1.Rigid) (h2 : X2.Rigid) (w1 : Sides s1) (w2 : Sides s2) (he : 0 ≤ eps)
    (hb : (s1.x + s2.x + s2.y + s2.z) / 2 < big) (ha : Aligned X1 X2) :
    (boxBoxIntersect eps big ang s1 X1 s2 X2 contacts).1 = true ↔ Touch (BoxAt s1 X1) (BoxAt s2 X2) := by
  constructor
  · intro h
    obtain ⟨st, hs⟩ := (intersect_fst h1 h2 he).1 h
    have P := sat_some h1 h2 he hs
    exact aligned_touch h1 h2 w1 w2 ha fun c c1 c6 => (P.faces c c1 c6).trans P.nonpos
  · intro h
    by_contra hn
    exact C99_apart h1 h2 w1 w2 he hb (Bool.eq_false_iff.2 hn) h

/-- A rotation about an axis that is no side. -/
noncomputable def exTurn : M3 ℝ := ⟨⟨3 / 5, 0, -4 / 5⟩, ⟨12 / 25, 4 / 5, 9 / 25⟩, ⟨16 / 25, -3 / 5, 12 / 25⟩⟩

theorem exTurn_rigid (t : V3 ℝ) : (⟨exTurn, t⟩ : Pose ℝ).Rigid := by
  refine M3.orthonormal_of_rows ?_ <;> norm_num [exTurn, dot, M3.mul, M3.tr, M3.one, M3.col, M3.mulVec, V3.get]

set_option maxHeartbeats 4000000 in
/-- C99: The tolerance does let boxes through that are apart: two cubes of side 2, with a gap of 40 times the machine epsilon. -/
theorem C99_violated_gap (he : 0 < eps) (h3 : eps ≤ 1 / 1000) (hb : 10 ≤ big) :
    (boxBoxIntersect eps big ang ⟨2, 2, 2⟩ Pose.id ⟨2, 2, 2⟩ ⟨exTurn, (14 / 5 + 40 * eps) • ⟨0, 3 / 5, 4 / 5⟩⟩ contacts).1 = true ∧
      ¬ Touch (BoxAt ⟨2, 2, 2⟩ Pose.id) (BoxAt ⟨2, 2, 2⟩ ⟨exTurn, (14 / 5 + 40 * eps) • ⟨0, 3 / 5, 4 / 5⟩⟩) := by
  have w : Sides ⟨2, 2, 2⟩ := by refine ⟨?_, ?_, ?_⟩ <;> norm_num
  have er : rel Pose.id ⟨exTurn, (14 / 5 + 40 * eps) • ⟨0, 3 / 5, 4 / 5⟩⟩ = exTurn := by
    norm_num [rel, Pose.id, exTurn, M3.tr, M3.mul, M3.one, M3.mulVec, dot, M3.col, V3.get]
  have eo : off Pose.id ⟨exTurn, (14 / 5 + 40 * eps) • ⟨0, 3 / 5, 4 / 5⟩⟩ = (14 / 5 + 40 * eps) • (⟨0, 3 / 5, 4 / 5⟩ : V3 ℝ) := by
    apply ext' <;> norm_num [off, Pose.id, M3.tr, M3.one, M3.mulVec, dot, M3.col, V3.get]
  have k0 : 0 ≤ 14 / 5 + 40 * eps := by linarith
  constructor
  · rw [intersect_fst Pose.id_rigid (exTurn_rigid _) he.le]
    rcases hs : sat eps big ⟨2, 2, 2⟩ Pose.id ⟨2, 2, 2⟩ ⟨exTurn, (14 / 5 + 40 * eps) • ⟨0, 3 / 5, 4 / 5⟩⟩ with _ | st
    · exfalso
      rcases sat_none_test Pose.id_rigid (exTurn_rigid _) w w he.le (by norm_num [half]; linarith) hs with ⟨c, c1, c6, h⟩ | ⟨c, c1, c6, h⟩
      · rw [gap, er, eo, smul_dot, abs_mul, abs_of_nonneg k0] at h
        interval_cases c <;> norm_num [faceAxis, exTurn, M3.one, M3.col, V3.get, dot, spread, edges, half, abs_of_pos, abs_of_neg] at h <;> linarith
      · rw [gap, er, eo, smul_dot, abs_mul, abs_of_nonneg k0] at h
        interval_cases c <;> norm_num [edgeAxis, edge1, edge2, exTurn, M3.one, M3.col, V3.get, dot, cross, spread, edges, half, pad, padded, abs_of_pos, abs_of_neg] at h <;> linarith
    · exact ⟨st, hs⟩
  · intro h
    have := gap_of_touch Pose.id_rigid h ⟨0, 3 / 5, 4 / 5⟩
    rw [gap, er, eo, smul_dot, abs_mul, abs_of_nonneg k0] at this
    norm_num [exTurn, M3.one, M3.col, V3.get, dot, spread, edges, half, abs_of_pos, abs_of_neg] at this
    linarith

/-! ### C100: normal and depth -/

theorem box2_some {maxc : ℕ} {o : Out} (h : boxBox2 eps big ang maxc s1 X1 s2 X2 = some o) :
    ∃ st, sat eps big s1 X1 s2 X2 = some st ∧ o.code = st.code ∧ o.normal = st.normal ∧ o.depth = -st.s ∧
      o.contacts = if st.code > 6 then [edgeContact X1 (half s1) X2 (half s2) st] else faceContacts ang maxc X1 (half s1) X2 (half s2) st := by
  obtain ⟨st, hs, rfl⟩ := Option.map_eq_some_iff.1 h
  exact ⟨st, hs, rfl, rfl, rfl, rfl⟩

/-- The normal is the direction of the axis that was found, from the first box to the second. -/
theorem normal_axis (h1 : X1.Rigid) (h2 : X2.Rigid) (w1 : Sides s1) (w2 : Sides s2) (he : 0 ≤ eps) {st : Sat} (P : Passed eps s1 X1 s2 X2 st) :
    ∃ w : V3 ℝ, w.nrm = 1 ∧ st.normal = sg ((off X1 X2).dot w) • X1.R.mulVec w ∧ st.s ≤ gap s1 X1 s2 X2 w ∧ (st.code ≤ 6 → st.s = gap s1 X1 s2 X2 w) ∧
      (eps = 0 → st.s = gap s1 X1 s2 X2 w) ∧ st.dir = X1.R.mulVec w := by
  have sgn : ∀ (w d : V3 ℝ), st.dir = X1.R.mulVec w → st.invert = decide ((off X1 X2).dot w < 0) → st.normal = sg ((off X1 X2).dot w) • X1.R.mulVec w :=
    fun w d e1 e2 => by
      rw [Sat.normal, e1, e2, sg]
      by_cases h : (off X1 X2).dot w < 0
      · rw [if_pos (decide_eq_true h), if_neg (not_le.2 h)]; v3
      · rw [if_neg (by simp [h]), if_pos (not_lt.1 h)]; v3
  rcases P.best with ⟨c1, c6, b1, b2, b3⟩ | ⟨c1, c6, hl, b1, -, b2, b3⟩
  · have e : st.dir = X1.R.mulVec (faceAxis (rel X1 X2) st.code) := by rw [b2, rel, world_faceAxis h1]
    exact ⟨faceAxis (rel X1 X2) st.code, faceAxis_unit (rel_orthonormal h1 h2) _, sgn _ 0 e b3, b1.le, fun _ => b1, fun _ => b1, e⟩
  · have l0 : 0 < (edgeAxis (rel X1 X2) st.code).nrm := he.trans_lt hl
    have li : 0 < 1 / (edgeAxis (rel X1 X2) st.code).nrm := one_div_pos.2 l0
    have hp := mul_nonneg (pad_nonneg he (half s1) (half s2)) (padded_nonneg (half_nonneg w1) (half_nonneg w2) st.code)
    have eg : gap s1 X1 s2 X2 ((1 / (edgeAxis (rel X1 X2) st.code).nrm) • edgeAxis (rel X1 X2) st.code) =
        gap s1 X1 s2 X2 (edgeAxis (rel X1 X2) st.code) / (edgeAxis (rel X1 X2) st.code).nrm := by
      rw [gap_smul, abs_of_pos li, one_div_mul_eq_div]
    refine ⟨(1 / (edgeAxis (rel X1 X2) st.code).nrm) • edgeAxis (rel X1 X2) st.code, ?_, sgn _ 0 b2 ?_, ?_, fun h => by omega, fun h0 => ?_, b2⟩
    · rw [nrm_smul, abs_of_pos li, one_div, inv_mul_cancel₀ l0.ne']
    · rw [b3, dot_smul]
      congr 1
      exact propext ⟨fun h => mul_neg_of_pos_of_neg li h, fun h => by
        by_contra hn
        exact absurd (mul_nonneg li.le (not_lt.1 hn)) (not_le.2 h)⟩
    · rw [eg, b1]
      exact div_le_div_of_nonneg_right (by linarith) l0.le
    · subst h0
      rw [eg, b1]; simp [pad]

theorem normal_unit (h1 : X1.Rigid) {w : V3 ℝ} (hw : w.nrm = 1) (z : ℝ) : (sg z • X1.R.mulVec w).nrm = 1 := by
  rw [nrm_smul, M3.Orthonormal.nrm h1, hw, mul_one]
  rcases sg_cases z with h | h <;> rw [h] <;> simp

/-- C100: The normal is a unit vector, and moving the second box along it by any more than the reported depth separates the boxes. -/
theorem C100_separates (h1 : X1.Rigid) (h2 : X2.Rigid) (w1 : Sides s1) (w2 : Sides s2) (he : 0 ≤ eps) {maxc : ℕ} {o : Out}
    (h : boxBox2 eps big ang maxc s1 X1 s2 X2 = some o) :
    0 ≤ o.depth ∧ SeparatesAlong (BoxAt s1 X1) (BoxAt s2 X2) o.normal o.depth := by
  obtain ⟨st, hs, -, en, ed, -⟩ := box2_some h
  have P := sat_some h1 h2 he hs
  obtain ⟨w, hw, hn, hg, -⟩ := normal_axis h1 h2 w1 w2 he P
  rw [en, ed]
  have hu : st.normal.nrm = 1 := by rw [hn]; exact normal_unit h1 hw _
  refine ⟨neg_nonneg.2 P.nonpos, by rw [len_eq, hu], fun e he' => ?_⟩
  rintro ⟨p, hp, q, hq, rfl⟩
  have k := (gap_points h1 w1 w2 w).1 _ hp q hq
  rw [← hn] at k
  have u1 : st.normal.dot st.normal = 1 := by rw [← nrm_mul_self, hu, one_mul]
  have e1 : st.normal.dot (q - (q + ⟨(-st.s + e) * st.normal.x, (-st.s + e) * st.normal.y, (-st.s + e) * st.normal.z⟩)) = -(-st.s + e) * st.normal.dot st.normal := by
    simp only [dot, sub_x, sub_y, sub_z, add_x, add_y, add_z]; ring
  rw [e1, u1] at k
  linarith

theorem moved_box (t : V3 ℝ) : Moved (BoxAt s2 X2) t = BoxAt s2 ⟨X2.R, X2.t + t⟩ := by
  ext q
  constructor
  · rintro ⟨_, ⟨x, hx, rfl⟩, rfl⟩
    exact ⟨x, hx, by v3⟩
  · rintro ⟨x, hx, rfl⟩
    exact ⟨_, ⟨x, hx, rfl⟩, by v3⟩

theorem gap_moved (h1 : X1.Rigid) (t n : V3 ℝ) : gap s1 X1 s2 ⟨X2.R, X2.t + t⟩ n ≤ gap s1 X1 s2 X2 n + t.nrm * n.nrm := by
  have e : off X1 ⟨X2.R, X2.t + t⟩ = off X1 X2 + X1.R.tr.mulVec t := by
    rw [off, off, ← M3.mulVec_add]
    congr 1
    show X2.t + t - X1.t = _
    v3
  have er : rel X1 ⟨X2.R, X2.t + t⟩ = rel X1 X2 := rfl
  rw [gap, gap, e, er, add_dot]
  have a := abs_add_le ((off X1 X2).dot n) ((X1.R.tr.mulVec t).dot n)
  have b : |(X1.R.tr.mulVec t).dot n| ≤ t.nrm * n.nrm := by
    have k1 := dot_le (X1.R.tr.mulVec t) n
    have k2 := dot_le (-(X1.R.tr.mulVec t)) n
    rw [nrm_neg, neg_dot] at k2
    rw [M3.Orthonormal.nrm (M3.Orthonormal.tr h1)] at k1 k2
    exact abs_le.2 ⟨by linarith, k1⟩
  linarith

/-- C100: Up to the tolerance, moving the second box by less than the reported depth over 1.05, in any direction, keeps the boxes in contact. -/
theorem C100_depth_partial (h1 : X1.Rigid) (h2 : X2.Rigid) (w1 : Sides s1) (w2 : Sides s2) (he : 0 ≤ eps) {maxc : ℕ} {o : Out}
    (h : boxBox2 eps big ang maxc s1 X1 s2 X2 = some o) {t : V3 ℝ} (ht : t.len * (105 / 100) ≤ o.depth) :
    NearTouch s1 X1 s2 ⟨X2.R, X2.t + t⟩ (slack eps s1 s2 + eps * t.len) := by
  obtain ⟨st, hs, -, en, ed, -⟩ := box2_some h
  have P := sat_some h1 h2 he hs
  rw [ed, len_eq] at ht
  rw [len_eq]
  have t0 := nrm_nonneg t
  have er : rel X1 ⟨X2.R, X2.t + t⟩ = rel X1 X2 := rfl
  refine near_of_gaps (X2 := ⟨X2.R, X2.t + t⟩) h1 h2 w1 w2 (fun c c1 c6 => ?_) fun c c7 c15 => ?_
  · have k := gap_moved (s1 := s1) (s2 := s2) (X2 := X2) h1 t (faceAxis (rel X1 X2) c)
    rw [faceAxis_unit (rel_orthonormal h1 h2)] at k
    have := P.faces c c1 c6
    rw [er]; linarith
  · have k := gap_moved (s1 := s1) (s2 := s2) (X2 := X2) h1 t (edgeAxis (rel X1 X2) c)
    have sb := slack_bound he w1 w2 c
    rw [er]
    by_cases hl : (edgeAxis (rel X1 X2) c).nrm > eps
    · have l0 : 0 < (edgeAxis (rel X1 X2) c).nrm := he.trans_lt hl
      have := P.depth c c7 c15 hl
      have k2 : (gap s1 X1 s2 X2 (edgeAxis (rel X1 X2) c) - pad eps (half s1) (half s2) * padded (half s1) (half s2) c) /
          (edgeAxis (rel X1 X2) c).nrm ≤ -t.nrm := by linarith
      rw [div_le_iff₀ l0] at k2
      have := mul_nonneg he t0
      linarith
    · have := mul_le_mul_of_nonneg_left (not_lt.1 hl) t0
      have := P.edges c c7 c15
      linarith

/-- C100: Without the tolerance the reported depth is between the depth and 1.05 times the depth: moving the second box by less
than the reported depth over 1.05 keeps the boxes in contact. -/
theorem C100_exact_partial (h1 : X1.Rigid) (h2 : X2.Rigid) (w1 : Sides s1) (w2 : Sides s2) {maxc : ℕ} {o : Out}
    (h : boxBox2 0 big ang maxc s1 X1 s2 X2 = some o) {t : V3 ℝ} (ht : t.len * (105 / 100) ≤ o.depth) :
    Touch (BoxAt s1 X1) (Moved (BoxAt s2 X2) t) := by
  rw [moved_box]
  exact near_zero (by simp [slack]) (C100_depth_partial h1 h2 w1 w2 le_rfl h ht)

/-- For boxes with parallel sides a side is reported. -/
theorem aligned_code (h1 : X1.Rigid) (w1 : Sides s1) (w2 : Sides s2) (h2 : X2.Rigid) (he : 0 ≤ eps) (ha : Aligned X1 X2) {st : Sat} (P : Passed eps s1 X1 s2 X2 st) : st.code ≤ 6 := by
  rcases P.best with ⟨-, c6, -⟩ | ⟨c7, c15, hl, b1, b2, -⟩
  · exact c6
  · exfalso
    obtain ⟨c', k1, k2, k, e⟩ := aligned_edge h1 ha st.code
    have l0 : 0 < (edgeAxis (rel X1 X2) st.code).nrm := he.trans_lt hl
    have hp := mul_nonneg (pad_nonneg he (half s1) (half s2)) (padded_nonneg (half_nonneg w1) (half_nonneg w2) st.code)
    have el : (edgeAxis (rel X1 X2) st.code).nrm = |k| := by rw [e, nrm_smul, faceAxis_unit (rel_orthonormal h1 h2), mul_one]
    rw [e, gap_smul, ← e, el] at b1
    rw [el] at l0
    have g := b2 c' k1 k2
    have : st.s ≤ gap s1 X1 s2 X2 (faceAxis (rel X1 X2) c') := by
      rw [b1, div_le_iff₀ l0]; linarith
    have := P.nonpos
    linarith

/-- C100: For boxes with parallel sides the reported depth is the penetration depth. -/
theorem C100_aligned (h1 : X1.Rigid) (h2 : X2.Rigid) (w1 : Sides s1) (w2 : Sides s2) (he : 0 ≤ eps) (ha : Aligned X1 X2) {maxc : ℕ} {o : Out}
    (h : boxBox2 eps big ang maxc s1 X1 s2 X2 = some o) : IsDepth (BoxAt s1 X1) (BoxAt s2 X2) o.depth := by
  have S := C100_separates h1 h2 w1 w2 he h
  refine isDepth_of S.1 S.2 fun t ht => ?_
  obtain ⟨st, hs, -, en, ed, -⟩ := box2_some h
  have P := sat_some h1 h2 he hs
  rw [ed, len_eq] at ht
  rw [moved_box]
  refine aligned_touch h1 h2 w1 w2 ha fun c c1 c6 => ?_
  have k := gap_moved (s1 := s1) (s2 := s2) (X2 := X2) h1 t (faceAxis (rel X1 X2) c)
  rw [faceAxis_unit (rel_orthonormal h1 h2)] at k
  have := P.faces c c1 c6
  show gap _ _ _ _ (faceAxis (rel X1 X2) c) ≤ 0
  linarith

theorem ex_rel (k : ℝ) : rel Pose.id ⟨exTurn, k • ⟨0, 3 / 5, 4 / 5⟩⟩ = exTurn := by
  norm_num [rel, Pose.id, exTurn, M3.tr, M3.mul, M3.one, M3.mulVec, dot, M3.col, V3.get]

theorem ex_off (k : ℝ) : off Pose.id ⟨exTurn, k • ⟨0, 3 / 5, 4 / 5⟩⟩ = k • (⟨0, 3 / 5, 4 / 5⟩ : V3 ℝ) := by
  apply ext' <;> norm_num [off, Pose.id, M3.tr, M3.one, M3.mulVec, dot, M3.col, V3.get]

set_option maxHeartbeats 4000000 in
theorem ex_depth {maxc : ℕ} {o : Out}
    (h : boxBox2 0 big ang maxc ⟨2, 2, 2⟩ Pose.id ⟨2, 2, 2⟩ ⟨exTurn, (1 / 2 : ℝ) • ⟨0, 3 / 5, 4 / 5⟩⟩ = some o) :
    o.depth = 58 / 25 ∧ SeparatesAlong (BoxAt ⟨2, 2, 2⟩ Pose.id) (BoxAt ⟨2, 2, 2⟩ ⟨exTurn, (1 / 2 : ℝ) • ⟨0, 3 / 5, 4 / 5⟩⟩) ⟨0, 3 / 5, 4 / 5⟩ (23 / 10) := by
  have w : Sides ⟨2, 2, 2⟩ := by refine ⟨?_, ?_, ?_⟩ <;> norm_num
  constructor
  · obtain ⟨st, hs, -, -, ed, -⟩ := box2_some h
    have P := sat_some Pose.id_rigid (exTurn_rigid _) le_rfl hs
    have f3 := P.faces 3 (by norm_num) (by norm_num)
    rw [ed]
    rcases P.best with ⟨c1, c6, b1, -⟩ | ⟨c7, c15, hl, b1, b2, -⟩
    · rw [gap, ex_rel, ex_off] at f3 b1
      rw [b1] at f3 ⊢
      generalize st.code = c at *
      clear b1 hs P
      interval_cases c <;> first | (exfalso; norm_num [faceAxis, exTurn, M3.one, M3.col, V3.get, dot, spread, edges, half, abs_of_pos, abs_of_neg] at f3; done) | norm_num [faceAxis, exTurn, M3.one, M3.col, V3.get, dot, spread, edges, half, abs_of_pos, abs_of_neg]
    · exfalso
      have g := b2 3 (by norm_num) (by norm_num)
      have l0 : 0 < (edgeAxis (rel Pose.id ⟨exTurn, (1 / 2 : ℝ) • ⟨0, 3 / 5, 4 / 5⟩⟩) st.code).nrm := hl
      have hm := nrm_mul_self (edgeAxis (rel Pose.id ⟨exTurn, (1 / 2 : ℝ) • ⟨0, 3 / 5, 4 / 5⟩⟩) st.code)
      rw [eq_div_iff l0.ne'] at b1
      rw [gap, ex_rel, ex_off] at g b1
      rw [ex_rel] at l0 hm
      generalize (edgeAxis exTurn st.code).nrm = l at *
      have hz := P.nonpos
      generalize st.s = z at *
      generalize st.code = c at *
      clear hs P b2 f3 hl h ed
      have z1 : -(232 / 105) < z := by
        norm_num [faceAxis, exTurn, M3.one, M3.col, V3.get, dot, spread, edges, half, abs_of_pos, abs_of_neg] at g
        linarith
      have z2 : z * l * (z * l) ≤ (232 / 105) * (232 / 105) * (l * l) := by
        have zz : z * z ≤ (232 / 105) * (232 / 105) := by nlinarith
        calc z * l * (z * l) = z * z * (l * l) := by ring
          _ ≤ _ := mul_le_mul_of_nonneg_right zz (mul_self_nonneg l)
      rw [b1, hm] at z2
      interval_cases c <;> norm_num [edgeAxis, edge1, edge2, exTurn, M3.one, M3.col, V3.get, dot, cross, spread, edges, half, pad, padded, abs_of_pos, abs_of_neg] at z2
  · refine ⟨?_, fun e he => ?_⟩
    · rw [len_eq]
      refine nrm_unique zero_le_one ?_
      norm_num [dot]
    · rintro ⟨p, hp, q, hq, rfl⟩
      have k := (gap_points Pose.id_rigid w w ⟨0, 3 / 5, 4 / 5⟩).1 _ hp q hq
      rw [gap, ex_rel, ex_off] at k
      have s1 : sg (((1 / 2 : ℝ) • (⟨0, 3 / 5, 4 / 5⟩ : V3 ℝ)).dot ⟨0, 3 / 5, 4 / 5⟩) = 1 := by norm_num [sg, dot]
      have em : (Pose.id : Pose ℝ).R.mulVec ⟨0, 3 / 5, 4 / 5⟩ = ⟨0, 3 / 5, 4 / 5⟩ := M3.one_mulVec _
      rw [s1, em] at k
      norm_num [exTurn, M3.one, M3.col, V3.get, dot, spread, edges, half, abs_of_pos, abs_of_neg] at k
      linarith

theorem some_of_touch (h1 : X1.Rigid) (h2 : X2.Rigid) (w1 : Sides s1) (w2 : Sides s2) (he : 0 ≤ eps)
    (hb : (s1.x + s2.x + s2.y + s2.z) / 2 < big) (ht : Touch (BoxAt s1 X1) (BoxAt s2 X2)) (maxc : ℕ) :
    ∃ o, boxBox2 eps big ang maxc s1 X1 s2 X2 = some o := by
  by_contra hn
  rcases hs : sat eps big s1 X1 s2 X2 with _ | st
  · obtain ⟨n, hn⟩ := sat_none h1 h2 w1 w2 he (by simp only [half, smul_x, smul_y, smul_z]; linarith) hs
    exact absurd (gap_of_touch h1 ht n) (not_le.2 hn)
  · exact hn ⟨_, by rw [boxBox2, hs]; rfl⟩

/-- C100: The reported depth need not be the penetration depth, even without the tolerance: the depth along a side is preferred to
the depth along a cross product of edges although the latter is smaller. -/
theorem C100_violated_depth (hb : 10 ≤ big) (maxc : ℕ) :
    ∃ o, boxBox2 0 big ang maxc ⟨2, 2, 2⟩ Pose.id ⟨2, 2, 2⟩ ⟨exTurn, (1 / 2 : ℝ) • ⟨0, 3 / 5, 4 / 5⟩⟩ = some o ∧ o.depth = 58 / 25 ∧
      SeparatesAlong (BoxAt ⟨2, 2, 2⟩ Pose.id) (BoxAt ⟨2, 2, 2⟩ ⟨exTurn, (1 / 2 : ℝ) • ⟨0, 3 / 5, 4 / 5⟩⟩) ⟨0, 3 / 5, 4 / 5⟩ (23 / 10) := by
  have w : Sides ⟨2, 2, 2⟩ := by refine ⟨?_, ?_, ?_⟩ <;> norm_num
  obtain ⟨o, h⟩ := some_of_touch (big := big) (ang := ang) (X2 := ⟨exTurn, (1 / 2 : ℝ) • ⟨0, 3 / 5, 4 / 5⟩⟩) Pose.id_rigid (exTurn_rigid _) w w le_rfl
    (by norm_num; linarith) ⟨⟨0, 3 / 10, 2 / 5⟩, ⟨⟨0, 3 / 10, 2 / 5⟩, by norm_num [mem_box, half, abs_of_pos], by apply ext' <;> simp [Pose.id, M3.one, M3.mulVec, dot]⟩,
      ⟨⟨0, 0, 0⟩, by norm_num [mem_box, half], by apply ext' <;> norm_num [M3.mulVec, dot]⟩⟩ maxc
  exact ⟨o, h, ex_depth h⟩

/-- The boxes of the example touch: the hypotheses of C99 and C100 can be met by boxes in general position. -/
example (hb : 10 ≤ big) : (boxBoxIntersect 0 big ang ⟨2, 2, 2⟩ Pose.id ⟨2, 2, 2⟩ ⟨exTurn, (1 / 2 : ℝ) • ⟨0, 3 / 5, 4 / 5⟩⟩ contacts).1 = true := by
  obtain ⟨o, h, -⟩ := C100_violated_depth (ang := ang) hb 4
  obtain ⟨st, hs, -⟩ := box2_some h
  exact (intersect_fst Pose.id_rigid (exTurn_rigid _) le_rfl).2 ⟨st, hs⟩

end BoxBox
end Fcl
