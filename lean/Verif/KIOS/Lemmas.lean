import Verif.KIOS.Spec
import Verif.Props.OBB
import Verif.RSS.FitLemmas

/-!
# Lemmas about the spheres of a kIOS
-/

namespace Fcl
namespace KIOS
open V3

/-! ### Spheres -/

theorem ball_iff {s : Ball ℝ} (h : 0 ≤ s.r) {p : V3 ℝ} : p ∈ s.pts ↔ p.dist s.o ≤ s.r := by
  rw [dist_eq]; exact (nrm_le_iff h).symm

theorem encloseSphere_r {s0 s1 : Ball ℝ} (h0 : 0 ≤ s0.r) (h1 : 0 ≤ s1.r) : 0 ≤ (encloseSphere s0 s1).r := by
  unfold encloseSphere
  dsimp only
  split_ifs
  · exact h1
  · exact h0
  · have := Real.sqrt_nonneg ((s1.o - s0.o).dot (s1.o - s0.o)); dsimp only; linarith
  · have := Real.sqrt_nonneg ((s1.o - s0.o).dot (s1.o - s0.o)); dsimp only; linarith

/-- A sphere whose centre is not further than the difference of the radii is inside. -/
theorem ball_sub {s t : Ball ℝ} (h0 : 0 ≤ s.r) (ht : 0 ≤ t.r) (h : s.o.dist t.o + s.r ≤ t.r) : s.pts ⊆ t.pts := by
  intro p hp
  rw [ball_iff h0] at hp
  rw [ball_iff ht]
  have := V3.dist_triangle p s.o t.o
  linarith

theorem encloseSphere_spec {s0 s1 : Ball ℝ} (h0 : 0 ≤ s0.r) (h1 : 0 ≤ s1.r) :
    s0.pts ⊆ (encloseSphere s0 s1).pts ∧ s1.pts ⊆ (encloseSphere s0 s1).pts := by
  have hr := encloseSphere_r h0 h1
  have hn : Real.sqrt ((s1.o - s0.o).dot (s1.o - s0.o)) = (s1.o - s0.o).nrm := rfl
  have hd : s1.o.dist s0.o = (s1.o - s0.o).nrm := dist_eq _ _
  have hsq := nrm_mul_self (s1.o - s0.o)
  have hn0 := V3.nrm_nonneg (s1.o - s0.o)
  by_cases c1 : (s1.r - s0.r) * (s1.r - s0.r) ≥ (s1.o - s0.o).dot (s1.o - s0.o)
  · have hle : (s1.o - s0.o).nrm ≤ |s1.r - s0.r| := by
      apply le_of_sq_le_sq _ (abs_nonneg _)
      rw [pow_two, pow_two, abs_mul_abs_self, hsq]; exact c1
    by_cases c2 : s1.r > s0.r
    · have e : encloseSphere s0 s1 = s1 := by unfold encloseSphere; dsimp only; rw [if_pos c1, if_pos c2]
      rw [e]
      rw [abs_of_pos (by linarith)] at hle
      exact ⟨ball_sub h0 h1 (by rw [V3.dist_comm, hd]; linarith), fun _ h => h⟩
    · have e : encloseSphere s0 s1 = s0 := by unfold encloseSphere; dsimp only; rw [if_pos c1, if_neg c2]
      rw [e]
      rw [abs_of_nonpos (by linarith)] at hle
      exact ⟨fun _ h => h, ball_sub h1 h0 (by rw [hd]; linarith)⟩
  · have hp : 0 < (s1.o - s0.o).nrm := by
      apply lt_of_le_of_ne hn0
      intro e
      rw [← e] at hsq
      have := mul_self_nonneg (s1.r - s0.r)
      apply c1; linarith
    have hlt : |s1.r - s0.r| < (s1.o - s0.o).nrm := by
      apply lt_of_not_ge
      intro h
      apply c1
      rw [← hsq, ← abs_mul_abs_self]
      exact mul_self_le_mul_self hn0 h
    obtain ⟨h2, h3⟩ := abs_lt.1 hlt
    have e : encloseSphere s0 s1 = ⟨s0.o + (((s1.o - s0.o).nrm + s0.r + s1.r - s0.r) / (s1.o - s0.o).nrm) • (s1.o - s0.o),
        (s1.o - s0.o).nrm + s0.r + s1.r⟩ := by
      unfold encloseSphere; dsimp only; rw [if_neg c1, hn, if_pos hp]
    rw [e] at hr ⊢
    obtain ⟨n, hnn⟩ : ∃ n, n = (s1.o - s0.o).nrm := ⟨_, rfl⟩
    rw [← hnn] at hr hd hp h2 h3 hn0 ⊢
    constructor
    · apply ball_sub h0 hr
      dsimp only
      have e1 : s0.o - (s0.o + ((n + s0.r + s1.r - s0.r) / n) • (s1.o - s0.o)) = (-((n + s0.r + s1.r - s0.r) / n)) • (s1.o - s0.o) := by v3
      rw [dist_eq, e1, V3.nrm_smul, ← hnn, abs_neg, abs_of_nonneg (div_nonneg (by linarith) hn0), div_mul_cancel₀ _ hp.ne']
      linarith
    · apply ball_sub h1 hr
      dsimp only
      have e1 : s1.o - (s0.o + ((n + s0.r + s1.r - s0.r) / n) • (s1.o - s0.o)) = (-(s1.r / n)) • (s1.o - s0.o) := by
        have : (n + s0.r + s1.r - s0.r) / n = 1 + s1.r / n := by field_simp; ring
        rw [this]; v3
      rw [dist_eq, e1, V3.nrm_smul, ← hnn, abs_neg, abs_of_nonneg (div_nonneg h1 hn0), div_mul_cancel₀ _ hp.ne']
      linarith

/-! ### The greatest distance -/

theorem maxFold_spec (f : V3 ℝ → ℝ) : ∀ (ps : List (V3 ℝ)) (m : ℝ), m ≤ ps.foldl (fun m p => if f p > m then f p else m) m ∧
    (∀ p ∈ ps, f p ≤ ps.foldl (fun m p => if f p > m then f p else m) m) ∧
    ∀ D, m ≤ D → (∀ p ∈ ps, f p ≤ D) → ps.foldl (fun m p => if f p > m then f p else m) m ≤ D
  | [], m => ⟨le_rfl, by simp, fun _ h _ => h⟩
  | q :: ps, m => by
    obtain ⟨h1, h2, h3⟩ := maxFold_spec f ps (if f q > m then f q else m)
    have hm : m ≤ (if f q > m then f q else m) ∧ f q ≤ (if f q > m then f q else m) := by split_ifs <;> constructor <;> linarith
    refine ⟨hm.1.trans h1, ?_, fun D hD hp => h3 D ?_ fun p h => hp p (List.mem_cons_of_mem _ h)⟩
    · intro p hp
      rcases List.mem_cons.1 hp with rfl | hp
      · exact hm.2.trans h1
      · exact h2 p hp
    · have := hp q List.mem_cons_self
      split_ifs <;> assumption

theorem maximumDistance_spec (ps : List (V3 ℝ)) (q : V3 ℝ) : 0 ≤ maximumDistance ps q ∧
    (∀ p ∈ ps, (p - q).dot (p - q) ≤ maximumDistance ps q * maximumDistance ps q) ∧
    ∀ D, 0 ≤ D → (∀ p ∈ ps, (p - q).dot (p - q) ≤ D * D) → maximumDistance ps q ≤ D := by
  obtain ⟨h1, h2, h3⟩ := maxFold_spec (fun p => (p - q).dot (p - q)) ps 0
  unfold maximumDistance
  refine ⟨Real.sqrt_nonneg _, ?_, ?_⟩
  · rw [Real.mul_self_sqrt h1]; exact h2
  · intro D hD h
    rw [Real.sqrt_le_left hD, pow_two]
    exact h3 _ (mul_self_nonneg D) h

/-! ### The pairs of spheres -/

theorem pair_spec {ps : List (V3 ℝ)} {c u : V3 ℝ} {k r : ℝ} (hu : u.dot u = 1) (hr : 0 ≤ r)
    (h1 : ∀ p ∈ ps, (p - (c - k • u)).dot (p - (c - k • u)) ≤ r * r) (h2 : ∀ p ∈ ps, (p - (c + k • u)).dot (p - (c + k • u)) ≤ r * r) :
    ∀ s ∈ pair ps c u k r, 0 ≤ s.r ∧ ∀ p ∈ ps, p ∈ s.pts := by
  have hn : u.nrm = 1 := nrm_unique (by norm_num) (by rw [hu]; norm_num)
  have key : ∀ o : V3 ℝ, (∀ p ∈ ps, (p - o).dot (p - o) ≤ r * r) → ∀ e : ℝ, |e| = r - maximumDistance ps o →
      ∀ p ∈ ps, p ∈ (⟨o + e • u, r⟩ : Ball ℝ).pts := by
    intro o ho e he p hp
    obtain ⟨m0, m1, -⟩ := maximumDistance_spec ps o
    rw [ball_iff hr]
    dsimp only
    have t := V3.dist_triangle p o (o + e • u)
    have d1 : p.dist o ≤ maximumDistance ps o := by rw [dist_eq]; exact (nrm_le_iff m0).2 (m1 p hp)
    have d2 : o.dist (o + e • u) = |e| := by
      have e1 : o - (o + e • u) = (-e) • u := by v3
      rw [dist_eq, e1, V3.nrm_smul, hn, abs_neg, mul_one]
    linarith
  intro s hs
  simp only [pair, List.mem_cons, List.not_mem_nil, or_false] at hs
  rcases hs with rfl | rfl
  · have hm := (maximumDistance_spec ps (c - k • u)).2.2 r hr h1
    exact ⟨hr, key _ h1 _ (by rw [abs_of_nonpos (by linarith)]; ring)⟩
  · have hm := (maximumDistance_spec ps (c + k • u)).2.2 r hr h2
    exact ⟨hr, key _ h2 _ (by rw [abs_of_nonneg (by linarith)])⟩

theorem cosA_sq : cosA * cosA = 3 / 4 := by
  have := Real.mul_self_sqrt (show (0 : ℝ) ≤ 3 by norm_num)
  unfold cosA; linarith

theorem cosA_pos : 0 < cosA := by
  have := Real.sqrt_pos.2 (show (0 : ℝ) < 3 by norm_num)
  unfold cosA; linarith

/-! ### The circumcircle -/

theorem circumCircle_spec {a b c : V3 ℝ} (h : (a - c).cross (b - c) ≠ 0) :
    0 ≤ (circumCircle a b c).2 ∧ (a - (circumCircle a b c).1).dot (a - (circumCircle a b c).1) = (circumCircle a b c).2 * (circumCircle a b c).2 ∧
    (b - (circumCircle a b c).1).dot (b - (circumCircle a b c).1) = (circumCircle a b c).2 * (circumCircle a b c).2 ∧
    (c - (circumCircle a b c).1).dot (c - (circumCircle a b c).1) = (circumCircle a b c).2 * (circumCircle a b c).2 ∧
    ((circumCircle a b c).1 - c).dot ((a - c).cross (b - c)) = 0 := by
  obtain ⟨e1, h1⟩ : ∃ e, e = a - c := ⟨_, rfl⟩
  obtain ⟨e2, h2⟩ : ∃ e, e = b - c := ⟨_, rfl⟩
  have hl3 : 0 < (e1.cross e2).dot (e1.cross e2) := by
    rw [h1, h2]
    exact lt_of_le_of_ne (V3.dot_self_nonneg _) fun e => h (V3.dot_self_eq_zero e.symm)
  have ea : a = c + e1 := by rw [h1]; v3
  have eb : b = c + e2 := by rw [h2]; v3
  obtain ⟨w, hw⟩ : ∃ w : V3 ℝ, w = (e1.dot e1 • e2 - e2.dot e2 • e1).cross (e1.cross e2) := ⟨_, rfl⟩
  obtain ⟨l3, hl⟩ : ∃ l3, l3 = (e1.cross e2).dot (e1.cross e2) := ⟨_, rfl⟩
  have hc : (circumCircle a b c).1 = c + ((1 / 2) * 1 / l3) • w := by
    unfold circumCircle; dsimp only; rw [← h1, ← h2, ← hw, ← hl]
  have hR : (circumCircle a b c).2 = Real.sqrt (e1.dot e1 * e2.dot e2 * (e1 - e2).dot (e1 - e2) / l3) * (1 / 2) := by
    unfold circumCircle; dsimp only; rw [← h1, ← h2, ← hl]
  have hww : w.dot w = e1.dot e1 * e2.dot e2 * (e1 - e2).dot (e1 - e2) * l3 := by
    rw [hw, hl]; simp only [dot, cross, V3.sub_x, V3.sub_y, V3.sub_z, V3.smul_x, V3.smul_y, V3.smul_z]; ring
  have hw1 : w.dot e1 = e1.dot e1 * l3 := by
    rw [hw, hl]; simp only [dot, cross, V3.sub_x, V3.sub_y, V3.sub_z, V3.smul_x, V3.smul_y, V3.smul_z]; ring
  have hw2 : w.dot e2 = e2.dot e2 * l3 := by
    rw [hw, hl]; simp only [dot, cross, V3.sub_x, V3.sub_y, V3.sub_z, V3.smul_x, V3.smul_y, V3.smul_z]; ring
  have hw3 : w.dot (e1.cross e2) = 0 := by
    rw [hw]; simp only [dot, cross, V3.sub_x, V3.sub_y, V3.sub_z, V3.smul_x, V3.smul_y, V3.smul_z]; ring
  rw [← hl] at hl3
  have hnn : 0 ≤ e1.dot e1 * e2.dot e2 * (e1 - e2).dot (e1 - e2) / l3 :=
    div_nonneg (mul_nonneg (mul_nonneg (V3.dot_self_nonneg _) (V3.dot_self_nonneg _)) (V3.dot_self_nonneg _)) hl3.le
  have hRR : (circumCircle a b c).2 * (circumCircle a b c).2 = e1.dot e1 * e2.dot e2 * (e1 - e2).dot (e1 - e2) / l3 * (1 / 4) := by
    rw [hR]
    have := Real.mul_self_sqrt hnn
    linear_combination (1 / 4) * this
  have hq : ∀ v : V3 ℝ, ((1 / 2 * 1 / l3) • w).dot v = (1 / 2 / l3) * w.dot v := fun v => by
    simp only [dot, V3.smul_x, V3.smul_y, V3.smul_z]; ring
  have hself : ((1 / 2 * 1 / l3) • w).dot ((1 / 2 * 1 / l3) • w) = e1.dot e1 * e2.dot e2 * (e1 - e2).dot (e1 - e2) / l3 * (1 / 4) := by
    rw [hq, V3.dot_comm, hq, hww]; field_simp; ring
  have q1 : ((1 / 2 * 1 / l3) • w).dot e1 = (1 / 2) * e1.dot e1 := by rw [hq, hw1]; field_simp
  have q2 : ((1 / 2 * 1 / l3) • w).dot e2 = (1 / 2) * e2.dot e2 := by rw [hq, hw2]; field_simp
  have sub_sq : ∀ e v : V3 ℝ, (e - v).dot (e - v) = e.dot e - 2 * v.dot e + v.dot v := fun e v => by
    simp only [dot, V3.sub_x, V3.sub_y, V3.sub_z]; ring
  obtain ⟨v, hv⟩ : ∃ v, v = (1 / 2 * 1 / l3) • w := ⟨_, rfl⟩
  rw [← hv] at hc hself q1 q2
  refine ⟨by rw [hR]; have := Real.sqrt_nonneg (e1.dot e1 * e2.dot e2 * (e1 - e2).dot (e1 - e2) / l3); linarith, ?_, ?_, ?_, ?_⟩
  · have e : a - (circumCircle a b c).1 = e1 - v := by rw [hc, ea]; v3
    rw [e, sub_sq, q1, hself, hRR]; ring
  · have e : b - (circumCircle a b c).1 = e2 - v := by rw [hc, eb]; v3
    rw [e, sub_sq, q2, hself, hRR]; ring
  · have e : c - (circumCircle a b c).1 = 0 - v := by rw [hc]; v3
    have z1 : (0 : V3 ℝ).dot 0 = 0 := by simp [dot]
    have z2 : v.dot 0 = 0 := by simp [dot]
    rw [e, sub_sq, z1, z2, hself, hRR]; ring
  · have e : (circumCircle a b c).1 - c = v := by rw [hc]; v3
    rw [e, ← h1, ← h2, hv, hq, hw3, mul_zero]

/-! ### The extents are tight -/

theorem boundFold_attained : ∀ (ds : List ℝ) (s : ℝ × ℝ),
    ((ds.foldl OBB.boundStep s).1 = s.1 ∨ (ds.foldl OBB.boundStep s).1 ∈ ds) ∧
      ((ds.foldl OBB.boundStep s).2 = s.2 ∨ (ds.foldl OBB.boundStep s).2 ∈ ds)
  | [], _ => ⟨Or.inl rfl, Or.inl rfl⟩
  | d :: ds, s => by
    obtain ⟨h1, h2⟩ := boundFold_attained ds (OBB.boundStep s d)
    rw [List.foldl_cons]
    constructor
    · rcases h1 with h | h
      · rw [h]
        simp only [OBB.boundStep]
        split_ifs
        · exact Or.inr List.mem_cons_self
        · exact Or.inl rfl
      · exact Or.inr (List.mem_cons_of_mem _ h)
    · rcases h2 with h | h
      · rw [h]
        simp only [OBB.boundStep]
        split_ifs
        · exact Or.inr List.mem_cons_self
        · exact Or.inl rfl
      · exact Or.inr (List.mem_cons_of_mem _ h)

/-- Some point has the greatest coordinate. -/
theorem bounds_attained {big : ℝ} {u : V3 ℝ} {ps : List (V3 ℝ)} (hne : ps ≠ []) (hb : ∀ p ∈ ps, |p.dot u| ≤ big) :
    ∃ p ∈ ps, p.dot u = (OBB.bounds big u ps).2 := by
  obtain ⟨p0, hp0⟩ := List.exists_mem_of_ne_nil ps hne
  rcases (boundFold_attained (ps.map fun p => u.dot p) (big, -big)).2 with h | h
  · have h1 := (OBB.bounds_spec (big := big) (u := u) hp0).2
    have h2 : (OBB.bounds big u ps).2 = -big := h
    have h3 := neg_le_of_abs_le (hb p0 hp0)
    exact ⟨p0, hp0, by linarith⟩
  · obtain ⟨p, hp, e⟩ := List.mem_map.1 h
    exact ⟨p, hp, by rw [V3.dot_comm]; exact e⟩

end KIOS
end Fcl
