import Verif.Gjk.ProjectSpec
import Verif.BVH.MeshLemmas
import Mathlib.Data.Finset.Max
import Mathlib.Tactic.IntervalCases

/-!
# Lemmas on the projection on a simplex
-/

namespace Fcl.Proj
open V3

/-- Going from a point of the simplex to the point of coordinates `z`, one leaves the simplex through the face opposite to a
vertex whose coordinate in `z` is negative. -/
theorem exit (n : ℕ) (m z : ℕ → ℝ) (hm : ∀ k < n, 0 ≤ m k) (hz : ∃ k < n, z k < 0) :
    ∃ t, 0 ≤ t ∧ t ≤ 1 ∧ ∃ k < n, z k < 0 ∧ (1 - t) * m k + t * z k = 0 ∧ ∀ j < n, 0 ≤ (1 - t) * m j + t * z j := by
  classical
  obtain ⟨k0, hk0, hz0⟩ := hz
  obtain ⟨k, hk, hmin⟩ := Finset.exists_min_image ((Finset.range n).filter fun k => z k < 0) (fun k => m k / (m k - z k))
    ⟨k0, by simp [hk0, hz0]⟩
  simp only [Finset.mem_filter, Finset.mem_range] at hk hmin
  have hmk := hm k hk.1
  have hd : 0 < m k - z k := by linarith [hk.2]
  have ht0 : 0 ≤ m k / (m k - z k) := by positivity
  have ht1 : m k / (m k - z k) ≤ 1 := by rw [div_le_one hd]; linarith [hk.2]
  refine ⟨m k / (m k - z k), ht0, ht1, k, hk.1, hk.2, ?_, ?_⟩
  · field_simp; ring
  · intro j hj
    have hmj := hm j hj
    by_cases h : z j < 0
    · have hdj : 0 < m j - z j := by linarith
      have h1 := hmin j ⟨hj, h⟩
      rw [le_div_iff₀ hdj] at h1
      linarith
    · have h1 := mul_nonneg ht0 (not_lt.1 h)
      have h2 : 0 ≤ (1 - m k / (m k - z k)) * m j := mul_nonneg (by linarith) hmj
      linarith

/-- The loops take the smallest value over the sides on which the point is outside. -/
theorem foldMin {step : Proj → ℕ → Proj} {out : ℕ → Prop} {r : ℕ → ℝ} {Q : ℕ → Proj → Prop} (l : List ℕ)
    (hpos : ∀ i ∈ l, out i → 0 ≤ r i) (hin : ∀ st, ∀ i ∈ l, ¬ out i → step st i = st)
    (htake : ∀ st, ∀ i ∈ l, out i → (st.dist < 0 ∨ r i < st.dist) → Q i (step st i) ∧ (step st i).dist = r i)
    (hkeep : ∀ st, ∀ i ∈ l, out i → ¬ (st.dist < 0 ∨ r i < st.dist) → step st i = st) :
    ((∀ i ∈ l, ¬ out i) ∧ l.foldl step none = none) ∨
    ∃ i ∈ l, out i ∧ Q i (l.foldl step none) ∧ (l.foldl step none).dist = r i ∧ ∀ j ∈ l, out j → r i ≤ r j := by
  induction l using List.reverseRecOn with
  | nil => left; simp
  | append_singleton l i ih =>
    have ih := ih (fun j hj => hpos j (by simp [hj])) (fun st j hj => hin st j (by simp [hj]))
      (fun st j hj => htake st j (by simp [hj])) (fun st j hj => hkeep st j (by simp [hj]))
    have hi : i ∈ l ++ [i] := by simp
    rw [List.foldl_append, List.foldl_cons, List.foldl_nil]
    by_cases ho : out i
    · right
      by_cases ht : (l.foldl step none).dist < 0 ∨ r i < (l.foldl step none).dist
      · refine ⟨i, hi, ho, (htake _ i hi ho ht).1, (htake _ i hi ho ht).2, ?_⟩
        intro j hj hoj
        rw [List.mem_append, List.mem_singleton] at hj
        rcases hj with hj | rfl
        · rcases ih with ⟨ih, _⟩ | ⟨k, hk, hok, _, hd, hmin⟩
          · exact absurd hoj (ih j hj)
          · rw [hd] at ht
            rcases ht with ht | ht
            · exact absurd ht (not_lt.2 (hpos k (by simp [hk]) hok))
            · exact ht.le.trans (hmin j hj hoj)
        · exact le_refl _
      · rw [hkeep _ i hi ho ht]
        rcases ih with ⟨_, ih⟩ | ⟨k, hk, hok, hq, hd, hmin⟩
        · rw [ih] at ht; exact absurd (Or.inl (by norm_num [none])) ht
        · refine ⟨k, by simp [hk], hok, hq, hd, ?_⟩
          intro j hj hoj
          rw [List.mem_append, List.mem_singleton] at hj
          rcases hj with hj | rfl
          · exact hmin j hj hoj
          · rw [hd] at ht; exact not_lt.1 fun h => ht (Or.inr h)
    · rw [hin _ i hi ho]
      rcases ih with ⟨ih, e⟩ | ⟨k, hk, hok, hq, hd, hmin⟩
      · left
        refine ⟨?_, e⟩
        intro j hj
        rw [List.mem_append, List.mem_singleton] at hj
        rcases hj with hj | rfl
        · exact ih j hj
        · exact ho
      · right
        refine ⟨k, by simp [hk], hok, hq, hd, ?_⟩
        intro j hj hoj
        rw [List.mem_append, List.mem_singleton] at hj
        rcases hj with hj | rfl
        · exact hmin j hj hoj
        · exact absurd hoj ho

/-- What `projectLine` gives, with explicit weights. -/
theorem line_spec {a b : V3 ℝ} (p : V3 ℝ) (hab : 0 < (b - a).dot (b - a)) :
    0 ≤ (line a b p).par 0 ∧ 0 ≤ (line a b p).par 1 ∧ (line a b p).par 0 + (line a b p).par 1 = 1 ∧
    (line a b p).dist = ((line a b p).par 0 • a + (line a b p).par 1 • b - p).dot ((line a b p).par 0 • a + (line a b p).par 1 • b - p) ∧
    (∀ u w : ℝ, 0 ≤ u → 0 ≤ w → u + w = 1 → (line a b p).dist ≤ (u • a + w • b - p).dot (u • a + w • b - p)) ∧
    ((line a b p).bit 0 = false → (line a b p).par 0 = 0) ∧ ((line a b p).bit 1 = false → (line a b p).par 1 = 0) ∧
    (∀ k, 2 ≤ k → (line a b p).bit k = false) ∧
    ((line a b p).bit 0 = true → ((line a b p).par 0 • a + (line a b p).par 1 • b - p).dot
      (a - ((line a b p).par 0 • a + (line a b p).par 1 • b)) = 0) ∧
    ((line a b p).bit 1 = true → ((line a b p).par 0 • a + (line a b p).par 1 • b - p).dot
      (b - ((line a b p).par 0 • a + (line a b p).par 1 • b)) = 0) := by
  have key0 : ∀ u w : ℝ, u + w = 1 → (u • a + w • b - p).dot (a - (u • a + w • b)) =
      w * ((p - a).dot (b - a) - w * (b - a).dot (b - a)) := by
    intro u w h
    obtain rfl : u = 1 - w := by linarith
    simp only [dot, add_x, add_y, add_z, smul_x, smul_y, smul_z, sub_x, sub_y, sub_z]; ring
  have key1 : ∀ u w : ℝ, u + w = 1 → (u • a + w • b - p).dot (b - (u • a + w • b)) =
      -(u * ((p - a).dot (b - a) - w * (b - a).dot (b - a))) := by
    intro u w h
    obtain rfl : u = 1 - w := by linarith
    simp only [dot, add_x, add_y, add_z, smul_x, smul_y, smul_z, sub_x, sub_y, sub_z]; ring
  have key : ∀ u w : ℝ, u + w = 1 → (u • a + w • b - p).dot (u • a + w • b - p) =
      (p - a).dot (p - a) - 2 * w * (p - a).dot (b - a) + w * w * (b - a).dot (b - a) := by
    intro u w h
    obtain rfl : u = 1 - w := by linarith
    simp only [dot, add_x, add_y, add_z, smul_x, smul_y, smul_z, sub_x, sub_y, sub_z]; ring
  have eb : (p - b).dot (p - b) = (p - a).dot (p - a) - 2 * (p - a).dot (b - a) + (b - a).dot (b - a) := by
    simp only [dot, sub_x, sub_y, sub_z]; ring
  have em : ∀ s : ℝ, (a + s • (b - a) - p).dot (a + s • (b - a) - p) =
      (p - a).dot (p - a) - 2 * s * (p - a).dot (b - a) + s * s * (b - a).dot (b - a) := by
    intro s
    simp only [dot, add_x, add_y, add_z, smul_x, smul_y, smul_z, sub_x, sub_y, sub_z]; ring
  simp only [line, if_pos hab]
  by_cases h1 : (p - a).dot (b - a) ≥ (b - a).dot (b - a)
  · simp only [if_pos h1]
    generalize (b - a).dot (b - a) = l at *
    generalize (p - a).dot (b - a) = t at *
    refine ⟨by norm_num, by norm_num, by norm_num, ?_, ?_, by norm_num, by norm_num, ?_, by norm_num,
      fun _ => by rw [key1 _ _ (by norm_num)]; norm_num⟩
    · rw [key _ _ (by norm_num), eb]; norm_num
    · intro u w hu hw h
      rw [key u w h, eb]
      have : 0 ≤ (1 - w) * (2 * t - (1 + w) * l) := mul_nonneg (by linarith) (by nlinarith)
      nlinarith
    · intro k hk; simp; omega
  · by_cases h2 : (p - a).dot (b - a) ≤ 0
    · simp only [if_neg h1, if_pos h2]
      generalize (b - a).dot (b - a) = l at *
      generalize (p - a).dot (b - a) = t at *
      refine ⟨by norm_num, by norm_num, by norm_num, ?_, ?_, by norm_num, by norm_num, ?_,
        fun _ => by rw [key0 _ _ (by norm_num)]; norm_num, by norm_num⟩
      · rw [key _ _ (by norm_num)]; norm_num
      · intro u w hu hw h
        rw [key u w h]
        have := mul_nonneg hw (show 0 ≤ -t by linarith)
        have := mul_nonneg (mul_nonneg hw hw) hab.le
        linarith
      · intro k hk; simp; omega
    · simp only [if_neg h1, if_neg h2]
      generalize (b - a).dot (b - a) = l at *
      generalize (p - a).dot (b - a) = t at *
      have h3 : 0 ≤ t / l := div_nonneg (not_le.1 h2).le hab.le
      have h4 : t / l ≤ 1 := by rw [div_le_one hab]; exact (not_le.1 h1).le
      have e : t / l * l = t := by field_simp
      refine ⟨by simpa using h4, by simpa using h3, by simp, ?_, ?_, by simp, by simp, ?_,
        fun _ => by rw [key0 _ _ (by simp)]; simp [e], fun _ => by rw [key1 _ _ (by simp)]; simp [e]⟩
      · rw [key _ _ (by simp), em]; norm_num
      · intro u w hu hw h
        rw [key u w h, em]
        have h5 := mul_nonneg (mul_self_nonneg (w - t / l)) hab.le
        generalize t / l = s at *
        subst e
        nlinarith
      · intro k hk; simp; omega

/-- The hull of two points. -/
theorem hull_segment {a b x : V3 ℝ} (h : HullOf [a, b] x) : ∃ u w : ℝ, 0 ≤ u ∧ 0 ≤ w ∧ u + w = 1 ∧ x = u • a + w • b := by
  induction h with
  | @pt p hp =>
    simp only [List.mem_cons, List.not_mem_nil, or_false] at hp
    rcases hp with rfl | rfl
    · exact ⟨1, 0, by norm_num, by norm_num, by norm_num, V3.ext' (by simp) (by simp) (by simp)⟩
    · exact ⟨0, 1, by norm_num, by norm_num, by norm_num, V3.ext' (by simp) (by simp) (by simp)⟩
  | @seg p q t h0 h1 _ _ ihp ihq =>
    obtain ⟨u, w, hu, hw, hs, rfl⟩ := ihp
    obtain ⟨u', w', hu', hw', hs', rfl⟩ := ihq
    have h2 : 0 ≤ 1 - t := by linarith
    refine ⟨(1 - t) * u + t * u', (1 - t) * w + t * w', by positivity, by positivity,
      by linear_combination (1 - t) * hs + t * hs', ?_⟩
    refine V3.ext' ?_ ?_ ?_ <;> simp <;> ring

/-- The hull of four points. -/
theorem hull_tetra {a b c d x : V3 ℝ} (h : HullOf [a, b, c, d] x) : ∃ u v w y : ℝ, 0 ≤ u ∧ 0 ≤ v ∧ 0 ≤ w ∧ 0 ≤ y ∧
    u + v + w + y = 1 ∧ x = u • a + v • b + w • c + y • d := by
  induction h with
  | @pt p hp =>
    simp only [List.mem_cons, List.not_mem_nil, or_false] at hp
    rcases hp with rfl | rfl | rfl | rfl
    · exact ⟨1, 0, 0, 0, by norm_num, by norm_num, by norm_num, by norm_num, by norm_num, V3.ext' (by simp) (by simp) (by simp)⟩
    · exact ⟨0, 1, 0, 0, by norm_num, by norm_num, by norm_num, by norm_num, by norm_num, V3.ext' (by simp) (by simp) (by simp)⟩
    · exact ⟨0, 0, 1, 0, by norm_num, by norm_num, by norm_num, by norm_num, by norm_num, V3.ext' (by simp) (by simp) (by simp)⟩
    · exact ⟨0, 0, 0, 1, by norm_num, by norm_num, by norm_num, by norm_num, by norm_num, V3.ext' (by simp) (by simp) (by simp)⟩
  | @seg p q t h0 h1 _ _ ihp ihq =>
    obtain ⟨u, v, w, y, hu, hv, hw, hy, hs, rfl⟩ := ihp
    obtain ⟨u', v', w', y', hu', hv', hw', hy', hs', rfl⟩ := ihq
    have h2 : 0 ≤ 1 - t := by linarith
    refine ⟨(1 - t) * u + t * u', (1 - t) * v + t * v', (1 - t) * w + t * w', (1 - t) * y + t * y', by positivity, by positivity,
      by positivity, by positivity, by linear_combination (1 - t) * hs + t * hs', ?_⟩
    refine V3.ext' ?_ ?_ ?_ <;> simp <;> ring

/-- The coordinate of vertex `k` of the point of the plane of the triangle nearest to `p`. -/
noncomputable def coord (v : ℕ → V3 ℝ) (n p : V3 ℝ) (k : ℕ) : ℝ :=
  -((v (nxt k) - p).dot ((v (nxt k) - v (nxt (nxt k))).cross n)) / n.dot n

theorem coord_spec (a b c p : V3 ℝ) {n : V3 ℝ} (hn : n = (a - b).cross (b - c)) (hl : 0 < n.dot n) :
    coord (vert a b c c) n p 0 + coord (vert a b c c) n p 1 + coord (vert a b c c) n p 2 = 1 ∧
    coord (vert a b c c) n p 0 • a + coord (vert a b c c) n p 1 • b + coord (vert a b c c) n p 2 • c =
      p + ((a - p).dot n / n.dot n) • n := by
  have hne := hl.ne'
  have h1 : -((b - p).dot ((b - c).cross n)) + -((c - p).dot ((c - a).cross n)) + -((a - p).dot ((a - b).cross n)) = n.dot n := by
    subst hn; simp only [dot, cross, sub_x, sub_y, sub_z]; ring
  have h2 : -((b - p).dot ((b - c).cross n)) • (a - p) + -((c - p).dot ((c - a).cross n)) • (b - p) +
      -((a - p).dot ((a - b).cross n)) • (c - p) = (a - p).dot n • n := by
    have e1 : b - c = (b - p) - (c - p) := by v3
    have e2 : c - a = (c - p) - (a - p) := by v3
    have e3 : a - b = (a - p) - (b - p) := by v3
    rw [e1, e2, e3]
    rw [e1, e3] at hn
    clear e1 e2 e3 h1
    generalize a - p = u at *
    generalize b - p = v at *
    generalize c - p = w at *
    subst hn
    apply V3.ext' <;> simp only [dot, cross, add_x, add_y, add_z, smul_x, smul_y, smul_z, sub_x, sub_y, sub_z] <;> ring
  simp only [coord, vert, nxt]
  constructor
  · rw [← add_div, ← add_div, h1, div_self hne]
  · generalize n.dot n = l at *
    subst h1
    have hx := congrArg V3.x h2
    have hy := congrArg V3.y h2
    have hz := congrArg V3.z h2
    simp only [add_x, add_y, add_z, smul_x, smul_y, smul_z, sub_x, sub_y, sub_z] at hx hy hz
    apply V3.ext' <;> simp only [add_x, add_y, add_z, smul_x, smul_y, smul_z, sub_x, sub_y, sub_z] <;> field_simp
    · linear_combination hx
    · linear_combination hy
    · linear_combination hz

/-- Going from `x` to the foot of `p` in the plane does not take one away from `p`. -/
theorem closer (x p n : V3 ℝ) {k t : ℝ} (hx : (x - p).dot n = k * n.dot n) (h0 : 0 ≤ t) (h1 : t ≤ 1) :
    ((1 - t) • x + t • (p + k • n) - p).dot ((1 - t) • x + t • (p + k • n) - p) ≤ (x - p).dot (x - p) := by
  have e : ((1 - t) • x + t • (p + k • n) - p).dot ((1 - t) • x + t • (p + k • n) - p) =
      (1 - t) * (1 - t) * (x - p).dot (x - p) + 2 * (1 - t) * t * k * (x - p).dot n + t * t * k * k * n.dot n := by
    simp only [dot, add_x, add_y, add_z, smul_x, smul_y, smul_z, sub_x, sub_y, sub_z]; ring
  have hc : k * k * n.dot n ≤ (x - p).dot (x - p) := by
    have h := dot_self_nonneg (x - p - k • n)
    have e : (x - p - k • n).dot (x - p - k • n) = (x - p).dot (x - p) - 2 * k * (x - p).dot n + k * k * n.dot n := by
      simp only [dot, smul_x, smul_y, smul_z, sub_x, sub_y, sub_z]; ring
    rw [e, hx] at h
    linarith
  have hp := mul_nonneg (show 0 ≤ 1 - (1 - t) * (1 - t) by nlinarith) (sub_nonneg.2 hc)
  rw [e, hx]
  nlinarith

/-- What `projectTriangle` gives, with explicit weights. -/
theorem triangle_spec {a b c : V3 ℝ} (p : V3 ℝ) (hl : 0 < ((a - b).cross (b - c)).dot ((a - b).cross (b - c))) :
    let r := triangle a b c p
    let y := r.par 0 • a + r.par 1 • b + r.par 2 • c
    0 ≤ r.par 0 ∧ 0 ≤ r.par 1 ∧ 0 ≤ r.par 2 ∧ r.par 0 + r.par 1 + r.par 2 = 1 ∧ r.dist = (y - p).dot (y - p) ∧
    (∀ u v w : ℝ, 0 ≤ u → 0 ≤ v → 0 ≤ w → u + v + w = 1 →
      r.dist ≤ (u • a + v • b + w • c - p).dot (u • a + v • b + w • c - p)) ∧
    (∀ k < 3, r.bit k = false → r.par k = 0) ∧ (∀ k, 3 ≤ k → r.bit k = false) ∧
    ∀ k < 3, r.bit k = true → (y - p).dot (vert a b c c k - y) = 0 := by
  intro r y
  obtain ⟨n, hn⟩ : ∃ n, n = (a - b).cross (b - c) := ⟨_, rfl⟩
  rw [← hn] at hl
  obtain ⟨hs, hp⟩ := coord_spec a b c p hn hl
  have hne := hl.ne'
  obtain ⟨z, hz⟩ : ∃ z, z = coord (vert a b c c) n p := ⟨_, rfl⟩
  rw [← hz] at hs hp
  -- the edges are not degenerate
  have eab : 0 < (b - a).dot (b - a) := by
    refine lt_of_le_of_ne (dot_self_nonneg _) fun h => hne ?_
    have h := dot_self_eq_zero h.symm
    have : a - b = 0 := by rw [show a - b = -(b - a) by v3, h]; v3
    rw [hn, this]; simp [dot, cross]
  have ebc : 0 < (c - b).dot (c - b) := by
    refine lt_of_le_of_ne (dot_self_nonneg _) fun h => hne ?_
    have h := dot_self_eq_zero h.symm
    have : b - c = 0 := by rw [show b - c = -(c - b) by v3, h]; v3
    rw [hn, this]; simp [dot, cross]
  have eca : 0 < (a - c).dot (a - c) := by
    refine lt_of_le_of_ne (dot_self_nonneg _) fun h => hne ?_
    have h := dot_self_eq_zero h.symm
    have : a - b = -(b - c) := by rw [show a - b = (a - c) - (b - c) by v3, h]; v3
    rw [hn, this]; simp only [dot, cross, neg_x, neg_y, neg_z]; ring
  have hout : ∀ k : ℕ, (vert a b c c (nxt k) - p).dot ((vert a b c c (nxt k) - vert a b c c (nxt (nxt k))).cross n) > 0 ↔ z k < 0 := by
    intro k
    rw [hz, coord, div_lt_iff₀ hl, zero_mul]
    constructor <;> intro h <;> linarith
  have hin : ∀ u v w : ℝ, u + v + w = 1 → (u • a + v • b + w • c - p).dot n = (a - p).dot n / n.dot n * n.dot n := by
    intro u v w h
    obtain rfl : u = 1 - v - w := by linarith
    rw [div_mul_cancel₀ _ hne, hn]
    simp only [dot, cross, add_x, add_y, add_z, smul_x, smul_y, smul_z, sub_x, sub_y, sub_z]; ring
  have hr : r = (if ([0, 1, 2].foldl (edge (vert a b c c) n p) none).dist < 0 then above a b c p n
      else [0, 1, 2].foldl (edge (vert a b c c) n p) none) := by
    show triangle a b c p = _
    simp only [triangle, ← hn, if_pos hl]
  clear_value r
  have hedge : ∀ i < 3, ∃ h : 0 < (vert a b c c (nxt i) - vert a b c c i).dot (vert a b c c (nxt i) - vert a b c c i), True := by
    intro i hi
    interval_cases i
    · exact ⟨eab, trivial⟩
    · exact ⟨ebc, trivial⟩
    · exact ⟨eca, trivial⟩
  have hfold := foldMin (step := edge (vert a b c c) n p)
    (out := fun i => (vert a b c c i - p).dot ((vert a b c c i - vert a b c c (nxt i)).cross n) > 0)
    (r := fun i => (line (vert a b c c i) (vert a b c c (nxt i)) p).dist)
    (Q := fun i st => st.par i = (line (vert a b c c i) (vert a b c c (nxt i)) p).par 0 ∧
      st.par (nxt i) = (line (vert a b c c i) (vert a b c c (nxt i)) p).par 1 ∧ st.par (nxt (nxt i)) = 0 ∧
      ∀ k, st.bit k = ((k == i && (line (vert a b c c i) (vert a b c c (nxt i)) p).bit 0) ||
        (k == nxt i && (line (vert a b c c i) (vert a b c c (nxt i)) p).bit 1)))
    [0, 1, 2] (by
      intro i hi _
      obtain ⟨h, _⟩ := hedge i (by simp at hi; omega)
      rw [(line_spec p h).2.2.2.1]; exact dot_self_nonneg _)
    (by intro st i _ h; simp only [edge, if_neg h])
    (by
      intro st i hi h h'
      simp only [edge, if_pos h, if_pos h', if_true]
      simp only [List.mem_cons, List.not_mem_nil, or_false] at hi
      rcases hi with rfl | rfl | rfl <;> simp [nxt])
    (by intro st i _ h h'; simp only [edge, if_pos h, if_neg h'])
  rcases hfold with ⟨hno, he⟩ | ⟨i, hi, ho, ⟨hq0, hq1, hq2, hqb⟩, hd, hmin⟩
  · -- above the triangle
    rw [he, if_pos (by norm_num [none])] at hr
    have z0 : 0 ≤ z 0 := not_lt.1 fun h => hno 1 (by simp) ((hout 0).2 h)
    have z1 : 0 ≤ z 1 := not_lt.1 fun h => hno 2 (by simp) ((hout 1).2 h)
    have z2 : 0 ≤ z 2 := not_lt.1 fun h => hno 0 (by simp) ((hout 2).2 h)
    have cr : ∀ (q : V3 ℝ), q = z 0 • a + z 1 • b + z 2 • c → (b - c).cross (b - q) = z 0 • n ∧ (c - a).cross (c - q) = z 1 • n := by
      rintro q rfl
      have : z 2 = 1 - z 0 - z 1 := by linarith
      rw [hn, this]
      constructor <;> apply V3.ext' <;>
        simp only [cross, add_x, add_y, add_z, smul_x, smul_y, smul_z, sub_x, sub_y, sub_z] <;> ring
    have p0 : r.par 0 = z 0 := by
      rw [hr]; simp only [above, if_true]
      rw [show b - p - ((a - p).dot n / n.dot n) • n = b - (p + ((a - p).dot n / n.dot n) • n) by v3,
        (cr _ hp.symm).1, nrm_smul, abs_of_nonneg z0]
      have : 0 < Real.sqrt (n.dot n) := Real.sqrt_pos.2 hl
      rw [nrm]; field_simp
    have p1 : r.par 1 = z 1 := by
      rw [hr]; simp only [above, if_true, one_ne_zero, if_false]
      rw [show c - p - ((a - p).dot n / n.dot n) • n = c - (p + ((a - p).dot n / n.dot n) • n) by v3,
        (cr _ hp.symm).2, nrm_smul, abs_of_nonneg z1]
      have : 0 < Real.sqrt (n.dot n) := Real.sqrt_pos.2 hl
      rw [nrm]; field_simp
    have p2 : r.par 2 = z 2 := by
      have : r.par 2 = 1 - r.par 0 - r.par 1 := by
        rw [hr]; simp [above]
      rw [this, p0, p1]; linarith
    have hdist : r.dist = (((a - p).dot n / n.dot n) • n).dot (((a - p).dot n / n.dot n) • n) := by rw [hr]; rfl
    refine ⟨by rw [p0]; exact z0, by rw [p1]; exact z1, by rw [p2]; exact z2, by rw [p0, p1, p2]; exact hs, ?_, ?_, ?_, ?_, ?_⟩
    · show r.dist = (r.par 0 • a + r.par 1 • b + r.par 2 • c - p).dot (r.par 0 • a + r.par 1 • b + r.par 2 • c - p)
      rw [p0, p1, p2, hp, hdist]
      congr 1 <;> v3
    · intro u v w _ _ _ h
      have h1 := closer (u • a + v • b + w • c) p n (hin u v w h) (t := 1) (by norm_num) (le_refl _)
      rw [hdist]
      refine le_trans (le_of_eq ?_) h1
      congr 1 <;> v3
    · intro k hk
      rw [hr]; simp [above, hk]
    · intro k hk
      rw [hr]; simp [above, hk]
    · intro k hk _
      show (r.par 0 • a + r.par 1 • b + r.par 2 • c - p).dot (vert a b c c k - (r.par 0 • a + r.par 1 • b + r.par 2 • c)) = 0
      rw [p0, p1, p2]
      have hy := hin _ _ _ hs
      have hyn : z 0 • a + z 1 • b + z 2 • c - p = ((a - p).dot n / n.dot n) • n := by rw [hp]; v3
      have hv : (vert a b c c k - p).dot n = (a - p).dot n / n.dot n * n.dot n := by
        interval_cases k
        · have := hin 1 0 0 (by norm_num)
          rw [← this]; congr 1; simp only [vert]; v3
        · have := hin 0 1 0 (by norm_num)
          rw [← this]; congr 1; simp only [vert]; v3
        · have := hin 0 0 1 (by norm_num)
          rw [← this]; congr 1; simp only [vert]; v3
      have : (vert a b c c k - (z 0 • a + z 1 • b + z 2 • c)).dot n = 0 := by
        have e : vert a b c c k - (z 0 • a + z 1 • b + z 2 • c) =
          (vert a b c c k - p) - (z 0 • a + z 1 • b + z 2 • c - p) := by v3
        rw [e, sub_dot, hv, hy, _root_.sub_self]
      rw [hyn, smul_dot, dot_comm n (_ - _), this, mul_zero]
  · -- outside
    obtain ⟨hi3, _⟩ := hedge i (by simp at hi; omega)
    have L := line_spec p hi3
    have hd0 : ¬ ([0, 1, 2].foldl (edge (vert a b c c) n p) none).dist < 0 := by
      rw [hd, L.2.2.2.1]; exact not_lt.2 (dot_self_nonneg _)
    rw [if_neg hd0] at hr
    rw [← hr] at hq0 hq1 hq2 hqb hd
    -- nearest
    have hnear : ∀ u v w : ℝ, 0 ≤ u → 0 ≤ v → 0 ≤ w → u + v + w = 1 →
        r.dist ≤ (u • a + v • b + w • c - p).dot (u • a + v • b + w • c - p) := by
      intro u v w hu hv hw h
      have hk0 : ∃ k < 3, z k < 0 := by
        simp only [List.mem_cons, List.not_mem_nil, or_false] at hi
        rcases hi with rfl | rfl | rfl
        · exact ⟨2, by norm_num, (hout 2).1 ho⟩
        · exact ⟨0, by norm_num, (hout 0).1 ho⟩
        · exact ⟨1, by norm_num, (hout 1).1 ho⟩
      obtain ⟨t, t0, t1, k, hk, hzk, hek, hpos⟩ := exit 3 (fun k => if k = 0 then u else if k = 1 then v else w) z
        (by intro k hk; interval_cases k <;> simpa) hk0
      have hc := closer (u • a + v • b + w • c) p n (hin u v w h) t0 t1
      rw [← hp] at hc
      refine le_trans ?_ hc
      have hq := hpos 0 (by norm_num)
      have hq' := hpos 1 (by norm_num)
      have hq'' := hpos 2 (by norm_num)
      simp only [if_true, one_ne_zero, if_false, OfNat.ofNat_ne_zero, OfNat.ofNat_ne_one] at hq hq' hq''
      have hsum : ((1 - t) * u + t * z 0) + ((1 - t) * v + t * z 1) + ((1 - t) * w + t * z 2) = 1 := by
        linear_combination (1 - t) * h + t * hs
      have hmix : (1 - t) • (u • a + v • b + w • c) + t • (z 0 • a + z 1 • b + z 2 • c) =
          ((1 - t) * u + t * z 0) • a + ((1 - t) * v + t * z 1) • b + ((1 - t) * w + t * z 2) • c := by v3
      rw [hmix]
      rw [hd]
      have fin : ∀ α β γ : ℝ, 0 ≤ α → 0 ≤ β → 0 ≤ γ → α + β + γ = 1 →
          ((z 0 < 0 ∧ α = 0) ∨ (z 1 < 0 ∧ β = 0) ∨ (z 2 < 0 ∧ γ = 0)) →
          (line (vert a b c c i) (vert a b c c (nxt i)) p).dist ≤
            (α • a + β • b + γ • c - p).dot (α • a + β • b + γ • c - p) := by
        intro α β γ hα hβ hγ h hcase
        rcases hcase with ⟨hz, h0⟩ | ⟨hz, h0⟩ | ⟨hz, h0⟩
        · refine (hmin 1 (by simp) ((hout 0).2 hz)).trans ?_
          refine ((line_spec p (a := b) (b := c) ebc).2.2.2.2.1 β γ hβ hγ (by linarith)).trans (le_of_eq ?_)
          rw [h0]; congr 1 <;> v3
        · refine (hmin 2 (by simp) ((hout 1).2 hz)).trans ?_
          refine ((line_spec p (a := c) (b := a) eca).2.2.2.2.1 γ α hγ hα (by linarith)).trans (le_of_eq ?_)
          rw [h0]; congr 1 <;> v3
        · refine (hmin 0 (by simp) ((hout 2).2 hz)).trans ?_
          refine ((line_spec p (a := a) (b := b) eab).2.2.2.2.1 α β hα hβ (by linarith)).trans (le_of_eq ?_)
          rw [h0]; congr 1 <;> v3
      refine fin _ _ _ hq hq' hq'' hsum ?_
      interval_cases k
      · exact Or.inl ⟨hzk, by simpa using hek⟩
      · exact Or.inr (Or.inl ⟨hzk, by simpa using hek⟩)
      · exact Or.inr (Or.inr ⟨hzk, by simpa using hek⟩)
    simp only [List.mem_cons, List.not_mem_nil, or_false] at hi
    rcases hi with rfl | rfl | rfl
    · obtain ⟨l0, l1, ls, lv, -, lb0, lb1, -, lf0, lf1⟩ := L
      simp only [vert, nxt] at *
      refine ⟨by rw [hq0]; exact l0, by rw [hq1]; exact l1, hq2.ge, by rw [hq0, hq1, hq2, ls, add_zero], ?_, hnear, ?_, ?_, ?_⟩
      · rw [hd, lv]
        show _ = (r.par 0 • a + r.par 1 • b + r.par 2 • c - p).dot (r.par 0 • a + r.par 1 • b + r.par 2 • c - p)
        rw [hq0, hq1, hq2]; congr 1 <;> v3
      · intro k hk hb
        rw [hqb] at hb
        interval_cases k
        · rw [hq0]; exact lb0 (by simpa using hb)
        · rw [hq1]; exact lb1 (by simpa using hb)
        · exact hq2
      · intro k hk
        rw [hqb, beq_false_of_ne (by omega), beq_false_of_ne (by omega)]; rfl
      · intro k hk hb
        rw [hqb] at hb
        have ey : y = r.par 0 • a + r.par 1 • b := by
          show r.par 0 • a + r.par 1 • b + r.par 2 • c = _
          rw [hq2]; v3
        rw [ey, hq0, hq1]
        interval_cases k
        · exact lf0 (by simpa using hb)
        · exact lf1 (by simpa using hb)
        · simp at hb
    · obtain ⟨l0, l1, ls, lv, -, lb0, lb1, -, lf0, lf1⟩ := L
      simp only [vert, nxt] at *
      refine ⟨hq2.ge, by rw [hq0]; exact l0, by rw [hq1]; exact l1, by rw [hq0, hq1, hq2, zero_add, ls], ?_, hnear, ?_, ?_, ?_⟩
      · rw [hd, lv]
        show _ = (r.par 0 • a + r.par 1 • b + r.par 2 • c - p).dot (r.par 0 • a + r.par 1 • b + r.par 2 • c - p)
        rw [hq0, hq1, hq2]; congr 1 <;> v3
      · intro k hk hb
        rw [hqb] at hb
        interval_cases k
        · exact hq2
        · rw [hq0]; exact lb0 (by simpa using hb)
        · rw [hq1]; exact lb1 (by simpa using hb)
      · intro k hk
        rw [hqb, beq_false_of_ne (by omega), beq_false_of_ne (by omega)]; rfl
      · intro k hk hb
        rw [hqb] at hb
        have ey : y = r.par 1 • b + r.par 2 • c := by
          show r.par 0 • a + r.par 1 • b + r.par 2 • c = _
          rw [hq2]; v3
        rw [ey, hq0, hq1]
        interval_cases k
        · simp at hb
        · exact lf0 (by simpa using hb)
        · exact lf1 (by simpa using hb)
    · obtain ⟨l0, l1, ls, lv, -, lb0, lb1, -, lf0, lf1⟩ := L
      simp only [vert, nxt] at *
      refine ⟨by rw [hq1]; exact l1, hq2.ge, by rw [hq0]; exact l0, by rw [hq0, hq1, hq2]; linarith, ?_, hnear, ?_, ?_, ?_⟩
      · rw [hd, lv]
        show _ = (r.par 0 • a + r.par 1 • b + r.par 2 • c - p).dot (r.par 0 • a + r.par 1 • b + r.par 2 • c - p)
        rw [hq0, hq1, hq2]; congr 1 <;> v3
      · intro k hk hb
        rw [hqb] at hb
        interval_cases k
        · rw [hq1]; exact lb1 (by simpa using hb)
        · exact hq2
        · rw [hq0]; exact lb0 (by simpa using hb)
      · intro k hk
        rw [hqb, beq_false_of_ne (by omega), beq_false_of_ne (by omega)]; rfl
      · intro k hk hb
        rw [hqb] at hb
        have ey : y = r.par 2 • c + r.par 0 • a := by
          show r.par 0 • a + r.par 1 • b + r.par 2 • c = _
          rw [hq2]; v3
        rw [ey, hq0, hq1]
        interval_cases k
        · exact lf1 (by simpa using hb)
        · simp at hb
        · exact lf0 (by simpa using hb)

/-- The coordinate of vertex `k` of `p` in the tetrahedron. -/
noncomputable def coord4 (v : ℕ → V3 ℝ) (vl : ℝ) (p : V3 ℝ) (k : ℕ) : ℝ :=
  -(vl * (v 3 - p).dot ((v (nxt k) - v 3).cross (v (nxt (nxt k)) - v 3))) / (vl * vl)

theorem coord4_spec (a b c d p : V3 ℝ) {vl : ℝ} (hv : vl = triple (a - d) (b - d) (c - d)) (hl : vl ≠ 0) :
    let z := coord4 (vert a b c d) vl p
    let z3 := -(vl * (a - p).dot ((b - c).cross (a - b))) / (vl * vl)
    z 0 + z 1 + z 2 + z3 = 1 ∧ z 0 • a + z 1 • b + z 2 • c + z3 • d = p ∧
    z 0 = triple (c - p) (b - p) (d - p) / vl ∧ z 1 = triple (a - p) (c - p) (d - p) / vl ∧
    z 2 = triple (b - p) (a - p) (d - p) / vl := by
  intro z z3
  have e : ∀ x : ℝ, -(vl * x) / (vl * vl) = -x / vl := by intro x; field_simp
  have e0 : z 0 = -((d - p).dot ((b - d).cross (c - d))) / vl := e _
  have e1 : z 1 = -((d - p).dot ((c - d).cross (a - d))) / vl := e _
  have e2 : z 2 = -((d - p).dot ((a - d).cross (b - d))) / vl := e _
  have e3 : z3 = -((a - p).dot ((b - c).cross (a - b))) / vl := e _
  have h1 : -((d - p).dot ((b - d).cross (c - d))) + -((d - p).dot ((c - d).cross (a - d))) +
      -((d - p).dot ((a - d).cross (b - d))) + -((a - p).dot ((b - c).cross (a - b))) = vl := by
    rw [hv]; simp only [triple, dot, cross, sub_x, sub_y, sub_z]; ring
  have h2 : -((d - p).dot ((b - d).cross (c - d))) • a + -((d - p).dot ((c - d).cross (a - d))) • b +
      -((d - p).dot ((a - d).cross (b - d))) • c + -((a - p).dot ((b - c).cross (a - b))) • d = vl • p := by
    rw [hv]
    apply V3.ext' <;> simp only [triple, dot, cross, add_x, add_y, add_z, smul_x, smul_y, smul_z, sub_x, sub_y, sub_z] <;> ring
  refine ⟨?_, ?_, ?_, ?_, ?_⟩
  · rw [e0, e1, e2, e3, ← add_div, ← add_div, ← add_div, h1, div_self hl]
  · rw [e0, e1, e2, e3]
    have hx := congrArg V3.x h2
    have hy := congrArg V3.y h2
    have hz := congrArg V3.z h2
    simp only [add_x, add_y, add_z, smul_x, smul_y, smul_z] at hx hy hz
    apply V3.ext' <;> simp only [add_x, add_y, add_z, smul_x, smul_y, smul_z] <;> field_simp
    · linear_combination hx
    · linear_combination hy
    · linear_combination hz
  · rw [e0]; congr 1; simp only [triple, dot, cross, sub_x, sub_y, sub_z]; ring
  · rw [e1]; congr 1; simp only [triple, dot, cross, sub_x, sub_y, sub_z]; ring
  · rw [e2]; congr 1; simp only [triple, dot, cross, sub_x, sub_y, sub_z]; ring

/-- The faces of a tetrahedron that is not degenerate are not degenerate. -/
theorem face_pos {u v w e : V3 ℝ} (h : triple (u - e) (v - e) (w - e) ≠ 0) :
    0 < ((v - w).cross (w - e)).dot ((v - w).cross (w - e)) := by
  refine lt_of_le_of_ne (dot_self_nonneg _) fun h' => h ?_
  have h' := dot_self_eq_zero h'.symm
  have : (v - e).cross (w - e) = (v - w).cross (w - e) := by
    apply V3.ext' <;> simp only [cross, sub_x, sub_y, sub_z] <;> ring
  rw [triple, this, h']; simp [dot]

/-- What `projectTetrahedra` gives if the point is on the side of the last vertex, with explicit weights. -/
theorem tetra_spec {a b c d : V3 ℝ} (p : V3 ℝ) (hl : triple (a - d) (b - d) (c - d) ≠ 0)
    (hng : triple (a - d) (b - d) (c - d) * (a - p).dot ((b - c).cross (a - b)) ≤ 0) :
    let r := tetrahedron a b c d p
    let y := r.par 0 • a + r.par 1 • b + r.par 2 • c + r.par 3 • d
    0 ≤ r.par 0 ∧ 0 ≤ r.par 1 ∧ 0 ≤ r.par 2 ∧ 0 ≤ r.par 3 ∧ r.par 0 + r.par 1 + r.par 2 + r.par 3 = 1 ∧
    r.dist = (y - p).dot (y - p) ∧
    (∀ u v w x : ℝ, 0 ≤ u → 0 ≤ v → 0 ≤ w → 0 ≤ x → u + v + w + x = 1 →
      r.dist ≤ (u • a + v • b + w • c + x • d - p).dot (u • a + v • b + w • c + x • d - p)) ∧
    (∀ k < 4, r.bit k = false → r.par k = 0) ∧ (∀ k, 4 ≤ k → r.bit k = false) ∧ ((∀ k < 4, r.bit k = true) → r.dist = 0) ∧
    ∀ k < 4, r.bit k = true → (y - p).dot (vert a b c d k - y) = 0 := by
  intro r y
  obtain ⟨vl, hv⟩ : ∃ vl, vl = triple (a - d) (b - d) (c - d) := ⟨_, rfl⟩
  have hl' := hl
  rw [← hv] at hl hng
  obtain ⟨hs, hp, i0, i1, i2⟩ := coord4_spec a b c d p hv hl
  have hsq : 0 < vl * vl := mul_self_pos.2 hl
  obtain ⟨z, hz⟩ : ∃ z, z = coord4 (vert a b c d) vl p := ⟨_, rfl⟩
  obtain ⟨z3, hz3⟩ : ∃ z3, z3 = -(vl * (a - p).dot ((b - c).cross (a - b))) / (vl * vl) := ⟨_, rfl⟩
  simp only [← hz, ← hz3] at hs hp i0 i1 i2
  have z3n : 0 ≤ z3 := by rw [hz3]; exact div_nonneg (by linarith) hsq.le
  have fab : 0 < ((a - b).cross (b - d)).dot ((a - b).cross (b - d)) := by
    refine face_pos (u := c) fun h => hl' ?_
    rw [← h]; simp only [triple, dot, cross, sub_x, sub_y, sub_z]; ring
  have fbc : 0 < ((b - c).cross (c - d)).dot ((b - c).cross (c - d)) := face_pos hl'
  have fca : 0 < ((c - a).cross (a - d)).dot ((c - a).cross (a - d)) := by
    refine face_pos (u := b) fun h => hl' ?_
    rw [← h]; simp only [triple, dot, cross, sub_x, sub_y, sub_z]; ring
  have hout : ∀ k : ℕ, vl * (vert a b c d 3 - p).dot ((vert a b c d (nxt k) - vert a b c d 3).cross
      (vert a b c d (nxt (nxt k)) - vert a b c d 3)) > 0 ↔ z k < 0 := by
    intro k
    rw [hz, coord4, div_lt_iff₀ hsq, zero_mul]
    constructor <;> intro h <;> linarith
  have hr : r = (if ([0, 1, 2].foldl (face (vert a b c d) vl p) none).dist < 0 then inside a b c d p vl
      else [0, 1, 2].foldl (face (vert a b c d) vl p) none) := by
    show tetrahedron a b c d p = _
    simp only [tetrahedron, ← hv, if_pos hng, if_pos (abs_pos.2 hl)]
  clear_value r
  have hface : ∀ i < 3, 0 < ((vert a b c d i - vert a b c d (nxt i)).cross (vert a b c d (nxt i) - vert a b c d 3)).dot
      ((vert a b c d i - vert a b c d (nxt i)).cross (vert a b c d (nxt i) - vert a b c d 3)) := by
    intro i hi
    interval_cases i
    · exact fab
    · exact fbc
    · exact fca
  have hfold := foldMin (step := face (vert a b c d) vl p)
    (out := fun i => vl * (vert a b c d 3 - p).dot ((vert a b c d i - vert a b c d 3).cross
      (vert a b c d (nxt i) - vert a b c d 3)) > 0)
    (r := fun i => (triangle (vert a b c d i) (vert a b c d (nxt i)) (vert a b c d 3) p).dist)
    (Q := fun i st => st.par i = (triangle (vert a b c d i) (vert a b c d (nxt i)) (vert a b c d 3) p).par 0 ∧
      st.par (nxt i) = (triangle (vert a b c d i) (vert a b c d (nxt i)) (vert a b c d 3) p).par 1 ∧
      st.par (nxt (nxt i)) = 0 ∧
      st.par 3 = (triangle (vert a b c d i) (vert a b c d (nxt i)) (vert a b c d 3) p).par 2 ∧
      ∀ k, st.bit k = ((k == i && (triangle (vert a b c d i) (vert a b c d (nxt i)) (vert a b c d 3) p).bit 0) ||
        (k == nxt i && (triangle (vert a b c d i) (vert a b c d (nxt i)) (vert a b c d 3) p).bit 1) ||
        (k == 3 && (triangle (vert a b c d i) (vert a b c d (nxt i)) (vert a b c d 3) p).bit 2)))
    [0, 1, 2] (by
      intro i hi _
      rw [(triangle_spec p (hface i (by simp at hi; omega))).2.2.2.2.1]; exact dot_self_nonneg _)
    (by intro st i _ h; simp only [face, if_neg h])
    (by
      intro st i hi h h'
      simp only [face, if_pos h, if_pos h', if_true]
      simp only [List.mem_cons, List.not_mem_nil, or_false] at hi
      rcases hi with rfl | rfl | rfl <;> simp [nxt])
    (by intro st i _ h h'; simp only [face, if_pos h, if_neg h'])
  rcases hfold with ⟨hno, he⟩ | ⟨i, hi, ho, ⟨hq0, hq1, hq2, hq3, hqb⟩, hd, hmin⟩
  · -- inside
    rw [he, if_pos (by norm_num [none])] at hr
    have z0 : 0 ≤ z 0 := not_lt.1 fun h => hno 1 (by simp) ((hout 0).2 h)
    have z1 : 0 ≤ z 1 := not_lt.1 fun h => hno 2 (by simp) ((hout 1).2 h)
    have z2 : 0 ≤ z 2 := not_lt.1 fun h => hno 0 (by simp) ((hout 2).2 h)
    have p0 : r.par 0 = z 0 := by rw [hr, i0]; simp [inside]
    have p1 : r.par 1 = z 1 := by rw [hr, i1]; simp [inside]
    have p2 : r.par 2 = z 2 := by rw [hr, i2]; simp [inside]
    have p3 : r.par 3 = z3 := by
      have : r.par 3 = 1 - (r.par 0 + r.par 1 + r.par 2) := by rw [hr]; simp [inside]
      rw [this, p0, p1, p2]; linarith
    have hdist : r.dist = 0 := by rw [hr]; rfl
    refine ⟨by rw [p0]; exact z0, by rw [p1]; exact z1, by rw [p2]; exact z2, by rw [p3]; exact z3n,
      by rw [p0, p1, p2, p3]; exact hs, ?_, ?_, ?_, ?_, fun _ => hdist, ?_⟩
    · show r.dist = (r.par 0 • a + r.par 1 • b + r.par 2 • c + r.par 3 • d - p).dot
        (r.par 0 • a + r.par 1 • b + r.par 2 • c + r.par 3 • d - p)
      rw [p0, p1, p2, p3, hp, hdist]
      simp [dot]
    · intro u v w x _ _ _ _ _
      rw [hdist]; exact dot_self_nonneg _
    · intro k hk
      rw [hr]; simp [inside, hk]
    · intro k hk
      rw [hr]; simp [inside, hk]
    · intro k _ _
      show (r.par 0 • a + r.par 1 • b + r.par 2 • c + r.par 3 • d - p).dot _ = 0
      rw [p0, p1, p2, p3, hp]
      simp [dot]
  · -- outside
    have L := triangle_spec p (hface i (by simp at hi; omega))
    have hd0 : ¬ ([0, 1, 2].foldl (face (vert a b c d) vl p) none).dist < 0 := by
      rw [hd, L.2.2.2.2.1]; exact not_lt.2 (dot_self_nonneg _)
    rw [if_neg hd0] at hr
    rw [← hr] at hq0 hq1 hq2 hq3 hqb hd
    -- nearest
    have hnear : ∀ u v w x : ℝ, 0 ≤ u → 0 ≤ v → 0 ≤ w → 0 ≤ x → u + v + w + x = 1 →
        r.dist ≤ (u • a + v • b + w • c + x • d - p).dot (u • a + v • b + w • c + x • d - p) := by
      intro u v w x hu hv hw hx h
      have hk0 : ∃ k < 3, z k < 0 := by
        simp only [List.mem_cons, List.not_mem_nil, or_false] at hi
        rcases hi with rfl | rfl | rfl
        · exact ⟨2, by norm_num, (hout 2).1 ho⟩
        · exact ⟨0, by norm_num, (hout 0).1 ho⟩
        · exact ⟨1, by norm_num, (hout 1).1 ho⟩
      obtain ⟨t, t0, t1, k, hk, hzk, hek, hpos⟩ := exit 3 (fun k => if k = 0 then u else if k = 1 then v else w) z
        (by intro k hk; interval_cases k <;> simpa) hk0
      have hc := closer (u • a + v • b + w • c + x • d) p 0 (k := 0) (by simp [dot]) t0 t1
      rw [show p + (0 : ℝ) • (0 : V3 ℝ) = p by v3, ← hp] at hc
      rw [hp] at hc
      have hmix : (1 - t) • (u • a + v • b + w • c + x • d) + t • p =
          ((1 - t) * u + t * z 0) • a + ((1 - t) * v + t * z 1) • b + ((1 - t) * w + t * z 2) • c +
          ((1 - t) * x + t * z3) • d := by
        conv_lhs => rw [← hp]
        v3
      rw [hmix] at hc
      refine le_trans ?_ hc
      have hq := hpos 0 (by norm_num)
      have hq' := hpos 1 (by norm_num)
      have hq'' := hpos 2 (by norm_num)
      simp only [if_true, one_ne_zero, if_false, OfNat.ofNat_ne_zero, OfNat.ofNat_ne_one] at hq hq' hq''
      have hx' : 0 ≤ (1 - t) * x + t * z3 := add_nonneg (mul_nonneg (by linarith) hx) (mul_nonneg t0 z3n)
      have hsum : ((1 - t) * u + t * z 0) + ((1 - t) * v + t * z 1) + ((1 - t) * w + t * z 2) + ((1 - t) * x + t * z3) = 1 := by
        linear_combination (1 - t) * h + t * hs
      rw [hd]
      have fin : ∀ α β γ δ : ℝ, 0 ≤ α → 0 ≤ β → 0 ≤ γ → 0 ≤ δ → α + β + γ + δ = 1 →
          ((z 0 < 0 ∧ α = 0) ∨ (z 1 < 0 ∧ β = 0) ∨ (z 2 < 0 ∧ γ = 0)) →
          (triangle (vert a b c d i) (vert a b c d (nxt i)) (vert a b c d 3) p).dist ≤
            (α • a + β • b + γ • c + δ • d - p).dot (α • a + β • b + γ • c + δ • d - p) := by
        intro α β γ δ hα hβ hγ hδ h hcase
        rcases hcase with ⟨hz, h0⟩ | ⟨hz, h0⟩ | ⟨hz, h0⟩
        · refine (hmin 1 (by simp) ((hout 0).2 hz)).trans ?_
          refine ((triangle_spec p fbc).2.2.2.2.2.1 β γ δ hβ hγ hδ (by linarith)).trans (le_of_eq ?_)
          rw [h0]; congr 1 <;> v3
        · refine (hmin 2 (by simp) ((hout 1).2 hz)).trans ?_
          refine ((triangle_spec p fca).2.2.2.2.2.1 γ α δ hγ hα hδ (by linarith)).trans (le_of_eq ?_)
          rw [h0]; congr 1 <;> v3
        · refine (hmin 0 (by simp) ((hout 2).2 hz)).trans ?_
          refine ((triangle_spec p fab).2.2.2.2.2.1 α β δ hα hβ hδ (by linarith)).trans (le_of_eq ?_)
          rw [h0]; congr 1 <;> v3
      refine fin _ _ _ _ hq hq' hq'' hx' hsum ?_
      interval_cases k
      · exact Or.inl ⟨hzk, by simpa using hek⟩
      · exact Or.inr (Or.inl ⟨hzk, by simpa using hek⟩)
      · exact Or.inr (Or.inr ⟨hzk, by simpa using hek⟩)
    simp only [List.mem_cons, List.not_mem_nil, or_false] at hi
    rcases hi with rfl | rfl | rfl
    · obtain ⟨l0, l1, l2, ls, lv, -, lb, -, lf⟩ := L
      simp only [vert, nxt] at *
      refine ⟨by rw [hq0]; exact l0, by rw [hq1]; exact l1, hq2.ge, by rw [hq3]; exact l2,
        by rw [hq0, hq1, hq2, hq3]; linarith, ?_, hnear, ?_, ?_,
        fun h => by have := h 2 (by norm_num); rw [hqb] at this; simp at this, ?_⟩
      · rw [hd, lv]
        show _ = (r.par 0 • a + r.par 1 • b + r.par 2 • c + r.par 3 • d - p).dot
          (r.par 0 • a + r.par 1 • b + r.par 2 • c + r.par 3 • d - p)
        rw [hq0, hq1, hq2, hq3]; congr 1 <;> v3
      · intro k hk hb
        rw [hqb] at hb
        interval_cases k
        · rw [hq0]; exact lb 0 (by norm_num) (by simpa using hb)
        · rw [hq1]; exact lb 1 (by norm_num) (by simpa using hb)
        · exact hq2
        · rw [hq3]; exact lb 2 (by norm_num) (by simpa using hb)
      · intro k hk
        rw [hqb, beq_false_of_ne (by omega), beq_false_of_ne (by omega), beq_false_of_ne (by omega)]; rfl
      · intro k hk hb
        rw [hqb] at hb
        have ey : y = r.par 0 • a + r.par 1 • b + r.par 3 • d := by
          show r.par 0 • a + r.par 1 • b + r.par 2 • c + r.par 3 • d = _
          rw [hq2]; v3
        rw [ey, hq0, hq1, hq3]
        interval_cases k
        · exact lf 0 (by norm_num) (by simpa using hb)
        · exact lf 1 (by norm_num) (by simpa using hb)
        · simp at hb
        · exact lf 2 (by norm_num) (by simpa using hb)
    · obtain ⟨l0, l1, l2, ls, lv, -, lb, -, lf⟩ := L
      simp only [vert, nxt] at *
      refine ⟨hq2.ge, by rw [hq0]; exact l0, by rw [hq1]; exact l1, by rw [hq3]; exact l2,
        by rw [hq0, hq1, hq2, hq3]; linarith, ?_, hnear, ?_, ?_,
        fun h => by have := h 0 (by norm_num); rw [hqb] at this; simp at this, ?_⟩
      · rw [hd, lv]
        show _ = (r.par 0 • a + r.par 1 • b + r.par 2 • c + r.par 3 • d - p).dot
          (r.par 0 • a + r.par 1 • b + r.par 2 • c + r.par 3 • d - p)
        rw [hq0, hq1, hq2, hq3]; congr 1 <;> v3
      · intro k hk hb
        rw [hqb] at hb
        interval_cases k
        · exact hq2
        · rw [hq0]; exact lb 0 (by norm_num) (by simpa using hb)
        · rw [hq1]; exact lb 1 (by norm_num) (by simpa using hb)
        · rw [hq3]; exact lb 2 (by norm_num) (by simpa using hb)
      · intro k hk
        rw [hqb, beq_false_of_ne (by omega), beq_false_of_ne (by omega), beq_false_of_ne (by omega)]; rfl
      · intro k hk hb
        rw [hqb] at hb
        have ey : y = r.par 1 • b + r.par 2 • c + r.par 3 • d := by
          show r.par 0 • a + r.par 1 • b + r.par 2 • c + r.par 3 • d = _
          rw [hq2]; v3
        rw [ey, hq0, hq1, hq3]
        interval_cases k
        · simp at hb
        · exact lf 0 (by norm_num) (by simpa using hb)
        · exact lf 1 (by norm_num) (by simpa using hb)
        · exact lf 2 (by norm_num) (by simpa using hb)
    · obtain ⟨l0, l1, l2, ls, lv, -, lb, -, lf⟩ := L
      simp only [vert, nxt] at *
      refine ⟨by rw [hq1]; exact l1, hq2.ge, by rw [hq0]; exact l0, by rw [hq3]; exact l2,
        by rw [hq0, hq1, hq2, hq3]; linarith, ?_, hnear, ?_, ?_,
        fun h => by have := h 1 (by norm_num); rw [hqb] at this; simp at this, ?_⟩
      · rw [hd, lv]
        show _ = (r.par 0 • a + r.par 1 • b + r.par 2 • c + r.par 3 • d - p).dot
          (r.par 0 • a + r.par 1 • b + r.par 2 • c + r.par 3 • d - p)
        rw [hq0, hq1, hq2, hq3]; congr 1 <;> v3
      · intro k hk hb
        rw [hqb] at hb
        interval_cases k
        · rw [hq1]; exact lb 1 (by norm_num) (by simpa using hb)
        · exact hq2
        · rw [hq0]; exact lb 0 (by norm_num) (by simpa using hb)
        · rw [hq3]; exact lb 2 (by norm_num) (by simpa using hb)
      · intro k hk
        rw [hqb, beq_false_of_ne (by omega), beq_false_of_ne (by omega), beq_false_of_ne (by omega)]; rfl
      · intro k hk hb
        rw [hqb] at hb
        have ey : y = r.par 2 • c + r.par 0 • a + r.par 3 • d := by
          show r.par 0 • a + r.par 1 • b + r.par 2 • c + r.par 3 • d = _
          rw [hq2]; v3
        rw [ey, hq0, hq1, hq3]
        interval_cases k
        · exact lf 1 (by norm_num) (by simpa using hb)
        · simp at hb
        · exact lf 0 (by norm_num) (by simpa using hb)
        · exact lf 2 (by norm_num) (by simpa using hb)

end Fcl.Proj
