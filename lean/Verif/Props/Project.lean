import Verif.Gjk.ProjectLemmas

/-!
# C73: projections of a point on segments, triangles and tetrahedra
-/

namespace Fcl
open V3 Proj

/-- The three points are not on a line. -/
def HasArea (a b c : V3 ℝ) : Prop := (b - a).cross (c - a) ≠ 0

/-- The four points are not in a plane. -/
def HasVolume (a b c d : V3 ℝ) : Prop := (b - a).dot ((c - a).cross (d - a)) ≠ 0

/-- `p = u a + v b + w c + y d` with weights of sum 1. -/
def Weights (a b c d p : V3 ℝ) (u v w y : ℝ) : Prop := u + v + w + y = 1 ∧ p = u • a + v • b + w • c + y • d

/-- The nearest point of a segment. -/
theorem C73_line {a b : V3 ℝ} (p : V3 ℝ) (h : a ≠ b) : Nearest [a, b] p (line a b p) := by
  have hab : 0 < (b - a).dot (b - a) := by
    refine lt_of_le_of_ne (dot_self_nonneg _) fun h' => h ?_
    have h' := dot_self_eq_zero h'.symm
    rw [← V3.sub_add_cancel b a, h']; v3
  obtain ⟨l0, l1, ls, lv, ln, b0, b1, bk, f0, f1⟩ := line_spec p hab
  refine ⟨?_, ?_, ?_, ?_, ?_, ?_, ?_⟩
  · intro k hk
    simp only [List.length_cons, List.length_nil] at hk
    interval_cases k
    · exact l0
    · exact l1
  · simp [List.range_succ, ls]
  · rw [lv]; simp only [mix]; congr 1 <;> v3
  · intro x hx
    obtain ⟨u, w, hu, hw, hs, rfl⟩ := hull_segment hx
    exact ln u w hu hw hs
  · intro k hk
    simp only [List.length_cons, List.length_nil] at hk
    interval_cases k
    · exact b0
    · exact b1
  · intro k hk hb
    have e : mix (line a b p).par [a, b] 0 = (line a b p).par 0 • a + (line a b p).par 1 • b := by simp only [mix]; v3
    rw [e]
    simp only [List.length_cons, List.length_nil] at hk
    interval_cases k
    · exact f0 hb
    · exact f1 hb
  · intro k hk; exact bk k (by simpa using hk)

theorem area_pos {a b c : V3 ℝ} : HasArea a b c ↔ 0 < ((a - b).cross (b - c)).dot ((a - b).cross (b - c)) := by
  have e : (a - b).cross (b - c) = (b - a).cross (c - a) := by
    apply V3.ext' <;> simp only [cross, sub_x, sub_y, sub_z] <;> ring
  rw [e, HasArea]
  constructor
  · intro h
    exact lt_of_le_of_ne (dot_self_nonneg _) fun h' => h (dot_self_eq_zero h'.symm)
  · intro h h'
    rw [h'] at h; simp [dot] at h

/-- The nearest point of a triangle. -/
theorem C73_triangle {a b c : V3 ℝ} (p : V3 ℝ) (h : HasArea a b c) : Nearest [a, b, c] p (triangle a b c p) := by
  obtain ⟨l0, l1, l2, ls, lv, ln, b0, bk, fk⟩ := triangle_spec p (area_pos.1 h)
  refine ⟨?_, ?_, ?_, ?_, ?_, ?_, ?_⟩
  · intro k hk
    simp only [List.length_cons, List.length_nil] at hk
    interval_cases k
    · exact l0
    · exact l1
    · exact l2
  · simp [List.range_succ, ← add_assoc, ls]
  · rw [lv]; simp only [mix]; congr 1 <;> v3
  · intro x hx
    obtain ⟨u, v, w, hu, hv, hw, hs, rfl⟩ := (hull_triangle a b c x).1 hx
    exact ln u v w hu hv hw hs
  · intro k hk; exact b0 k (by simpa using hk)
  · intro k hk hb
    have e : mix (triangle a b c p).par [a, b, c] 0 =
      (triangle a b c p).par 0 • a + (triangle a b c p).par 1 • b + (triangle a b c p).par 2 • c := by simp only [mix]; v3
    rw [e]
    simp only [List.length_cons, List.length_nil] at hk
    have := fk k hk hb
    interval_cases k <;> exact this
  · intro k hk; exact bk k (by simpa using hk)

theorem volume_ne {a b c d : V3 ℝ} : HasVolume a b c d ↔ triple (a - d) (b - d) (c - d) ≠ 0 := by
  have e : triple (a - d) (b - d) (c - d) = -(b - a).dot ((c - a).cross (d - a)) := by
    simp only [triple, dot, cross, sub_x, sub_y, sub_z]; ring
  rw [e, HasVolume, neg_ne_zero]

theorem side {a b c d p : V3 ℝ} {u v w y : ℝ} (h : Weights a b c d p u v w y) :
    triple (a - d) (b - d) (c - d) * (a - p).dot ((b - c).cross (a - b)) =
      -(y * (triple (a - d) (b - d) (c - d) * triple (a - d) (b - d) (c - d))) := by
  obtain ⟨hs, rfl⟩ := h
  obtain rfl : u = 1 - v - w - y := by linarith
  have : (a - ((1 - v - w - y) • a + v • b + w • c + y • d)).dot ((b - c).cross (a - b)) =
      -(y * triple (a - d) (b - d) (c - d)) := by
    simp only [triple, dot, cross, add_x, add_y, add_z, smul_x, smul_y, smul_z, sub_x, sub_y, sub_z]; ring
  rw [this]; ring

/-- If the point is beyond the face of the first three vertices, the answer is the nearest point of that face. -/
theorem C73_tetrahedron_beyond {a b c d p : V3 ℝ} {u v w y : ℝ} (hv : HasVolume a b c d) (h : Weights a b c d p u v w y)
    (hy : y < 0) : Nearest [a, b, c] p (tetrahedron a b c d p) := by
  have hne := volume_ne.1 hv
  have hsq := mul_self_pos.2 hne
  have hng : ¬ triple (a - d) (b - d) (c - d) * (a - p).dot ((b - c).cross (a - b)) ≤ 0 := by
    rw [side h, not_le]
    nlinarith [mul_pos_of_neg_of_neg hy (neg_neg_of_pos hsq)]
  have harea : HasArea a b c := by
    intro h0
    apply hv
    rw [dot_comm]
    have : (b - a).dot ((c - a).cross (d - a)) = (d - a).dot ((b - a).cross (c - a)) := by
      simp only [dot, cross, sub_x, sub_y, sub_z]; ring
    rw [dot_comm, this, h0]; simp [dot]
  have T := C73_triangle p harea
  have hp : ∀ k < 3, (tetrahedron a b c d p).par k = (triangle a b c p).par k := by
    intro k hk
    simp only [tetrahedron, if_neg hng]
    rw [if_neg (by omega)]
  have hd : (tetrahedron a b c d p).dist = (triangle a b c p).dist := by simp only [tetrahedron, if_neg hng]
  have hb : (tetrahedron a b c d p).bit = (triangle a b c p).bit := by simp only [tetrahedron, if_neg hng]
  have p0 := hp 0 (by norm_num)
  have p1 := hp 1 (by norm_num)
  have p2 := hp 2 (by norm_num)
  refine ⟨?_, ?_, ?_, ?_, ?_, ?_, ?_⟩
  · intro k hk
    rw [hp k hk]; exact T.weights k hk
  · have := T.total
    simp only [List.length_cons, List.length_nil, List.range_succ, List.range_zero] at this ⊢
    simpa [p0, p1, p2] using this
  · have := T.value
    simp only [mix] at this ⊢
    rw [hd, p0, p1, p2]; exact this
  · rw [hd]; exact T.least
  · intro k hk hb'
    rw [hp k hk]; rw [hb] at hb'; exact T.coded k hk hb'
  · intro k hk hb'
    rw [hb] at hb'
    have := T.flat k hk hb'
    simp only [mix] at this ⊢
    rw [p0, p1, p2]; exact this
  · rw [hb]; exact T.bits

/-- The nearest point of a tetrahedron, if the point is on the side of the last vertex, or beyond the face of the first three
vertices in the cone from the last vertex over that face. Missing: the other points beyond that face. The statement for
them is false, see `C73_violated_tetrahedron`. -/
theorem C73_tetrahedron_partial {a b c d p : V3 ℝ} {u v w y : ℝ} (hv : HasVolume a b c d) (h : Weights a b c d p u v w y)
    (hp : 0 ≤ y ∨ (0 ≤ u ∧ 0 ≤ v ∧ 0 ≤ w)) : Nearest [a, b, c, d] p (tetrahedron a b c d p) := by
  have hne := volume_ne.1 hv
  have hsq := mul_self_pos.2 hne
  by_cases hy : 0 ≤ y
  · have hng : triple (a - d) (b - d) (c - d) * (a - p).dot ((b - c).cross (a - b)) ≤ 0 := by
      rw [side h]; nlinarith [mul_nonneg hy hsq.le]
    obtain ⟨l0, l1, l2, l3, ls, lv, ln, b0, bk, -, fk⟩ := tetra_spec p hne hng
    refine ⟨?_, ?_, ?_, ?_, ?_, ?_, ?_⟩
    · intro k hk
      simp only [List.length_cons, List.length_nil] at hk
      interval_cases k
      · exact l0
      · exact l1
      · exact l2
      · exact l3
    · simp [List.range_succ, ← add_assoc, ls]
    · rw [lv]; simp only [mix]; congr 1 <;> v3
    · intro x hx
      obtain ⟨u, v, w, y, hu, hv, hw, hy, hs, rfl⟩ := hull_tetra hx
      exact ln u v w y hu hv hw hy hs
    · intro k hk; exact b0 k (by simpa using hk)
    · intro k hk hb
      have e : mix (tetrahedron a b c d p).par [a, b, c, d] 0 = (tetrahedron a b c d p).par 0 • a +
          (tetrahedron a b c d p).par 1 • b + (tetrahedron a b c d p).par 2 • c + (tetrahedron a b c d p).par 3 • d := by
        simp only [mix]; v3
      rw [e]
      simp only [List.length_cons, List.length_nil] at hk
      have := fk k hk hb
      interval_cases k <;> exact this
    · intro k hk; exact bk k (by simpa using hk)
  · have hu : 0 ≤ u ∧ 0 ≤ v ∧ 0 ≤ w := hp.resolve_left hy
    rw [not_le] at hy
    have T := C73_tetrahedron_beyond hv h hy
    have hng : ¬ triple (a - d) (b - d) (c - d) * (a - p).dot ((b - c).cross (a - b)) ≤ 0 := by
      rw [side h, not_le]
      nlinarith [mul_pos_of_neg_of_neg hy (neg_neg_of_pos hsq)]
    have p3 : (tetrahedron a b c d p).par 3 = 0 := by simp only [tetrahedron, if_neg hng, if_true]
    refine ⟨?_, ?_, ?_, ?_, ?_, ?_, ?_⟩
    · intro k hk
      simp only [List.length_cons, List.length_nil] at hk
      by_cases h3 : k < 3
      · exact T.weights k h3
      · obtain rfl : k = 3 := by omega
        exact p3.ge
    · have := T.total
      simp only [List.length_cons, List.length_nil, List.range_succ, List.range_zero] at this ⊢
      simpa [p3] using this
    · have := T.value
      simp only [mix] at this ⊢
      rw [this, p3]; congr 1 <;> v3
    · intro x hx
      obtain ⟨u', v', w', y', hu', hv', hw', hy', hs', rfl⟩ := hull_tetra hx
      obtain ⟨hs, hpe⟩ := h
      have hd : 0 < y' - y := by linarith
      have t0 : 0 ≤ y' / (y' - y) := by positivity
      have t1 : y' / (y' - y) ≤ 1 := by rw [div_le_one hd]; linarith
      have ht : (1 - y' / (y' - y)) * y' + y' / (y' - y) * y = 0 := by field_simp; ring
      generalize y' / (y' - y) = t at *
      have hc := closer (u' • a + v' • b + w' • c + y' • d) p 0 (k := 0) (by simp [dot]) t0 t1
      refine le_trans ?_ hc
      have e : (1 - t) • (u' • a + v' • b + w' • c + y' • d) + t • (p + (0 : ℝ) • (0 : V3 ℝ)) =
          ((1 - t) * u' + t * u) • a + ((1 - t) * v' + t * v) • b + ((1 - t) * w' + t * w) • c := by
        rw [hpe]
        have e : (1 - t) • (u' • a + v' • b + w' • c + y' • d) + t • (u • a + v • b + w • c + y • d + (0 : ℝ) • (0 : V3 ℝ)) =
          ((1 - t) * u' + t * u) • a + ((1 - t) * v' + t * v) • b + ((1 - t) * w' + t * w) • c + ((1 - t) * y' + t * y) • d := by v3
        rw [e, ht]; v3
      rw [e]
      refine T.least _ ((hull_triangle a b c _).2 ⟨_, _, _, ?_, ?_, ?_, ?_, rfl⟩)
      · exact add_nonneg (mul_nonneg (by linarith) hu') (mul_nonneg t0 hu.1)
      · exact add_nonneg (mul_nonneg (by linarith) hv') (mul_nonneg t0 hu.2.1)
      · exact add_nonneg (mul_nonneg (by linarith) hw') (mul_nonneg t0 hu.2.2)
      · linear_combination (1 - t) * hs' + t * hs - ht
    · intro k hk hb
      simp only [List.length_cons, List.length_nil] at hk
      by_cases h3 : k < 3
      · exact T.coded k h3 hb
      · obtain rfl : k = 3 := by omega
        exact p3
    · intro k hk hb
      simp only [List.length_cons, List.length_nil] at hk
      have e : mix (tetrahedron a b c d p).par [a, b, c, d] 0 = mix (tetrahedron a b c d p).par [a, b, c] 0 := by
        simp only [mix, p3]; v3
      rw [e]
      by_cases h3 : k < 3
      · have := T.flat k h3 hb
        interval_cases k <;> exact this
      · obtain rfl : k = 3 := by omega
        rw [T.bits 3 (by simp)] at hb; cases hb
    · intro k hk
      exact T.bits k (by simp at hk ⊢; omega)

/-- The statement without the restriction is false: a point beyond the face of the first three vertices may be nearest to
another face. -/
theorem C73_violated_tetrahedron :
    ∃ a b c d p : V3 ℝ, HasVolume a b c d ∧ ¬ Nearest [a, b, c, d] p (tetrahedron a b c d p) := by
  have hv : HasVolume ⟨0, 0, 0⟩ ⟨1, 0, 0⟩ ⟨0, 1, 0⟩ ⟨10, 0, 1⟩ := by norm_num [HasVolume, dot, cross]
  refine ⟨⟨0, 0, 0⟩, ⟨1, 0, 0⟩, ⟨0, 1, 0⟩, ⟨10, 0, 1⟩, ⟨10, 0, -1⟩, hv, ?_⟩
  intro hn
  have T := C73_tetrahedron_beyond (p := ⟨10, 0, -1⟩) (u := -18) (v := 20) (w := 0) (y := -1) hv
    ⟨by norm_num, by apply V3.ext' <;> norm_num⟩ (by norm_num)
  have h1 := hn.least ⟨10, 0, 1⟩ (.pt (by simp))
  have h2 := T.value
  have w0 := T.weights 0 (by simp)
  have w1 := T.weights 1 (by simp)
  have w2 := T.weights 2 (by simp)
  have wt := T.total
  simp only [List.length_cons, List.length_nil, List.range_succ, List.range_zero] at wt
  simp at wt
  rw [h2] at h1
  simp [mix, dot] at h1
  nlinarith

/-- A degenerate simplex has no answer: the value is negative, and the code is that of no vertex. -/
theorem C73_degenerate (a b c d p : V3 ℝ) : (line a a p).dist < 0 ∧
    (¬ HasArea a b c → (triangle a b c p).dist < 0) ∧ (¬ HasVolume a b c d → (tetrahedron a b c d p).dist < 0) ∧
    (∀ k, (line a a p).bit k = false) ∧ (¬ HasArea a b c → ∀ k, (triangle a b c p).bit k = false) ∧
    (¬ HasVolume a b c d → ∀ k, (tetrahedron a b c d p).bit k = false) := by
  have e1 : line a a p = Proj.none := by
    have : ¬ (a - a).dot (a - a) > 0 := by simp [dot]
    simp only [line, if_neg this]
  have e2 : ¬ HasArea a b c → triangle a b c p = Proj.none := by
    intro h
    rw [area_pos] at h
    simp only [triangle, gt_iff_lt, if_neg h]
  have e3 : ¬ HasVolume a b c d → tetrahedron a b c d p = Proj.none := by
    intro h
    rw [volume_ne, not_not] at h
    simp [tetrahedron, h]
  refine ⟨by rw [e1]; norm_num [Proj.none], fun h => by rw [e2 h]; norm_num [Proj.none], fun h => by rw [e3 h]; norm_num [Proj.none],
    fun _ => by rw [e1]; rfl, fun h _ => by rw [e2 h]; rfl, fun h _ => by rw [e3 h]; rfl⟩

theorem hull_tetra_mem {a b c d : V3 ℝ} {u v w y : ℝ} (hu : 0 ≤ u) (hv : 0 ≤ v) (hw : 0 ≤ w) (hy : 0 ≤ y)
    (hs : u + v + w + y = 1) : HullOf [a, b, c, d] (u • a + v • b + w • c + y • d) := by
  by_cases h1 : y = 1
  · obtain ⟨rfl, rfl, rfl⟩ : u = 0 ∧ v = 0 ∧ w = 0 := ⟨by linarith, by linarith, by linarith⟩
    rw [h1, show (0 : ℝ) • a + (0 : ℝ) • b + (0 : ℝ) • c + (1 : ℝ) • d = d by v3]
    exact .pt (by simp)
  · have hy1 : 0 < 1 - y := lt_of_le_of_ne (by linarith) fun h => h1 (by linarith)
    have h3 : HullOf [a, b, c] ((u / (1 - y)) • a + (v / (1 - y)) • b + (w / (1 - y)) • c) :=
      (hull_triangle a b c _).2 ⟨_, _, _, by positivity, by positivity, by positivity, by field_simp; linarith, rfl⟩
    have h4 : HullOf [a, b, c, d] ((u / (1 - y)) • a + (v / (1 - y)) • b + (w / (1 - y)) • c) :=
      HullOf.subset (S := {x | HullOf [a, b, c, d] x}) (fun x hx => HullOf.pt (by simp at hx ⊢; tauto))
        (fun p q hp hq t h0 h1 => HullOf.seg t h0 h1 hp hq) h3
    have h5 := HullOf.seg y hy (by linarith) h4 (.pt (p := d) (l := [a, b, c, d]) (by simp))
    refine Eq.mp (congrArg _ ?_) h5
    apply V3.ext' <;> simp <;> field_simp

/-- If the code of the answer for a tetrahedron is that of all four vertices, the point is in the tetrahedron. -/
theorem C73_inside {a b c d p : V3 ℝ} (h : ∀ k < 4, (tetrahedron a b c d p).bit k = true) : HullOf [a, b, c, d] p := by
  by_cases hv : HasVolume a b c d
  · have hne := volume_ne.1 hv
    by_cases hng : triple (a - d) (b - d) (c - d) * (a - p).dot ((b - c).cross (a - b)) ≤ 0
    · obtain ⟨l0, l1, l2, l3, ls, lv, -, -, -, hd, -⟩ := tetra_spec p hne hng
      have h0 := hd h
      rw [lv] at h0
      have h0 := dot_self_eq_zero h0
      have e : p = (tetrahedron a b c d p).par 0 • a + (tetrahedron a b c d p).par 1 • b + (tetrahedron a b c d p).par 2 • c +
          (tetrahedron a b c d p).par 3 • d := by
        generalize (tetrahedron a b c d p).par 0 • a + (tetrahedron a b c d p).par 1 • b + (tetrahedron a b c d p).par 2 • c +
          (tetrahedron a b c d p).par 3 • d = y at *
        rw [← V3.sub_add_cancel y p, h0]; v3
      rw [e]
      exact hull_tetra_mem l0 l1 l2 l3 ls
    · have : (tetrahedron a b c d p).bit 3 = false := by
        have hb : (tetrahedron a b c d p).bit = (triangle a b c p).bit := by simp only [tetrahedron, if_neg hng]
        rw [hb]
        by_cases ha : HasArea a b c
        · exact (C73_triangle p ha).bits 3 (by simp)
        · exact (C73_degenerate a b c d p).2.2.2.2.1 ha 3
      rw [h 3 (by norm_num)] at this; cases this
  · have := (C73_degenerate a b c d p).2.2.2.2.2 hv 0
    rw [h 0 (by norm_num)] at this; cases this

/-- Instances of the hypotheses. -/
example : Nearest [⟨0, 0, 0⟩, ⟨2, 0, 0⟩] ⟨1, 1, 0⟩ (line ⟨0, 0, 0⟩ ⟨2, 0, 0⟩ ⟨1, 1, 0⟩) :=
  C73_line _ fun h => by have := congrArg V3.x h; norm_num at this
example : HasArea ⟨0, 0, 0⟩ ⟨2, 0, 0⟩ ⟨0, 1, 0⟩ := fun h => by have := congrArg V3.z h; norm_num [cross] at this
example : Nearest [⟨0, 0, 0⟩, ⟨1, 0, 0⟩, ⟨0, 1, 0⟩, ⟨0, 0, 1⟩] ⟨1, 1, 1⟩
    (tetrahedron ⟨0, 0, 0⟩ ⟨1, 0, 0⟩ ⟨0, 1, 0⟩ ⟨0, 0, 1⟩ ⟨1, 1, 1⟩) :=
  C73_tetrahedron_partial (u := -2) (v := 1) (w := 1) (y := 1) (by norm_num [HasVolume, dot, cross])
    ⟨by norm_num, by apply V3.ext' <;> norm_num⟩ (Or.inl (by norm_num))

end Fcl
