import Verif.BVH.TriDistSpec

/-! # C83: the distance of two triangles -/

namespace Fcl
open V3

namespace Tri

/-- **C83, segments.** For all segments, also of length zero, and also parallel ones: `segPoints` returns points of the
two segments, and no other points of the segments are nearer to each other. -/
theorem C83_segments (P A Q B : V3 ℝ) :
    let r := segPoints P A Q B
    (∃ t : ℝ, 0 ≤ t ∧ t ≤ 1 ∧ r.X = P + t • A) ∧ (∃ u : ℝ, 0 ≤ u ∧ u ≤ 1 ∧ r.Y = Q + u • B) ∧
      ∀ t u : ℝ, 0 ≤ t → t ≤ 1 → 0 ≤ u → u ≤ 1 → r.X.dist r.Y ≤ (P + t • A).dist (Q + u • B) := by
  have h := segPoints_spec P A Q B
  obtain ⟨t, u, t0, t1, u0, u1, hX, hY, -⟩ := h.near
  refine ⟨⟨t, t0, t1, hX⟩, ⟨u, u0, u1, hY⟩, fun s w s0 s1 w0 w1 => ?_⟩
  rw [V3.dist_comm, V3.dist_comm (P + s • A), dist_eq, dist_eq]
  exact nrm_le_of_dot (seg_opt h s0 s1 w0 w1)

/-- **C83, all triangles.** Whatever the triangles are, the points belong to them, the value is 0 if they touch, and a
positive value is the distance of the two points, so that it is never too small. -/
theorem C83_any {thin : ℝ} (ht : 0 ≤ thin) (T1 T2 : Tri ℝ) :
    let r := triDist thin T1 T2
    0 ≤ r.1 ∧ r.2.1 ∈ T1.pts ∧ r.2.2 ∈ T2.pts ∧ (Touch T1.pts T2.pts → r.1 = 0) ∧
      (0 < r.1 → r.2.1.dist r.2.2 = r.1 ∧ ∀ {d p q}, IsDist T1.pts T2.pts d p q → d ≤ r.1) := by
  obtain ⟨h1, h2, h3, h4, -⟩ := triDist_any ht T1 T2
  exact ⟨Real.sqrt_nonneg _, h1, h2, h3, fun h0 => ⟨h4 h0, fun hd => by rw [← h4 h0]; exact hd.least _ h1 _ h2⟩⟩

/-- **C83, the part that holds.** For triangles that are degenerate or have a normal whose square is greater than
`1e-15`: the value is the distance; if it is positive then the two points are nearest points, and it is zero if and only
if the triangles touch. Missing: triangles with a smaller normal, where it is false (`C83_violated_small`). -/
theorem C83_distance_partial {thin : ℝ} (ht : 0 ≤ thin) {T1 T2 : Tri ℝ} (h1 : T1.nor ≠ 0 → thin < T1.nor.dot T1.nor)
    (h2 : T2.nor ≠ 0 → thin < T2.nor.dot T2.nor) :
    let r := triDist thin T1 T2
    (∃ p q, IsDist T1.pts T2.pts r.1 p q) ∧ (0 < r.1 → IsDist T1.pts T2.pts r.1 r.2.1 r.2.2) ∧
      (r.1 = 0 ↔ Touch T1.pts T2.pts) := by
  obtain ⟨m1, m2, h3, h4, h5⟩ := triDist_any ht T1 T2
  obtain ⟨d, p, q, hd⟩ := exists_isDist T1 T2
  have e := h5 h1 h2 hd
  have hd' : IsDist T1.pts T2.pts (triDist thin T1 T2).1 p q := by rw [e]; exact hd
  exact ⟨⟨p, q, hd'⟩, fun h0 => ⟨m1, m2, h4 h0, hd'.least⟩, fun h0 => (isDist_touch hd').2 h0, h3⟩

/-- The tiny triangle: a side of 2 in units of `1e-5`. -/
noncomputable def exTiny : Tri ℝ := ⟨⟨-1/100000, -1/100000, 0⟩, ⟨1/100000, -1/100000, 0⟩, ⟨0, 1/100000, 0⟩⟩

/-- Another one, with a vertex above the middle of the first one. -/
noncomputable def exAbove : Tri ℝ :=
  ⟨⟨0, 0, 1/400000⟩, ⟨-2/100000, -1/100000, 9/400000⟩, ⟨2/100000, -1/100000, 9/400000⟩⟩

/-- A segment, as a triangle, that starts above the middle of the first one. -/
noncomputable def exSlant : Tri ℝ :=
  ⟨⟨0, 0, 3/400000⟩, ⟨1/100000, -2/100000, 7/400000⟩, ⟨1/100000, -2/100000, 7/400000⟩⟩

set_option maxHeartbeats 2000000 in
theorem exAbove_dist2 : triDist2 (1 / 10 ^ 15) exTiny exAbove = ⟨0, ⟨-2/500000, 1/500000, 0⟩, ⟨0, 0, 1/400000⟩⟩ := by
  norm_num [triDist2, dloop, face, sides, nor, dstep, segPoints, quo, Quo.clamp, Quo.place, exTiny, exAbove, e1, e2, e3, V3.dot, V3.cross, List.product]
  constructor <;> apply V3.ext' <;> norm_num

set_option maxHeartbeats 2000000 in
theorem exSlant_dist2 : (triDist2 (1 / 10 ^ 15) exTiny exSlant).dd = 61 / 80 / 10 ^ 10 := by
  norm_num [triDist2, dloop, face, sides, nor, dstep, segPoints, quo, Quo.clamp, Quo.place, exTiny, exSlant, e1, e2, e3, V3.dot,
    V3.cross, List.product]

theorem exTiny_mid : (⟨0, 0, 0⟩ : V3 ℝ) ∈ exTiny.pts := by
  show HullOf _ _
  rw [hull_triangle]
  exact ⟨1 / 4, 1 / 4, 1 / 2, by norm_num, by norm_num, by norm_num, by norm_num,
    V3.ext' (by norm_num [exTiny]) (by norm_num [exTiny]) (by norm_num [exTiny])⟩

theorem exTiny_isDist {T : Tri ℝ} {h : ℝ} (h0 : 0 ≤ h) (ha : T.a = ⟨0, 0, h⟩) (hb : h ≤ T.b.z) (hc : h ≤ T.c.z) :
    IsDist exTiny.pts T.pts h ⟨0, 0, 0⟩ ⟨0, 0, h⟩ where
  left := exTiny_mid
  right := ha ▸ vert_mem (by simp [verts])
  attained := by
    rw [V3.dist_comm, dist_eq]
    exact nrm_unique h0 (by simp [V3.dot])
  least := fun a ma b mb => by
    have za : a.z ≤ 0 := by
      have := pts_le (ax := ⟨0, 0, -1⟩) (c := 0) (p := exTiny) (by
        intro x hx
        simp only [verts, List.mem_cons, List.not_mem_nil, or_false] at hx
        rcases hx with rfl | rfl | rfl <;> simp [exTiny, V3.dot]) ma
      simp only [V3.dot] at this
      linarith
    have zb : h ≤ b.z := by
      have := pts_le (ax := ⟨0, 0, 1⟩) (c := h) (p := T) (by
        intro x hx
        simp only [verts, List.mem_cons, List.not_mem_nil, or_false] at hx
        rcases hx with rfl | rfl | rfl
        · simp [ha, V3.dot]
        · simpa [V3.dot] using hb
        · simpa [V3.dot] using hc) mb
      simp only [V3.dot] at this
      linarith
    rw [V3.dist_comm, dist_eq]
    have := dot_le (⟨0, 0, 1⟩ : V3 ℝ) (b - a)
    rw [nrm_unique (a := ⟨0, 0, 1⟩) (r := 1) (by norm_num) (by simp [V3.dot])] at this
    simp only [V3.dot, V3.sub_x, V3.sub_y, V3.sub_z] at this
    linarith

/-- **C83, negative.** Small triangles, with sides of some `1e-5`: the value is 0 although the triangles are `0.25e-5`
apart, or it is greater than the distance, because the vertex above the face is not considered when the square of the
normal is at most `1e-15`. -/
theorem C83_violated_small :
    ((triDist (1 / 10 ^ 15) exTiny exAbove).1 = 0 ∧ IsDist exTiny.pts exAbove.pts (1 / 400000) ⟨0, 0, 0⟩ ⟨0, 0, 1 / 400000⟩) ∧
    (3 / 400000 < (triDist (1 / 10 ^ 15) exTiny exSlant).1 ∧
      IsDist exTiny.pts exSlant.pts (3 / 400000) ⟨0, 0, 0⟩ ⟨0, 0, 3 / 400000⟩) := by
  refine ⟨⟨?_, exTiny_isDist (by norm_num) rfl (by norm_num [exAbove]) (by norm_num [exAbove])⟩, ?_,
    exTiny_isDist (by norm_num) rfl (by norm_num [exSlant]) (by norm_num [exSlant])⟩
  · simp only [triDist, exAbove_dist2, Real.sqrt_zero]
  · simp only [triDist, exSlant_dist2]
    apply Real.lt_sqrt_of_sq_lt
    norm_num

/-- A triangle and one that passes through it. -/
noncomputable def exUnit : Tri ℝ := ⟨⟨-1, -1, 0⟩, ⟨1, -1, 0⟩, ⟨0, 1, 0⟩⟩
/-- See `exUnit`. -/
noncomputable def exThrough : Tri ℝ := ⟨⟨0, 0, -1⟩, ⟨0, 0, 1⟩, ⟨5, 0, 0⟩⟩

set_option maxHeartbeats 2000000 in
theorem exThrough_dist2 : triDist2 (1 / 10 ^ 15) exUnit exThrough = ⟨0, ⟨-2/5, 1/5, 0⟩, ⟨0, 0, -1⟩⟩ := by
  norm_num [triDist2, dloop, face, pick, sides, nor, dstep, segPoints, quo, Quo.clamp, Quo.place, exUnit, exThrough, e1, e2, e3, V3.dot,
    V3.cross, List.product]
  constructor <;> apply V3.ext' <;> norm_num

/-- **C83, negative.** For triangles that touch the value is 0, but the two points need not be a common point: they can be
more than one apart, and each outside of the other triangle. -/
theorem C83_violated_touching : Touch exUnit.pts exThrough.pts ∧ (triDist (1 / 10 ^ 15) exUnit exThrough).1 = 0 ∧
    1 < (triDist (1 / 10 ^ 15) exUnit exThrough).2.1.dist (triDist (1 / 10 ^ 15) exUnit exThrough).2.2 := by
  refine ⟨⟨⟨0, 0, 0⟩, ?_, ?_⟩, ?_, ?_⟩
  · show HullOf _ _
    rw [hull_triangle]
    exact ⟨1 / 4, 1 / 4, 1 / 2, by norm_num, by norm_num, by norm_num, by norm_num,
      V3.ext' (by norm_num [exUnit]) (by norm_num [exUnit]) (by norm_num [exUnit])⟩
  · show HullOf _ _
    rw [hull_triangle]
    exact ⟨1 / 2, 1 / 2, 0, by norm_num, by norm_num, by norm_num, by norm_num,
      V3.ext' (by norm_num [exThrough]) (by norm_num [exThrough]) (by norm_num [exThrough])⟩
  · simp only [triDist, exThrough_dist2, Real.sqrt_zero]
  · simp only [triDist, exThrough_dist2]
    rw [dist_eq, nrm]
    apply Real.lt_sqrt_of_sq_lt
    norm_num [V3.dot]

/-- The hypotheses of `C83_distance_partial` are met by triangles of the size of a metre and by segments. -/
example : let T : Tri ℝ := ⟨⟨-1, -1, 0⟩, ⟨1, -1, 0⟩, ⟨0, 1, 0⟩⟩
    (T.nor ≠ 0 ∧ (T.nor ≠ 0 → 1 / 10 ^ 15 < T.nor.dot T.nor)) ∧ (exSlant.nor ≠ 0 → 1 / 10 ^ 15 < exSlant.nor.dot exSlant.nor) := by
  refine ⟨⟨fun h => ?_, fun _ => by norm_num [nor, e1, e2, V3.dot, V3.cross]⟩, fun h => absurd ?_ h⟩
  · have := congrArg V3.z h
    norm_num [nor, e1, e2, V3.cross] at this
  · apply V3.ext' <;> norm_num [nor, e1, e2, V3.cross, exSlant]

end Tri
end Fcl
