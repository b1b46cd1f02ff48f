import Verif.Props.BoxBox
import Verif.Props.OBB

/-!
# C102: oriented boxes that overlap nearly touch
-/

namespace Fcl
namespace OBB
open V3 Zono BoxBox

/-- The fifteen directions that are tested: the directions of the two boxes and the cross products of one of each. -/
def Tested (b1 b2 : OBB ℝ) (L : V3 ℝ) : Prop :=
  (∃ i, L = b1.axis.col i) ∨ (∃ j, L = b2.axis.col j) ∨ ∃ i j, L = (b1.axis.col i).cross (b2.axis.col j)

/-- Up to `m` the boxes have a common point: they do, or one of the tested directions shows that there is only a slit of `m` between them. -/
def NearMeet (b1 b2 : OBB ℝ) (m : ℝ) : Prop :=
  (∃ p, p ∈ b1.pts ∧ p ∈ b2.pts) ∨ ∃ L, Tested b1 b2 L ∧ ∃ k : ℝ, (k = 1 ∨ k = -1) ∧ Slit b1.pts b2.pts (k • L) m

/-- The half sizes are not negative. -/
def Sized (b : OBB ℝ) : Prop := 0 ≤ b.extent.x ∧ 0 ≤ b.extent.y ∧ 0 ≤ b.extent.z

/-- A millionth of the sum of the half sizes. -/
noncomputable def tolerance (b1 b2 : OBB ℝ) : ℝ :=
  (b1.extent.x + b1.extent.y + b1.extent.z + b2.extent.x + b2.extent.y + b2.extent.z) / 1000000

theorem half_double (e : V3 ℝ) : half ((2 : ℝ) • e) = e := by apply ext' <;> simp [half]

theorem pts_boxAt (b : OBB ℝ) : b.pts = BoxAt ((2 : ℝ) • b.extent) ⟨b.axis, b.To⟩ := by
  ext p
  rw [mem_pts_iff]
  constructor
  · rintro ⟨y, h0, h1, h2, e⟩
    exact ⟨y, (mem_box _ _).2 (by rw [half_double]; exact ⟨h0, h1, h2⟩), e⟩
  · rintro ⟨y, hy, e⟩
    rw [mem_box, half_double] at hy
    exact ⟨y, hy.1, hy.2.1, hy.2.2, e⟩

/-- What the tests say about the fifteen directions. -/
theorem not_disjoint_gaps {R : M3 ℝ} (hR : R.Orthonormal) {T a b : V3 ℝ} (ha : 0 ≤ a.x ∧ 0 ≤ a.y ∧ 0 ≤ a.z) (hb : 0 ≤ b.x ∧ 0 ≤ b.y ∧ 0 ≤ b.z)
    (h : disjoint R T a b = false) :
    (∀ c, 1 ≤ c → c ≤ 6 → |T.dot (faceAxis R c)| - spread (edges R a b) (faceAxis R c) ≤ (a.x + a.y + a.z + b.x + b.y + b.z) / 1000000) ∧
      ∀ c, 7 ≤ c → c ≤ 15 → |T.dot (edgeAxis R c)| - spread (edges R a b) (edgeAxis R c) ≤ (a.x + a.y + a.z + b.x + b.y + b.z) / 1000000 := by
  obtain ⟨a0, a1, a2⟩ := ha
  obtain ⟨b0, b1, b2⟩ := hb
  simp only [disjoint, Bool.or_eq_false_iff, decide_eq_false_iff_not, not_lt, gt_iff_lt] at h
  obtain ⟨⟨⟨⟨⟨⟨⟨⟨⟨⟨⟨⟨⟨⟨f1, f4⟩, f2⟩, f3⟩, f5⟩, f6⟩, e7⟩, e8⟩, e9⟩, e10⟩, e11⟩, e12⟩, e13⟩, e14⟩, e15⟩ := h
  constructor
  · intro c c1 c6
    obtain ⟨⟨n0, n1, n2⟩, o01, o12, o20⟩ := col_dot hR
    have o10 : (R.col 1).dot (R.col 0) = 0 := by rw [dot_comm, o01]
    have o21 : (R.col 2).dot (R.col 1) = 0 := by rw [dot_comm, o12]
    have o02 : (R.col 0).dot (R.col 2) = 0 := by rw [dot_comm, o20]
    have side : ∀ i : Fin 3, spread (edges R a b) ((M3.one : M3 ℝ).col i) = a.get i + (b.x * |R.get i 0| + b.y * |R.get i 1| + b.z * |R.get i 2|) := fun i => by
      rw [spread_edges]; fin_cases i <;> simp [M3.one, M3.col, V3.get, dot, M3.get, M3.row]
    have dots : ∀ i : Fin 3, T.dot ((M3.one : M3 ℝ).col i) = T.get i := fun i => by fin_cases i <;> simp [M3.one, M3.col, V3.get, dot]
    have s4 : spread (edges R a b) (R.col 0) = a.x * |R.get 0 0| + a.y * |R.get 1 0| + a.z * |R.get 2 0| + b.x := by
      rw [spread_edges, n0, o10, o20]; simp [M3.col, M3.get, M3.row, V3.get]
    have s5 : spread (edges R a b) (R.col 1) = a.x * |R.get 0 1| + a.y * |R.get 1 1| + a.z * |R.get 2 1| + b.y := by
      rw [spread_edges, n1, o01, o21]; simp [M3.col, M3.get, M3.row, V3.get]
    have s6 : spread (edges R a b) (R.col 2) = a.x * |R.get 0 2| + a.y * |R.get 1 2| + a.z * |R.get 2 2| + b.z := by
      rw [spread_edges, n2, o12, o02]; simp [M3.col, M3.get, M3.row, V3.get]
    simp only [reps] at f1 f2 f3 f4 f5 f6
    interval_cases c
    · show |T.dot ((M3.one : M3 ℝ).col 0)| - spread (edges R a b) ((M3.one : M3 ℝ).col 0) ≤ _
      rw [side, dots]; simp only [V3.get]; linarith
    · show |T.dot ((M3.one : M3 ℝ).col 1)| - spread (edges R a b) ((M3.one : M3 ℝ).col 1) ≤ _
      rw [side, dots]; simp only [V3.get]; linarith
    · show |T.dot ((M3.one : M3 ℝ).col 2)| - spread (edges R a b) ((M3.one : M3 ℝ).col 2) ≤ _
      rw [side, dots]; simp only [V3.get]; linarith
    · show |T.dot (R.col 0)| - spread (edges R a b) (R.col 0) ≤ _
      rw [s4, dot_comm]; linarith
    · show |T.dot (R.col 1)| - spread (edges R a b) (R.col 1) ≤ _
      rw [s5, dot_comm]; linarith
    · show |T.dot (R.col 2)| - spread (edges R a b) (R.col 2) ≤ _
      rw [s6, dot_comm]; linarith
  · intro c c7 c15
    have all : ∀ t ∈ edgeTests reps R T a b, |t.tmp| ≤ t.rad := by
      simp only [edgeTests, List.forall_mem_cons]
      exact ⟨e7, e8, e9, e10, e11, e12, e13, e14, e15, fun t ht => by cases ht⟩
    obtain ⟨t, ht, rfl⟩ := edgeTests_codes (d := reps) (R := R) (pp := T) (A := a) (B := b) c7 c15
    obtain ⟨k1, k2, -⟩ := edgeTests_spec hR t ht
    have := all t ht
    rw [k1, k2] at this
    have hp : padded a b t.code ≤ a.x + a.y + a.z + b.x + b.y + b.z := by
      have nn : ∀ (V : V3 ℝ) (i : Fin 3), 0 ≤ V.x → 0 ≤ V.y → 0 ≤ V.z → 0 ≤ V.get i := fun V i h0 h1 h2 => by fin_cases i <;> assumption
      rw [padded]
      have := nn a (edge1 t.code) a0 a1 a2
      have := nn b (edge2 t.code) b0 b1 b2
      linarith
    simp only [reps] at this
    linarith

/-- C102: Boxes that overlap have a common point up to the tolerance. -/
theorem C102_near {b1 b2 : OBB ℝ} (h1 : b1.WF) (h2 : b2.WF) (s1 : b1.Sized) (s2 : b2.Sized) (h : b1.overlap b2 = true) :
    NearMeet b1 b2 (tolerance b1 b2) := by
  obtain ⟨X1, e1⟩ : ∃ X : Pose ℝ, X = ⟨b1.axis, b1.To⟩ := ⟨_, rfl⟩
  obtain ⟨X2, e2⟩ : ∃ X : Pose ℝ, X = ⟨b2.axis, b2.To⟩ := ⟨_, rfl⟩
  have r1 : X1.Rigid := by rw [e1]; exact h1
  have r2 : X2.Rigid := by rw [e2]; exact h2
  have w1 : Sides ((2 : ℝ) • b1.extent) := by obtain ⟨a, b, c⟩ := s1; refine ⟨?_, ?_, ?_⟩ <;> simp <;> linarith
  have w2 : Sides ((2 : ℝ) • b2.extent) := by obtain ⟨a, b, c⟩ := s2; refine ⟨?_, ?_, ?_⟩ <;> simp <;> linarith
  have hd : disjoint (rel X1 X2) (off X1 X2) b1.extent b2.extent = false := by
    rw [overlap, Bool.not_eq_true'] at h
    rw [rel, off, e1, e2]
    exact h
  obtain ⟨F, E⟩ := not_disjoint_gaps (rel_orthonormal r1 r2) s1 s2 hd
  have g : ∀ n, |(off X1 X2).dot n| - spread (edges (rel X1 X2) b1.extent b2.extent) n = gap ((2 : ℝ) • b1.extent) X1 ((2 : ℝ) • b2.extent) X2 n := fun n => by
    rw [gap, half_double, half_double]
  simp only [g] at F E
  rw [NearMeet, pts_boxAt b1, pts_boxAt b2, ← e1, ← e2, tolerance]
  have slit : ∀ n L : V3 ℝ, ∀ D : ℝ, (D = 1 ∨ D = -1) → X1.R.mulVec n = D • L → 0 < gap ((2 : ℝ) • b1.extent) X1 ((2 : ℝ) • b2.extent) X2 n →
      gap ((2 : ℝ) • b1.extent) X1 ((2 : ℝ) • b2.extent) X2 n ≤
        (b1.extent.x + b1.extent.y + b1.extent.z + b2.extent.x + b2.extent.y + b2.extent.z) / 1000000 →
      ∃ k : ℝ, (k = 1 ∨ k = -1) ∧ Slit (BoxAt ((2 : ℝ) • b1.extent) X1) (BoxAt ((2 : ℝ) • b2.extent) X2) (k • L)
        ((b1.extent.x + b1.extent.y + b1.extent.z + b2.extent.x + b2.extent.y + b2.extent.z) / 1000000) := by
    intro n L D hD hw hp hm
    obtain ⟨g1, p, hpm, q, hqm, g2⟩ := gap_points (X2 := X2) r1 w1 w2 n
    rw [hw] at g1 g2
    refine ⟨sg ((off X1 X2).dot n) * D, ?_, ?_⟩
    · rcases sg_cases ((off X1 X2).dot n) with e | e <;> rcases hD with d | d <;> rw [e, d] <;> simp
    · have e : (sg ((off X1 X2).dot n) * D) • L = sg ((off X1 X2).dot n) • D • L := by v3
      rw [e]
      exact ⟨fun p hp' q hq => hp.trans_le (g1 p hp' q hq), p, hpm, q, hqm, g2.le.trans hm⟩
  by_cases hf : ∀ c, 1 ≤ c → c ≤ 6 → gap ((2 : ℝ) • b1.extent) X1 ((2 : ℝ) • b2.extent) X2 (faceAxis (rel X1 X2) c) ≤ 0
  · by_cases he : ∀ c, 7 ≤ c → c ≤ 15 → gap ((2 : ℝ) • b1.extent) X1 ((2 : ℝ) • b2.extent) X2 (edgeAxis (rel X1 X2) c) ≤ 0
    · exact Or.inl (touch_of_gaps r1 r2 w1 w2 hf he)
    · push Not at he
      obtain ⟨c, c7, c15, hp⟩ := he
      obtain ⟨D, hD, hw⟩ := world_edgeAxis (X2 := X2) r1
      obtain ⟨k, hk⟩ := slit _ _ D hD (hw c) hp (E c c7 c15)
      exact Or.inr ⟨_, Or.inr (Or.inr ⟨edge1 c, edge2 c, by rw [e1, e2]⟩), k, hk⟩
  · push Not at hf
    obtain ⟨c, c1, c6, hp⟩ := hf
    have hw := world_faceAxis (R2 := X2.R) r1 c
    obtain ⟨k, hk⟩ := slit _ (worldAxis X1.R X2.R c) 1 (Or.inl rfl) (by rw [rel, hw]; v3) hp (F c c1 c6)
    refine Or.inr ⟨_, ?_, k, hk⟩
    rw [worldAxis, e1, e2]
    split_ifs
    · exact Or.inl ⟨_, rfl⟩
    · exact Or.inr (Or.inl ⟨_, rfl⟩)

/-- A box in a frame that is rotated and moved. -/
noncomputable def placedAt (R0 : M3 ℝ) (T0 : V3 ℝ) (b : OBB ℝ) : OBB ℝ := ⟨R0.mul b.axis, R0.mulVec b.To + T0, b.extent⟩

theorem mem_placedAt (R0 : M3 ℝ) (T0 : V3 ℝ) (b : OBB ℝ) (p : V3 ℝ) : p ∈ (placedAt R0 T0 b).pts ↔ ∃ q ∈ b.pts, p = R0.mulVec q + T0 := by
  rw [mem_pts_iff]
  constructor
  · rintro ⟨y, h0, h1, h2, rfl⟩
    refine ⟨_, mem_pts_iff.2 ⟨y, h0, h1, h2, rfl⟩, ?_⟩
    show (R0.mul b.axis).mulVec y + (R0.mulVec b.To + T0) = _
    rw [M3.mulVec_add, M3.mul_mulVec]; v3
  · rintro ⟨q, hq, rfl⟩
    obtain ⟨y, h0, h1, h2, rfl⟩ := mem_pts_iff.1 hq
    refine ⟨y, h0, h1, h2, ?_⟩
    show _ = (R0.mul b.axis).mulVec y + (R0.mulVec b.To + T0)
    rw [M3.mulVec_add, M3.mul_mulVec]; v3

/-- C102 for `overlap(R0, T0, b1, b2)`. -/
theorem C102_near_at {R0 : M3 ℝ} (hR : R0.Orthonormal) {T0 : V3 ℝ} {b1 b2 : OBB ℝ} (h1 : b1.WF) (h2 : b2.WF) (s1 : b1.Sized) (s2 : b2.Sized)
    (h : overlapAt R0 T0 b1 b2 = true) : NearMeet b1 (placedAt R0 T0 b2) (tolerance b1 b2) := by
  refine C102_near h1 (hR.mul h2) s1 s2 ?_
  rw [← h]
  simp only [overlap, overlapAt, placedAt, dot_comm]

/-- C102: The boxes need not have a common point: two cubes with a gap of two millionths between them overlap. -/
theorem C102_violated_gap : ∃ b1 b2 : OBB ℝ, b1.WF ∧ b2.WF ∧ b1.Sized ∧ b2.Sized ∧ b1.overlap b2 = true ∧ ¬ ∃ p, p ∈ b1.pts ∧ p ∈ b2.pts := by
  refine ⟨⟨M3.one, 0, ⟨1, 1, 1⟩⟩, ⟨M3.one, ⟨2 + 2 / 1000000, 0, 0⟩, ⟨1, 1, 1⟩⟩, M3.orthonormal_one, M3.orthonormal_one, ?_, ?_, ?_, ?_⟩
  · simp [Sized]
  · simp [Sized]
  · norm_num [overlap, disjoint, M3.one, M3.tr, M3.mul, M3.mulVec, M3.col, M3.get, M3.row, V3.get, dot, reps, abs_of_pos]
  · rintro ⟨p, h1, h2⟩
    obtain ⟨x, hx, -, -, rfl⟩ := mem_pts_iff.1 h1
    obtain ⟨y, hy, -, -, e⟩ := mem_pts_iff.1 h2
    have e := congrArg V3.x e
    norm_num [M3.mulVec, M3.one, dot] at e hx hy
    have := (abs_le.1 hx).2
    have := (abs_le.1 hy).1
    linarith

/-- Two turned boxes that overlap: what `C102_near` asks for holds. -/
example : ∃ b1 b2 : OBB ℝ, b1.WF ∧ b2.WF ∧ b1.Sized ∧ b2.Sized ∧ b1.axis ≠ b2.axis ∧ b1.overlap b2 = true := by
  refine ⟨⟨M3.one, 0, ⟨1, 1, 1⟩⟩, ⟨exR, ⟨1, 1, 1⟩, ⟨1, 1, 1⟩⟩, M3.orthonormal_one, exR_orthonormal, by simp [Sized], by simp [Sized], ?_, ?_⟩
  · intro h
    have := congrArg (fun M : M3 ℝ => M.r0.x) h
    norm_num [exR, M3.one] at this
  · refine C45_overlap (p := ⟨1, 1, 1⟩) M3.orthonormal_one exR_orthonormal (mem_pts_iff.2 ⟨⟨1, 1, 1⟩, by simp, by simp, by simp, ?_⟩) (mem_pts_iff.2 ⟨0, by simp, by simp, by simp, ?_⟩)
    · apply ext' <;> simp [M3.mulVec, M3.one, dot]
    · apply ext' <;> simp [M3.mulVec, dot]

end OBB
end Fcl
