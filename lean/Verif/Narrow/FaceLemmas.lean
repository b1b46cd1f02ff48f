import Verif.Narrow.ChopLemmas
import Verif.Narrow.BoxBoxLemmas
import Mathlib.Tactic.FinCases
import Mathlib.Data.Finset.Card
import Mathlib.Data.Finset.Range

/-!
# The contact points of a face
-/

namespace Fcl
namespace BoxBox
open V3

/-- The coordinates are at most those of `S`. -/
def Within (S y : V3 ℝ) : Prop := |y.x| ≤ S.x ∧ |y.y| ≤ S.y ∧ |y.z| ≤ S.z

theorem incident_cases (a : V3 ℝ) : incident a = (1, 0, 2) ∨ incident a = (2, 0, 1) ∨ incident a = (0, 1, 2) := by
  rw [incident]; split_ifs <;> simp

/-- The incident axis is not perpendicular to the normal. -/
theorem incident_ne {r : V3 ℝ} (h : r.nrm = 1) : r.get (incident ⟨|r.x|, |r.y|, |r.z|⟩).1 ≠ 0 := by
  have h1 : r.dot r = 1 := by rw [← nrm_mul_self, h, one_mul]
  have x0 := abs_nonneg r.x
  have y0 := abs_nonneg r.y
  have z0 := abs_nonneg r.z
  rw [incident]
  dsimp only
  split_ifs with k1 k2 k2
  · exact abs_pos.1 (show 0 < |r.y| by linarith)
  · exact abs_pos.1 (show 0 < |r.z| by linarith)
  · exact abs_pos.1 (show 0 < |r.x| by linarith)
  · refine abs_pos.1 (show 0 < |r.z| from ?_)
    by_contra hz
    have ez : |r.z| = 0 := by linarith
    have ex : |r.x| = 0 := by linarith
    have ey : |r.y| = 0 := by linarith
    rw [abs_eq_zero] at ex ey ez
    rw [dot, ex, ey, ez] at h1
    norm_num at h1

theorem within_box {R : M3 ℝ} {S : V3 ℝ} {l a1 a2 : Fin 3} (hi : (l, a1, a2) = (1, 0, 2) ∨ (l, a1, a2) = (2, 0, 1) ∨ (l, a1, a2) = (0, 1, 2)) {e k1 k2 : ℝ}
    (he : |e| ≤ S.get l) (h1 : |k1| ≤ S.get a1) (h2 : |k2| ≤ S.get a2) :
    ∃ y, Within S y ∧ e • R.col l + k1 • R.col a1 + k2 • R.col a2 = R.mulVec y := by
  rcases hi with hi | hi | hi <;> (simp only [Prod.mk.injEq] at hi; obtain ⟨rfl, rfl, rfl⟩ := hi)
  · exact ⟨⟨k1, e, k2⟩, ⟨h1, he, h2⟩, by apply ext' <;> simp [M3.col, M3.mulVec, dot, V3.get] <;> ring⟩
  · exact ⟨⟨k1, k2, e⟩, ⟨h1, h2, he⟩, by apply ext' <;> simp [M3.col, M3.mulVec, dot, V3.get] <;> ring⟩
  · exact ⟨⟨e, k1, k2⟩, ⟨he, h1, h2⟩, by apply ext' <;> simp [M3.col, M3.mulVec, dot, V3.get] <;> ring⟩

theorem within_of_cols {R : M3 ℝ} (hR : R.Orthonormal) {S p : V3 ℝ} (h : ∀ i, |(R.col i).dot p| ≤ S.get i) :
    ∃ x, Within S x ∧ p = R.mulVec x :=
  ⟨R.tr.mulVec p, ⟨h 0, h 1, h 2⟩, by rw [M3.Orthonormal.mul_tr hR]⟩

theorem otherAxes_all {P : Fin 3 → Prop} (c : Fin 3) (h : P c) (h1 : P (otherAxes c).1) (h2 : P (otherAxes c).2) : ∀ i, P i := by
  intro i
  fin_cases c <;> simp [otherAxes] at * <;> fin_cases i <;> assumption

theorem otherAxes_ne (c : Fin 3) : (otherAxes c).1 ≠ c ∧ (otherAxes c).2 ≠ c := by
  fin_cases c <;> simp [otherAxes]

theorem col_perp {R : M3 ℝ} (h : R.Orthonormal) {i j : Fin 3} (hij : i ≠ j) : (R.col i).dot (R.col j) = 0 := by
  obtain ⟨⟨r00, r01, r02⟩, ⟨r10, r11, r12⟩, ⟨r20, r21, r22⟩⟩ := R
  obtain ⟨⟨⟨h1, h2, h3⟩, h4, h5, h6⟩, -⟩ := h.eqs
  fin_cases i <;> fin_cases j <;> simp [M3.col, dot, V3.get] at * <;> linarith

theorem col_dot_one {R : M3 ℝ} (h : R.Orthonormal) (i : Fin 3) : (R.col i).dot (R.col i) = 1 := by
  rw [← nrm_mul_self, col_unit h, one_mul]

/-- The minor of the products of the sides is up to its sign the product of the remaining ones. -/
theorem minor {Ra Rb : M3 ℝ} (ha : Ra.Orthonormal) (hb : Rb.Orthonormal) {c l a1 a2 : Fin 3}
    (hi : (l, a1, a2) = (1, 0, 2) ∨ (l, a1, a2) = (2, 0, 1) ∨ (l, a1, a2) = (0, 1, 2)) :
    ∃ D : ℝ, D ≠ 0 ∧ (Rb.col a1).dot (Ra.col (otherAxes c).1) * (Rb.col a2).dot (Ra.col (otherAxes c).2) -
      (Rb.col a2).dot (Ra.col (otherAxes c).1) * (Rb.col a1).dot (Ra.col (otherAxes c).2) = D * (Rb.col l).dot (Ra.col c) := by
  have hM := ha.tr.mul hb
  have e : ∀ i j, (Rb.col j).dot (Ra.col i) = (Ra.tr.mul Rb).get i j := fun i j => by
    fin_cases i <;> fin_cases j <;> simp [M3.col, dot, V3.get, M3.get, M3.row, M3.mul, M3.tr] <;> ring
  simp only [e]
  generalize Ra.tr.mul Rb = M at *
  obtain ⟨⟨m00, m01, m02⟩, ⟨m10, m11, m12⟩, ⟨m20, m21, m22⟩⟩ := M
  obtain ⟨D, hD, -, ⟨c00, c10, c20⟩, ⟨c01, c11, c21⟩, c02, c12, c22⟩ := hM.cofactors
  have D0 : D ≠ 0 := fun h => by rw [h] at hD; norm_num at hD
  rcases hi with hi | hi | hi <;> (simp only [Prod.mk.injEq] at hi; obtain ⟨rfl, rfl, rfl⟩ := hi) <;> fin_cases c <;>
    simp only [otherAxes, M3.get, M3.row, V3.get, Fin.isValue, Fin.reduceFinMk, Fin.zero_eta, Fin.mk_one, if_true, one_ne_zero, if_false, Fin.reduceEq] <;>
    first
      | exact ⟨D, D0, by linarith⟩
      | exact ⟨-D, neg_ne_zero.2 D0, by linarith⟩

/-- The coordinates in the incident face of the points that `intersectRectQuad2` finds. -/
theorem quad_spec {w : ℝ × ℝ} {c1 c2 m11 m12 m21 m22 S1 S2 : ℝ} (d0 : m11 * m22 - m12 * m21 ≠ 0) (h1 : 0 ≤ S1) (h2 : 0 ≤ S2) :
    let quad := [(c1 - m11 * S1 - m12 * S2, c2 - m21 * S1 - m22 * S2), (c1 - m11 * S1 + m12 * S2, c2 - m21 * S1 + m22 * S2),
      (c1 + m11 * S1 + m12 * S2, c2 + m21 * S1 + m22 * S2), (c1 + m11 * S1 - m12 * S2, c2 + m21 * S1 - m22 * S2)]
    let d := 1 / (m11 * m22 - m12 * m21)
    (intersectRectQuad w quad).length ≤ 8 ∧ ∀ q ∈ intersectRectQuad w quad, |q.1| ≤ w.1 ∧ |q.2| ≤ w.2 ∧
      |m22 * d * (q.1 - c1) - m12 * d * (q.2 - c2)| ≤ S1 ∧ |-(m21 * d) * (q.1 - c1) + m11 * d * (q.2 - c2)| ≤ S2 ∧
      m11 * (m22 * d * (q.1 - c1) - m12 * d * (q.2 - c2)) + m12 * (-(m21 * d) * (q.1 - c1) + m11 * d * (q.2 - c2)) = q.1 - c1 ∧
      m21 * (m22 * d * (q.1 - c1) - m12 * d * (q.2 - c2)) + m22 * (-(m21 * d) * (q.1 - c1) + m11 * d * (q.2 - c2)) = q.2 - c2 := by
  intro quad d
  have hd : d * (m11 * m22 - m12 * m21) = 1 := by rw [one_div_mul_cancel d0]
  obtain ⟨K, eK⟩ : ∃ K : ℝ × ℝ → Prop, K = fun q => |m22 * d * (q.1 - c1) - m12 * d * (q.2 - c2)| ≤ S1 ∧ |-(m21 * d) * (q.1 - c1) + m11 * d * (q.2 - c2)| ≤ S2 := ⟨_, rfl⟩
  have hK : Conv K := by
    rw [eK]
    intro p q t t0 t1 hp hq
    obtain ⟨p1, p2⟩ := hp
    obtain ⟨q1, q2⟩ := hq
    rw [abs_le] at p1 p2 q1 q2
    dsimp only [mid]
    constructor
    · have e : m22 * d * (p.1 + t * (q.1 - p.1) - c1) - m12 * d * (p.2 + t * (q.2 - p.2) - c2) =
          (1 - t) * (m22 * d * (p.1 - c1) - m12 * d * (p.2 - c2)) + t * (m22 * d * (q.1 - c1) - m12 * d * (q.2 - c2)) := by ring
      rw [e, abs_le]
      constructor <;> nlinarith
    · have e : -(m21 * d) * (p.1 + t * (q.1 - p.1) - c1) + m11 * d * (p.2 + t * (q.2 - p.2) - c2) =
          (1 - t) * (-(m21 * d) * (p.1 - c1) + m11 * d * (p.2 - c2)) + t * (-(m21 * d) * (q.1 - c1) + m11 * d * (q.2 - c2)) := by ring
      rw [e, abs_le]
      constructor <;> nlinarith
  have hk : ∀ p ∈ quad, K p := by
    have corner : ∀ s1 s2 : ℝ, |s1| ≤ 1 → |s2| ≤ 1 → ∀ p : ℝ × ℝ, p.1 = c1 + s1 * (m11 * S1) + s2 * (m12 * S2) → p.2 = c2 + s1 * (m21 * S1) + s2 * (m22 * S2) → K p :=
      fun s1 s2 hs1 hs2 p e1 e2 => by
        rw [eK]
        dsimp only
        have a1 : m22 * d * (p.1 - c1) - m12 * d * (p.2 - c2) = s1 * S1 := by rw [e1, e2]; linear_combination s1 * S1 * hd
        have a2 : -(m21 * d) * (p.1 - c1) + m11 * d * (p.2 - c2) = s2 * S2 := by rw [e1, e2]; linear_combination s2 * S2 * hd
        rw [a1, a2, abs_mul, abs_mul, abs_of_nonneg h1, abs_of_nonneg h2]
        exact ⟨by nlinarith, by nlinarith⟩
    intro p hp
    simp only [quad, List.mem_cons, List.not_mem_nil, or_false] at hp
    rcases hp with rfl | rfl | rfl | rfl
    · exact corner (-1) (-1) (by simp) (by simp) _ (by ring) (by ring)
    · exact corner (-1) 1 (by simp) (by simp) _ (by ring) (by ring)
    · exact corner 1 1 (by simp) (by simp) _ (by ring) (by ring)
    · exact corner 1 (-1) (by simp) (by simp) _ (by ring) (by ring)
  have sp := rectQuad_spec (w := w) (q := quad) le_rfl (parallelogram_good c1 c2 (m11 * S1) (m21 * S1) (m12 * S2) (m22 * S2)) hK hk
  refine ⟨sp.1, fun q hq => ?_⟩
  obtain ⟨k, r1, r2⟩ := sp.2 q hq
  rw [eK] at k
  exact ⟨r1, r2, k.1, k.2, by linear_combination (q.1 - c1) * hd, by linear_combination (q.2 - c2) * hd⟩

variable {Xa Xb : Pose ℝ} {Sa Sb n : V3 ℝ} {codeN : Fin 3} {s : ℝ}

/-- The candidates: a point of the second box that is as deep as the depth says below a point of the face of the first one. -/
theorem faceCands_spec (ha : Xa.Rigid) (hb : Xb.Rigid) (hSa : 0 ≤ Sa.x ∧ 0 ≤ Sa.y ∧ 0 ≤ Sa.z) (hSb : 0 ≤ Sb.x ∧ 0 ≤ Sb.y ∧ 0 ≤ Sb.z)
    (hs : s = 1 ∨ s = -1) (hn : n = s • Xa.R.col codeN) :
    (faceCands Xa Sa Xb Sb n codeN).length ≤ 8 ∧ ∀ c ∈ faceCands Xa Sa Xb Sb n codeN, 0 ≤ c.dep ∧
      (∃ y, Within Sb y ∧ c.pt + Xa.t = Xb.R.mulVec y + Xb.t) ∧ ∃ x, Within Sa x ∧ c.pt + Xa.t + c.dep • n = Xa.R.mulVec x + Xa.t := by
  have ss : s * s = 1 := by rcases hs with h | h <;> rw [h] <;> norm_num
  have sa : |s| = 1 := by rcases hs with h | h <;> rw [h] <;> simp
  have nonneg : ∀ {V : V3 ℝ} (i : Fin 3), (0 ≤ V.x ∧ 0 ≤ V.y ∧ 0 ≤ V.z) → 0 ≤ V.get i := fun i h => by
    obtain ⟨a, b, c⟩ := h
    fin_cases i <;> assumption
  have nu : n.nrm = 1 := by rw [hn, nrm_smul, sa, col_unit ha, one_mul]
  have nru : (Xb.R.tr.mulVec n).nrm = 1 := by rw [M3.Orthonormal.nrm (M3.Orthonormal.tr hb), nu]
  have hne := incident_ne nru
  have hi := incident_cases ⟨|(Xb.R.tr.mulVec n).x|, |(Xb.R.tr.mulVec n).y|, |(Xb.R.tr.mulVec n).z|⟩
  rw [faceCands]
  dsimp only
  generalize (incident ⟨|(Xb.R.tr.mulVec n).x|, |(Xb.R.tr.mulVec n).y|, |(Xb.R.tr.mulVec n).z|⟩) = I at *
  obtain ⟨l, a1, a2⟩ := I
  dsimp only at *
  have hnr : (Xb.R.tr.mulVec n).get l = s * (Xb.R.col l).dot (Xa.R.col codeN) := by
    have : ∀ j, (Xb.R.tr.mulVec n).get j = (Xb.R.col j).dot n := fun j => by
      fin_cases j <;> simp [M3.tr, M3.mulVec, V3.get, M3.col, dot]
    rw [this, hn, dot_smul]
  have hl : (Xb.R.col l).dot (Xa.R.col codeN) ≠ 0 := fun h => hne (by rw [hnr, h, mul_zero])
  obtain ⟨e, hE, hc⟩ : ∃ e : ℝ, |e| ≤ Sb.get l ∧ (if (Xb.R.tr.mulVec n).get l < 0 then Xb.t - Xa.t + (Sb.get l) • Xb.R.col l else Xb.t - Xa.t - (Sb.get l) • Xb.R.col l) =
      Xb.t - Xa.t + e • Xb.R.col l := by
    have h0 := nonneg l hSb
    split_ifs
    · exact ⟨Sb.get l, (abs_of_nonneg h0).le, rfl⟩
    · exact ⟨-Sb.get l, by rw [abs_neg, abs_of_nonneg h0], by v3⟩
  rw [hc]
  obtain ⟨D, D0, hD⟩ := minor (c := codeN) ha hb hi
  have det0 : (Xb.R.col a1).dot (Xa.R.col (otherAxes codeN).1) * (Xb.R.col a2).dot (Xa.R.col (otherAxes codeN).2) -
      (Xb.R.col a2).dot (Xa.R.col (otherAxes codeN).1) * (Xb.R.col a1).dot (Xa.R.col (otherAxes codeN).2) ≠ 0 := by
    rw [hD]; exact mul_ne_zero D0 hl
  have p1 := col_perp ha (otherAxes_ne codeN).1
  have p2 := col_perp ha (otherAxes_ne codeN).2
  have hU := col_dot_one ha codeN
  have ax := fun (P : Fin 3 → Prop) => otherAxes_all (P := P) codeN
  have w1 := nonneg (V := Sb) a1 hSb
  have w2 := nonneg (V := Sb) a2 hSb
  obtain ⟨center, hcen⟩ : ∃ c, c = Xb.t - Xa.t + e • Xb.R.col l := ⟨_, rfl⟩
  rw [← hcen]
  have Q := quad_spec (w := (Sa.get (otherAxes codeN).1, Sa.get (otherAxes codeN).2)) (c1 := (Xa.R.col (otherAxes codeN).1).dot center)
    (c2 := (Xa.R.col (otherAxes codeN).2).dot center) det0 w1 w2
  dsimp only at Q
  refine ⟨(List.length_filter_le _ _).trans (by rw [List.length_map]; exact Q.1), fun c hc => ?_⟩
  obtain ⟨hc, hdep⟩ := List.mem_filter.1 hc
  obtain ⟨q, hq, rfl⟩ := List.mem_map.1 hc
  obtain ⟨r1, r2, k1, k2, e1, e2⟩ := Q.2 q hq
  dsimp only at hdep r1 r2 ⊢
  obtain ⟨k, ek⟩ : ∃ k, k = (Xb.R.col a2).dot (Xa.R.col (otherAxes codeN).2) *
      (1 / ((Xb.R.col a1).dot (Xa.R.col (otherAxes codeN).1) * (Xb.R.col a2).dot (Xa.R.col (otherAxes codeN).2) -
        (Xb.R.col a2).dot (Xa.R.col (otherAxes codeN).1) * (Xb.R.col a1).dot (Xa.R.col (otherAxes codeN).2))) * (q.1 - (Xa.R.col (otherAxes codeN).1).dot center) -
      (Xb.R.col a2).dot (Xa.R.col (otherAxes codeN).1) * (1 / ((Xb.R.col a1).dot (Xa.R.col (otherAxes codeN).1) * (Xb.R.col a2).dot (Xa.R.col (otherAxes codeN).2) -
        (Xb.R.col a2).dot (Xa.R.col (otherAxes codeN).1) * (Xb.R.col a1).dot (Xa.R.col (otherAxes codeN).2))) * (q.2 - (Xa.R.col (otherAxes codeN).2).dot center) := ⟨_, rfl⟩
  obtain ⟨k', ek'⟩ : ∃ k, k = -((Xb.R.col a1).dot (Xa.R.col (otherAxes codeN).2) *
      (1 / ((Xb.R.col a1).dot (Xa.R.col (otherAxes codeN).1) * (Xb.R.col a2).dot (Xa.R.col (otherAxes codeN).2) -
        (Xb.R.col a2).dot (Xa.R.col (otherAxes codeN).1) * (Xb.R.col a1).dot (Xa.R.col (otherAxes codeN).2)))) * (q.1 - (Xa.R.col (otherAxes codeN).1).dot center) +
      (Xb.R.col a1).dot (Xa.R.col (otherAxes codeN).1) * (1 / ((Xb.R.col a1).dot (Xa.R.col (otherAxes codeN).1) * (Xb.R.col a2).dot (Xa.R.col (otherAxes codeN).2) -
        (Xb.R.col a2).dot (Xa.R.col (otherAxes codeN).1) * (Xb.R.col a1).dot (Xa.R.col (otherAxes codeN).2))) * (q.2 - (Xa.R.col (otherAxes codeN).2).dot center) := ⟨_, rfl⟩
  rw [← ek] at k1
  rw [← ek'] at k2
  rw [← ek, ← ek'] at e1 e2 hdep ⊢
  have hdep := of_decide_eq_true hdep
  obtain ⟨pt, ept⟩ : ∃ p, p = center + k • Xb.R.col a1 + k' • Xb.R.col a2 := ⟨_, rfl⟩
  rw [← ept] at hdep ⊢
  refine ⟨hdep, ?_, ?_⟩
  · obtain ⟨y, hy, ey⟩ := within_box (R := Xb.R) hi hE k1 k2
    refine ⟨y, hy, ?_⟩
    rw [← ey, ept, hcen]; v3
  · have hall : ∀ i, |(Xa.R.col i).dot (pt + (Sa.get codeN - n.dot pt) • n)| ≤ Sa.get i := by
      refine ax _ ?_ ?_ ?_
      · rw [dot_add, dot_smul, hn, dot_smul, smul_dot, hU]
        have : (Xa.R.col codeN).dot pt + (Sa.get codeN - s * (Xa.R.col codeN).dot pt) * (s * 1) = s * Sa.get codeN := by
          linear_combination (-(Xa.R.col codeN).dot pt) * ss
        rw [this, abs_mul, sa, one_mul, abs_of_nonneg (nonneg codeN hSa)]
      · rw [dot_add, dot_smul, hn, dot_smul, p1, mul_zero, mul_zero, add_zero]
        have : (Xa.R.col (otherAxes codeN).1).dot pt = q.1 := by
          rw [ept, dot_add, dot_add, dot_smul, dot_smul, dot_comm _ (Xb.R.col a1), dot_comm _ (Xb.R.col a2)]; linarith
        rw [this]; exact r1
      · rw [dot_add, dot_smul, hn, dot_smul, p2, mul_zero, mul_zero, add_zero]
        have : (Xa.R.col (otherAxes codeN).2).dot pt = q.2 := by
          rw [ept, dot_add, dot_add, dot_smul, dot_smul, dot_comm _ (Xb.R.col a1), dot_comm _ (Xb.R.col a2)]; linarith
        rw [this]; exact r2
    obtain ⟨x, hx, ex⟩ := within_of_cols (p := pt + (Sa.get codeN - n.dot pt) • n) (S := Sa) ha hall
    refine ⟨x, hx, ?_⟩
    rw [← ex]; v3

/-- A corner furthest against the normal that faces the inside of the face is a candidate. -/
theorem faceCands_corner (ha : Xa.Rigid) (hb : Xb.Rigid) (hs : s = 1 ∨ s = -1) (hn : n = s • Xa.R.col codeN) {y v : V3 ℝ}
    (hy : ∀ i, |y.get i| = Sb.get i) (hv : v = Xb.R.mulVec y + (Xb.t - Xa.t)) (hm : ∀ i, y.get i * (Xb.R.col i).dot n ≤ 0)
    (hf : ∀ i, i ≠ codeN → |(Xa.R.col i).dot v| < Sa.get i) (hd : n.dot v ≤ Sa.get codeN) :
    ∃ c ∈ faceCands Xa Sa Xb Sb n codeN, c.pt = v ∧ c.dep = Sa.get codeN - n.dot v := by
  have sa : |s| = 1 := by rcases hs with h | h <;> rw [h] <;> simp
  have nu : n.nrm = 1 := by rw [hn, nrm_smul, sa, col_unit ha, one_mul]
  have nru : (Xb.R.tr.mulVec n).nrm = 1 := by rw [M3.Orthonormal.nrm (M3.Orthonormal.tr hb), nu]
  have hne := incident_ne nru
  have hi := incident_cases ⟨|(Xb.R.tr.mulVec n).x|, |(Xb.R.tr.mulVec n).y|, |(Xb.R.tr.mulVec n).z|⟩
  have hget : ∀ j, (Xb.R.tr.mulVec n).get j = (Xb.R.col j).dot n := fun j => by
    fin_cases j <;> simp [M3.tr, M3.mulVec, V3.get, M3.col, dot]
  rw [faceCands]
  dsimp only
  generalize (incident ⟨|(Xb.R.tr.mulVec n).x|, |(Xb.R.tr.mulVec n).y|, |(Xb.R.tr.mulVec n).z|⟩) = I at *
  obtain ⟨l, a1, a2⟩ := I
  dsimp only at *
  rw [hget] at hne
  have hc : (if (Xb.R.tr.mulVec n).get l < 0 then Xb.t - Xa.t + (Sb.get l) • Xb.R.col l else Xb.t - Xa.t - (Sb.get l) • Xb.R.col l) =
      Xb.t - Xa.t + y.get l • Xb.R.col l := by
    have hm := hm l
    rw [hget, ← hy l]
    split_ifs with k
    · rw [abs_of_nonneg (by nlinarith)]
    · have : 0 < (Xb.R.col l).dot n := lt_of_le_of_ne (not_lt.1 k) (Ne.symm hne)
      rw [abs_of_nonpos (by nlinarith)]; v3
  rw [hc]
  have hl : (Xb.R.col l).dot (Xa.R.col codeN) ≠ 0 := fun h => hne (by rw [hn, dot_smul, h, mul_zero])
  obtain ⟨D, D0, hD⟩ := minor (c := codeN) ha hb hi
  have det0 : (Xb.R.col a1).dot (Xa.R.col (otherAxes codeN).1) * (Xb.R.col a2).dot (Xa.R.col (otherAxes codeN).2) -
      (Xb.R.col a2).dot (Xa.R.col (otherAxes codeN).1) * (Xb.R.col a1).dot (Xa.R.col (otherAxes codeN).2) ≠ 0 := by
    rw [hD]; exact mul_ne_zero D0 hl
  have ev : v = Xb.t - Xa.t + y.get l • Xb.R.col l + y.get a1 • Xb.R.col a1 + y.get a2 • Xb.R.col a2 := by
    rw [hv, OBB.mulVec_cols]
    rcases hi with hi | hi | hi <;> (simp only [Prod.mk.injEq] at hi; obtain ⟨rfl, rfl, rfl⟩ := hi) <;> simp only [V3.get] <;> v3
  have f1 := hf _ (otherAxes_ne codeN).1
  have f2 := hf _ (otherAxes_ne codeN).2
  generalize (otherAxes codeN).1 = o1 at *
  generalize (otherAxes codeN).2 = o2 at *
  generalize Xb.t - Xa.t + y.get l • Xb.R.col l = center at *
  have q1 : (Xa.R.col o1).dot v = (Xa.R.col o1).dot center + (Xb.R.col a1).dot (Xa.R.col o1) * y.get a1 + (Xb.R.col a2).dot (Xa.R.col o1) * y.get a2 := by
    rw [ev, dot_add, dot_add, dot_smul, dot_smul, dot_comm _ (Xb.R.col a1), dot_comm _ (Xb.R.col a2)]; ring
  have q2 : (Xa.R.col o2).dot v = (Xa.R.col o2).dot center + (Xb.R.col a1).dot (Xa.R.col o2) * y.get a1 + (Xb.R.col a2).dot (Xa.R.col o2) * y.get a2 := by
    rw [ev, dot_add, dot_add, dot_smul, dot_smul, dot_comm _ (Xb.R.col a1), dot_comm _ (Xb.R.col a2)]; ring
  have e1 := hy a1
  have e2 := hy a2
  have key := rectQuad_keeps (w := (Sa.get o1, Sa.get o2)) (p := ((Xa.R.col o1).dot v, (Xa.R.col o2).dot v)) le_rfl
    (parallelogram_good ((Xa.R.col o1).dot center) ((Xa.R.col o2).dot center) ((Xb.R.col a1).dot (Xa.R.col o1) * Sb.get a1) ((Xb.R.col a1).dot (Xa.R.col o2) * Sb.get a1)
      ((Xb.R.col a2).dot (Xa.R.col o1) * Sb.get a2) ((Xb.R.col a2).dot (Xa.R.col o2) * Sb.get a2)) (by
        simp only [List.mem_cons, List.not_mem_nil, or_false, Prod.mk.injEq]
        rw [q1, q2, ← e1, ← e2]
        rcases abs_choice (y.get a1) with k1 | k1 <;> rcases abs_choice (y.get a2) with k2 | k2 <;> rw [k1, k2]
        · exact Or.inr (Or.inr (Or.inl ⟨by ring, by ring⟩))
        · exact Or.inr (Or.inr (Or.inr ⟨by ring, by ring⟩))
        · exact Or.inr (Or.inl ⟨by ring, by ring⟩)
        · exact Or.inl ⟨by ring, by ring⟩) f1 f2
  generalize (Xb.R.col a1).dot (Xa.R.col o1) = m11 at *
  generalize (Xb.R.col a1).dot (Xa.R.col o2) = m21 at *
  generalize (Xb.R.col a2).dot (Xa.R.col o1) = m12 at *
  generalize (Xb.R.col a2).dot (Xa.R.col o2) = m22 at *
  have hd1 : 1 / (m11 * m22 - m12 * m21) * (m11 * m22 - m12 * m21) = 1 := one_div_mul_cancel det0
  have k1 : m22 * (1 / (m11 * m22 - m12 * m21)) * ((Xa.R.col o1).dot v - (Xa.R.col o1).dot center) -
      m12 * (1 / (m11 * m22 - m12 * m21)) * ((Xa.R.col o2).dot v - (Xa.R.col o2).dot center) = y.get a1 := by
    rw [q1, q2]; linear_combination y.get a1 * hd1
  have k2 : -(m21 * (1 / (m11 * m22 - m12 * m21))) * ((Xa.R.col o1).dot v - (Xa.R.col o1).dot center) +
      m11 * (1 / (m11 * m22 - m12 * m21)) * ((Xa.R.col o2).dot v - (Xa.R.col o2).dot center) = y.get a2 := by
    rw [q1, q2]; linear_combination y.get a2 * hd1
  refine ⟨_, List.mem_filter.2 ⟨List.mem_map.2 ⟨_, key, rfl⟩, ?_⟩, ?_, ?_⟩
  · dsimp only
    rw [k1, k2, ← ev]
    exact decide_eq_true (by linarith)
  · dsimp only
    rw [k1, k2, ← ev]
  · dsimp only
    rw [k1, k2, ← ev]

/-! ### Which candidates are reported -/

theorem deepest_spec : ∀ (ds : List ℝ) (i : ℕ) (m : ℝ) (i1 : ℕ) (all : List ℝ), (∀ j d, ds[j]? = some d → all[i + j]? = some d) → all[i1]? = some m →
    ∃ M, all[deepest ds i m i1]? = some M ∧ m ≤ M ∧ ∀ d ∈ ds, d ≤ M
  | [], i, m, i1, all, _, h1 => ⟨m, h1, le_rfl, by simp⟩
  | d :: ds, i, m, i1, all, h, h1 => by
    rw [deepest]
    have hd : all[i]? = some d := h 0 d rfl
    have ht : ∀ j e, ds[j]? = some e → all[i + 1 + j]? = some e := fun j e hj => by
      rw [show i + 1 + j = i + (j + 1) by omega]; exact h (j + 1) e hj
    split_ifs with k
    · obtain ⟨M, e1, e2, e3⟩ := deepest_spec ds (i + 1) d i all ht hd
      exact ⟨M, e1, (le_of_lt k).trans e2, fun x hx => by
        rcases List.mem_cons.1 hx with rfl | hx
        · exact e2
        · exact e3 x hx⟩
    · obtain ⟨M, e1, e2, e3⟩ := deepest_spec ds (i + 1) m i1 all ht h1
      exact ⟨M, e1, e2, fun x hx => by
        rcases List.mem_cons.1 hx with rfl | hx
        · exact (not_lt.1 k).trans e2
        · exact e3 x hx⟩

theorem cullLoop_length (ang : ℕ → ℝ) (n m i0 : ℕ) : ∀ (js : List ℕ) (av : ℕ → Bool), (cullLoop ang n m i0 js av).length = js.length
  | [], _ => rfl
  | j :: js, av => by rw [cullLoop]; simp [cullLoop_length ang n m i0 js]

/-- An available index is found, if there is one. -/
theorem pick_spec (ang : ℕ → ℝ) (a : ℝ) (av : ℕ → Bool) : ∀ (is : List ℕ) (s : ℝ × ℕ), (s.1 = 1000000000 ∨ av s.2 = true) →
    (∃ i ∈ is, av i = true) ∨ av s.2 = true → av (pick ang a av is s).2 = true ∧ ((pick ang a av is s).2 ∈ is ∨ (pick ang a av is s).2 = s.2)
  | [], s, _, h => by
    rcases h with ⟨i, hi, -⟩ | h
    · cases hi
    · exact ⟨h, Or.inr rfl⟩
  | i :: is, s, hs, h => by
    rw [pick]
    generalize hg : (if |ang i - a| > Real.pi then 2 * Real.pi - |ang i - a| else |ang i - a|) = g
    have hgi : g < 1000000000 := by
      have := Real.pi_le_four
      rw [← hg]; split_ifs <;> linarith
    by_cases k' : av i = true ∧ g < s.1
    · simp only [k'.1, k'.2, and_self, if_true]
      obtain ⟨c1, c2⟩ := pick_spec ang a av is (g, i) (Or.inr k'.1) (Or.inr k'.1)
      refine ⟨c1, Or.inl ?_⟩
      rcases c2 with c2 | c2
      · exact List.mem_cons_of_mem _ c2
      · rw [c2]; exact List.mem_cons_self ..
    · rw [if_neg k']
      have hi : av i = true → av s.2 = true := fun hi => by
        rcases hs with hs | hs
        · exact absurd ⟨hi, by rw [hs]; exact hgi⟩ k'
        · exact hs
      obtain ⟨c1, c2⟩ := pick_spec ang a av is s hs (by
        rcases h with ⟨j, hj, hv⟩ | h
        · rcases List.mem_cons.1 hj with rfl | hj
          · exact Or.inr (hi hv)
          · exact Or.inl ⟨j, hj, hv⟩
        · exact Or.inr h)
      refine ⟨c1, ?_⟩
      rcases c2 with c2 | c2
      · exact Or.inl (List.mem_cons_of_mem _ c2)
      · exact Or.inr c2

theorem cullLoop_spec (ang : ℕ → ℝ) {n m i0 : ℕ} (h0 : i0 < n) : ∀ (js : List ℕ) (av : ℕ → Bool),
    js.length ≤ ((Finset.range n).filter fun k => av k = true).card →
    (∀ i ∈ cullLoop ang n m i0 js av, i < n ∧ av i = true) ∧ (cullLoop ang n m i0 js av).Nodup
  | [], _, _ => by simp [cullLoop]
  | j :: js, av, h => by
    rw [cullLoop]
    generalize (if j * (2 * Real.pi / m) + ang i0 > Real.pi then j * (2 * Real.pi / m) + ang i0 - 2 * Real.pi else j * (2 * Real.pi / m) + ang i0) = a
    have hav : ∃ i ∈ List.range n, av i = true := by
      have : 0 < ((Finset.range n).filter fun k => av k = true).card := by simp only [List.length_cons] at h; omega
      obtain ⟨i, hi⟩ := Finset.card_pos.1 this
      obtain ⟨h1, h2⟩ := Finset.mem_filter.1 hi
      exact ⟨i, List.mem_range.2 (Finset.mem_range.1 h1), h2⟩
    obtain ⟨c1, c2⟩ := pick_spec ang a av (List.range n) (1000000000, i0) (Or.inl rfl) (Or.inl hav)
    generalize (pick ang a av (List.range n) (1000000000, i0)).2 = i at *
    have hin : i < n := by
      rcases c2 with c2 | c2
      · exact List.mem_range.1 c2
      · rw [c2]; exact h0
    have he : ((Finset.range n).filter fun k => (if k = i then false else av k) = true) = ((Finset.range n).filter fun k => av k = true).erase i := by
      ext k
      simp only [Finset.mem_filter, Finset.mem_erase]
      by_cases hk : k = i <;> simp [hk]
    obtain ⟨r1, r2⟩ := cullLoop_spec ang (m := m) h0 js (fun k => if k = i then false else av k) (by
      rw [he, Finset.card_erase_of_mem (Finset.mem_filter.2 ⟨Finset.mem_range.2 hin, c1⟩)]
      simp only [List.length_cons] at h; omega)
    refine ⟨fun k hk => ?_, List.nodup_cons.2 ⟨fun hk => ?_, r2⟩⟩
    · rcases List.mem_cons.1 hk with rfl | hk
      · exact ⟨hin, c1⟩
      · obtain ⟨b1, b2⟩ := r1 k hk
        by_cases e : k = i
        · rw [if_pos e] at b2; cases b2
        · rw [if_neg e] at b2; exact ⟨b1, b2⟩
    · have := (r1 i hk).2
      rw [if_pos rfl] at this; cases this

theorem cull_spec (ang : ℕ → ℝ) {n m i0 : ℕ} (h0 : i0 < n) (hm : m ≤ n) (h1 : 1 ≤ m) :
    (∀ i ∈ cull ang n m i0, i < n) ∧ (cull ang n m i0).Nodup ∧ (cull ang n m i0).length = m ∧ i0 ∈ cull ang n m i0 := by
  have he : ((Finset.range n).filter fun k => (if k = i0 then false else true) = true) = (Finset.range n).erase i0 := by
    ext k
    simp only [Finset.mem_filter, Finset.mem_erase]
    by_cases hk : k = i0 <;> simp [hk]
  obtain ⟨r1, r2⟩ := cullLoop_spec ang (m := m) h0 ((List.range (m - 1)).map (· + 1)) (fun k => if k = i0 then false else true) (by
    rw [he, Finset.card_erase_of_mem (Finset.mem_range.2 h0)]; simp; omega)
  refine ⟨fun i hi => ?_, List.nodup_cons.2 ⟨fun hk => ?_, r2⟩, ?_, List.mem_cons_self ..⟩
  · rcases List.mem_cons.1 hi with rfl | hi
    · exact h0
    · exact (r1 i hi).1
  · have := (r1 i0 hk).2
    rw [if_pos rfl] at this; cases this
  · rw [cull, List.length_cons, cullLoop_length]; simp; omega

/-- As many candidates as are wanted are reported, all different, and a deepest one among them. -/
theorem chosen_spec (ang : List (ℝ × ℝ) → ℕ → ℝ) (maxc : ℕ) (cs : List Cand) :
    (∀ i ∈ chosen ang maxc cs, i < cs.length) ∧ (chosen ang maxc cs).Nodup ∧ (chosen ang maxc cs).length = min cs.length (max maxc 1) ∧
      ∀ c ∈ cs, ∃ i ∈ chosen ang maxc cs, ∃ c', cs[i]? = some c' ∧ c.dep ≤ c'.dep := by
  rw [chosen]
  have hm : (if (if maxc > cs.length then cs.length else maxc) < 1 then 1 else (if maxc > cs.length then cs.length else maxc)) = max (min cs.length maxc) 1 := by
    split_ifs <;> omega
  simp only [hm]
  split_ifs with k
  · cases cs with
    | nil => simp at k
    | cons c cs =>
      simp only [List.map_cons]
      obtain ⟨M, e1, e2, e3⟩ := deepest_spec (cs.map (·.dep)) 1 c.dep 0 ((c :: cs).map (·.dep)) (fun j d hj => by
        rw [Nat.add_comm]; simpa using hj) rfl
      have hlt : deepest (cs.map (·.dep)) 1 c.dep 0 < (c :: cs).length := by
        have := (List.getElem?_eq_some_iff.1 e1).1
        simpa using this
      obtain ⟨r1, r2, r3, r4⟩ := cull_spec (ang ((c :: cs).map (·.ret))) (m := max (min (c :: cs).length maxc) 1) hlt (by omega) (by omega)
      refine ⟨r1, r2, ?_, fun x hx => ⟨_, r4, ?_⟩⟩
      · rw [List.map_cons] at r3
        rw [r3]; simp only [List.length_cons] at k ⊢; omega
      · rw [List.getElem?_map, Option.map_eq_some_iff] at e1
        obtain ⟨c', hc', rfl⟩ := e1
        refine ⟨c', hc', ?_⟩
        rcases List.mem_cons.1 hx with rfl | hx
        · exact e2
        · exact e3 _ (List.mem_map.2 ⟨x, hx, rfl⟩)
  · refine ⟨fun i hi => List.mem_range.1 hi, List.nodup_range, ?_, fun c hc => ?_⟩
    · rw [List.length_range]; omega
    · obtain ⟨i, hi, e⟩ := List.getElem_of_mem hc
      exact ⟨i, List.mem_range.2 hi, c, by rw [List.getElem?_eq_getElem hi, e], le_rfl⟩

end BoxBox
end Fcl
