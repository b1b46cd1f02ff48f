import Verif.Motion.Spec
import Verif.BVH.MeshLemmas
import Verif.Geom.Rotation
import Mathlib.Analysis.SpecialFunctions.Trigonometric.Bounds
import Mathlib.Tactic.Linarith

/-!
# Lemmas about turns and about the maxima of the motion bounds
-/

namespace Fcl
namespace M3

theorem angleAxis_mulVec (θ : ℝ) (a v : V3 ℝ) :
    (angleAxis θ a).mulVec v = Real.cos θ • v + Real.sin θ • a.cross v + ((1 - Real.cos θ) * a.dot v) • a := by
  apply V3.ext' <;> simp [angleAxis, mulVec, V3.dot, V3.cross] <;> ring

theorem angleAxis_zero (a : V3 ℝ) : angleAxis 0 a = one := by simp [angleAxis, one]

theorem angleAxis_neg (θ : ℝ) (a : V3 ℝ) : angleAxis (-θ) (-a) = angleAxis θ a := by
  simp [angleAxis]

theorem angleAxis_add {a : V3 ℝ} (ha : a.dot a = 1) (θ φ : ℝ) (v : V3 ℝ) :
    (angleAxis (θ + φ) a).mulVec v = (angleAxis θ a).mulVec ((angleAxis φ a).mulVec v) := by
  simp only [angleAxis_mulVec, Real.cos_add, Real.sin_add]
  generalize Real.cos θ = c; generalize Real.sin θ = s
  generalize Real.cos φ = d; generalize Real.sin φ = e
  simp only [V3.dot] at ha
  apply V3.ext' <;> simp [V3.cross, V3.dot] <;> grind

theorem angleAxis_orthonormal {a : V3 ℝ} (ha : a.dot a = 1) (θ : ℝ) : (angleAxis θ a).Orthonormal := by
  have h := Real.sin_sq_add_cos_sq θ
  apply orthonormal_of_rows
  simp only [V3.dot] at ha
  simp only [angleAxis, mul, tr, col, V3.get, V3.dot, one, mk.injEq, V3.mk.injEq]
  generalize Real.cos θ = c at *; generalize Real.sin θ = s at *
  refine ⟨⟨?_, ?_, ?_⟩, ⟨?_, ?_, ?_⟩, ?_, ?_, ?_⟩ <;> grind

/-- A turn keeps the distance from its axis. -/
theorem angleAxis_cross {a : V3 ℝ} (ha : a.dot a = 1) (θ : ℝ) (v : V3 ℝ) :
    (((angleAxis θ a).mulVec v).cross a).nrm = (v.cross a).nrm := by
  have h := Real.sin_sq_add_cos_sq θ
  rw [V3.nrm, V3.nrm]; congr 1
  rw [angleAxis_mulVec]
  generalize Real.cos θ = c at *; generalize Real.sin θ = s at *
  simp only [V3.dot] at ha
  simp [V3.cross, V3.dot]
  grind

/-- How far a turn by `φ` moves a point along `n`. -/
theorem angleAxis_move {a : V3 ℝ} (ha : a.dot a = 1) {φ : ℝ} (hφ : 0 ≤ φ) (n v : V3 ℝ) :
    n.dot ((angleAxis φ a).mulVec v - v) ≤ φ * ((a.cross n).nrm * (v.cross a).nrm) := by
  set z := (angleAxis φ a).mulVec v - v with hz
  have h := Real.sin_sq_add_cos_sq φ
  have e1 : n.dot z = (n - (a.dot n) • a).dot z := by
    rw [hz, angleAxis_mulVec]
    generalize Real.cos φ = c at *; generalize Real.sin φ = s at *
    simp only [V3.dot] at ha
    simp [V3.cross, V3.dot]
    grind
  have e2 : (n - (a.dot n) • a).nrm = (a.cross n).nrm := by
    rw [V3.nrm, V3.nrm]; congr 1
    simp only [V3.dot] at ha
    simp [V3.cross, V3.dot]
    grind
  have e3 : z.dot z = 2 * (1 - Real.cos φ) * ((v.cross a).nrm * (v.cross a).nrm) := by
    rw [V3.nrm_mul_self, hz, angleAxis_mulVec]
    generalize Real.cos φ = c at *; generalize Real.sin φ = s at *
    simp only [V3.dot] at ha
    simp [V3.cross, V3.dot]
    grind
  have e4 : z.nrm ≤ φ * (v.cross a).nrm := by
    rw [V3.nrm_le_iff (mul_nonneg hφ (V3.nrm_nonneg _)), e3]
    have hc := Real.one_sub_sq_div_two_le_cos (x := φ)
    have : 2 * (1 - Real.cos φ) ≤ φ * φ := by nlinarith
    have h0 := mul_self_nonneg (v.cross a).nrm
    nlinarith
  rw [e1]
  refine (V3.dot_le _ _).trans ?_
  rw [e2]
  nlinarith [mul_le_mul_of_nonneg_left e4 (V3.nrm_nonneg (a.cross n))]

end M3

namespace Motion

theorem clip_eq {t : ℝ} (h : t ≤ 1) : clip t = t := if_neg (not_lt.2 h)

theorem le_largest (m : ℝ) (l : List ℝ) : m ≤ largest m l := by
  induction l generalizing m with
  | nil => exact le_rfl
  | cons x l ih =>
    show m ≤ largest (if x > m then x else m) l
    refine le_trans ?_ (ih _)
    split_ifs with h
    · exact h.le
    · exact le_rfl

theorem mem_le_largest {m x : ℝ} {l : List ℝ} (h : x ∈ l) : x ≤ largest m l := by
  induction l generalizing m with
  | nil => cases h
  | cons y l ih =>
    show x ≤ largest (if y > m then y else m) l
    rcases List.mem_cons.1 h with rfl | h
    · refine le_trans ?_ (le_largest _ _)
      split_ifs with h
      · exact le_rfl
      · exact not_lt.1 h
    · exact ih h

/-- `f` maps the points of a segment to the points of a segment. -/
def Affine (f : V3 ℝ → V3 ℝ) : Prop := ∀ (p q : V3 ℝ) (t : ℝ), f ((1 - t) • p + t • q) = (1 - t) • f p + t • f q

theorem nrm_convex {f : V3 ℝ → V3 ℝ} (hf : Affine f) {M : ℝ} {p q : V3 ℝ} (hp : (f p).nrm ≤ M) (hq : (f q).nrm ≤ M) {t : ℝ}
    (h0 : 0 ≤ t) (h1 : t ≤ 1) : (f ((1 - t) • p + t • q)).nrm ≤ M := by
  rw [hf]
  refine (V3.nrm_add_le _ _).trans ?_
  rw [V3.nrm_smul, V3.nrm_smul, abs_of_nonneg h0, abs_of_nonneg (by linarith : 0 ≤ 1 - t)]
  nlinarith

theorem projMax_nonneg (f : V3 ℝ → V3 ℝ) (c : V3 ℝ × List (V3 ℝ)) : 0 ≤ projMax f c := Real.sqrt_nonneg _

theorem nrm_le_projMax (f : V3 ℝ → V3 ℝ) {c : V3 ℝ × List (V3 ℝ)} {x : V3 ℝ} (h : x ∈ c.1 :: c.2) : (f x).nrm ≤ projMax f c := by
  apply Real.sqrt_le_sqrt
  rcases List.mem_cons.1 h with rfl | h
  · exact le_largest _ _
  · exact mem_le_largest (List.mem_map.2 ⟨x, h, rfl⟩)

theorem nrm_le_projMax_hull {f : V3 ℝ → V3 ℝ} (hf : Affine f) {c : V3 ℝ × List (V3 ℝ)} {x : V3 ℝ} (h : HullOf (c.1 :: c.2) x) :
    (f x).nrm ≤ projMax f c :=
  HullOf.subset (S := {x | (f x).nrm ≤ projMax f c}) (fun _ => nrm_le_projMax f) (fun _ _ hp hq _ h0 h1 => nrm_convex hf hp hq h0 h1) h

theorem part_of {a l : ℝ} (h0 : 0 ≤ a) (h1 : a ≤ l) : ∃ s, 0 ≤ s ∧ s ≤ 1 ∧ a = s * l := by
  rcases eq_or_lt_of_le (h0.trans h1) with h | h
  · exact ⟨0, le_rfl, zero_le_one, by linarith⟩
  · exact ⟨a / l, div_nonneg h0 h.le, (div_le_one h).2 h1, by field_simp⟩

theorem rect_hull {b : RSS ℝ} {x : V3 ℝ} (h : x ∈ b.rect) : HullOf ((corners b).1 :: (corners b).2) x := by
  obtain ⟨x, y, hx0, hx1, hy0, hy1, rfl⟩ := h
  obtain ⟨s, s0, s1, rfl⟩ := part_of hx0 hx1
  obtain ⟨r, r0, r1, rfl⟩ := part_of hy0 hy1
  have e : b.To + (s * b.l0) • b.axis.col 0 + (r * b.l1) • b.axis.col 1 =
      (1 - r) • ((1 - s) • b.To + s • (b.To + b.l0 • b.axis.col 0)) +
        r • ((1 - s) • (b.To + b.l1 • b.axis.col 1) + s • (b.To + b.l0 • b.axis.col 0 + b.l1 • b.axis.col 1)) := by v3
  rw [e]
  refine .seg r r0 r1 (.seg s s0 s1 (.pt ?_) (.pt ?_)) (.seg s s0 s1 (.pt ?_) (.pt ?_)) <;> simp [corners]

/-- The distance from the axis of any point of the volume, for maps `f` that lengthen no vector. -/
theorem nrm_le_projMax_rss {f : V3 ℝ → V3 ℝ} (hf : Affine f) (hl : ∀ p q, (f p - f q).nrm ≤ (p - q).nrm) {b : RSS ℝ} (hb : b.WF)
    {x : V3 ℝ} (h : x ∈ b.pts) : (f x).nrm ≤ b.r + projMax f (corners b) := by
  obtain ⟨c, hc, h⟩ := h
  have h1 := (V3.nrm_le_iff hb.r).2 h
  have h2 := nrm_le_projMax_hull hf (rect_hull hc)
  have e : f x = (f x - f c) + f c := by v3
  rw [e]
  linarith [V3.nrm_add_le (f x - f c) (f c), hl x c]

theorem cross_le {a : V3 ℝ} (ha : a.dot a = 1) (v : V3 ℝ) : (v.cross a).nrm ≤ v.nrm := by
  rw [V3.nrm_le_iff (V3.nrm_nonneg _), V3.nrm_mul_self]
  have := mul_self_nonneg (v.dot a)
  have e : (v.cross a).dot (v.cross a) = v.dot v * a.dot a - v.dot a * v.dot a := by simp [V3.cross, V3.dot]; ring
  rw [e, ha]; linarith

end Motion
end Fcl
