import Verif.Mass.Simplex
import Verif.Mass.PolySpec
import Mathlib.MeasureTheory.Function.Jacobian
import Mathlib.LinearAlgebra.Matrix.ToLin
import Mathlib.LinearAlgebra.Determinant

/-! Integrals over tetrahedra and over solids enclosed by triangles. -/

namespace Fcl
namespace Mass
open MeasureTheory Set

/-- Triples as functions. -/
noncomputable def tripleEquiv : ((ℝ × ℝ) × ℝ) ≃ₗ[ℝ] (Fin 3 → ℝ) where
  toFun q := ![q.1.1, q.1.2, q.2]
  map_add' p q := by ext i; fin_cases i <;> simp
  map_smul' c p := by ext i; fin_cases i <;> simp
  invFun v := ((v 0, v 1), v 2)
  left_inv q := by simp
  right_inv v := by ext i; fin_cases i <;> simp

/-- The linear map with the columns `a`, `b`, `c`. -/
noncomputable def colMap (a b c : V3 ℝ) : ((ℝ × ℝ) × ℝ) →L[ℝ] ((ℝ × ℝ) × ℝ) :=
  LinearMap.toContinuousLinearMap
    ((tripleEquiv.symm : (Fin 3 → ℝ) →ₗ[ℝ] ((ℝ × ℝ) × ℝ)) ∘ₗ (Matrix.toLin' !![a.x, b.x, c.x; a.y, b.y, c.y; a.z, b.z, c.z]) ∘ₗ
      (tripleEquiv.symm.symm : ((ℝ × ℝ) × ℝ) →ₗ[ℝ] (Fin 3 → ℝ)))

theorem colMap_apply (a b c : V3 ℝ) (q : (ℝ × ℝ) × ℝ) : colMap a b c q =
    ((a.x * q.1.1 + b.x * q.1.2 + c.x * q.2, a.y * q.1.1 + b.y * q.1.2 + c.y * q.2), a.z * q.1.1 + b.z * q.1.2 + c.z * q.2) := by
  simp [colMap, tripleEquiv, Matrix.mulVec, dotProduct, Fin.sum_univ_three]

theorem colMap_det (a b c : V3 ℝ) : (colMap a b c).det = (a.cross b).dot c := by
  have : (colMap a b c).det = LinearMap.det ((tripleEquiv.symm : (Fin 3 → ℝ) →ₗ[ℝ] ((ℝ × ℝ) × ℝ)) ∘ₗ
      (Matrix.toLin' !![a.x, b.x, c.x; a.y, b.y, c.y; a.z, b.z, c.z]) ∘ₗ
      (tripleEquiv.symm.symm : ((ℝ × ℝ) × ℝ) →ₗ[ℝ] (Fin 3 → ℝ))) := rfl
  rw [this, LinearMap.det_conj, LinearMap.det_toLin', Matrix.det_fin_three]
  simp [V3.cross, V3.dot]
  ring

/-- The point of the tetrahedron with three coordinates. -/
def tetPt (p : V3 ℝ) (t : Tri3) (q : V3 ℝ) : V3 ℝ :=
  ⟨p.x + q.x * (t.1.x - p.x) + q.y * (t.2.1.x - p.x) + q.z * (t.2.2.x - p.x),
   p.y + q.x * (t.1.y - p.y) + q.y * (t.2.1.y - p.y) + q.z * (t.2.2.y - p.y),
   p.z + q.x * (t.1.z - p.z) + q.y * (t.2.1.z - p.z) + q.z * (t.2.2.z - p.z)⟩

theorem tetPt_eq (p : V3 ℝ) (t : Tri3) (q : V3 ℝ) : tetPt p t q = p + q.x • (t.1 - p) + q.y • (t.2.1 - p) + q.z • (t.2.2 - p) := by
  apply V3.ext' <;> simp [tetPt]

/-- The affine map onto the tetrahedron. -/
noncomputable def tetMap (p : V3 ℝ) (t : Tri3) (q : (ℝ × ℝ) × ℝ) : (ℝ × ℝ) × ℝ :=
  ((p.x, p.y), p.z) + colMap (t.1 - p) (t.2.1 - p) (t.2.2 - p) q

theorem toV_tetMap (p : V3 ℝ) (t : Tri3) (q : (ℝ × ℝ) × ℝ) : toV (tetMap p t q) = tetPt p t (toV q) := by
  apply V3.ext' <;> simp [tetMap, colMap_apply, toV, tetPt] <;> ring

theorem toV_inj {a b : (ℝ × ℝ) × ℝ} (h : toV a = toV b) : a = b := by
  obtain ⟨h1, h2, h3⟩ := V3.mk.inj h
  exact Prod.ext (Prod.ext h1 h2) h3

theorem tetra_image (p : V3 ℝ) (t : Tri3) : toV ⁻¹' tetra p t = tetMap p t '' (toV ⁻¹' stdTet) := by
  ext q
  simp only [mem_preimage, mem_image, tetra, stdTet, mem_ofPred_eq]
  constructor
  · rintro ⟨u, v, w, h1, h2, h3, h4, e⟩
    refine ⟨((u, v), w), ⟨h1, h2, h3, h4⟩, toV_inj ?_⟩
    rw [toV_tetMap, tetPt_eq, e]
    rfl
  · rintro ⟨s, ⟨h1, h2, h3, h4⟩, rfl⟩
    exact ⟨_, _, _, h1, h2, h3, h4, by rw [toV_tetMap, tetPt_eq]⟩

theorem tetra_solid (p : V3 ℝ) (t : Tri3) : Solid (tetra p t) := by
  rw [Solid, tetra_image]
  refine IsCompact.image stdTet_compact ?_
  unfold tetMap
  fun_prop

theorem over_tetra (p : V3 ℝ) (t : Tri3) (f : V3 ℝ → ℝ) :
    Real.sign (orient p t) * over (tetra p t) f = orient p t * over stdTet fun q => f (tetPt p t q) := by
  by_cases h0 : orient p t = 0
  · rw [h0]; simp
  have hdet : (colMap (t.1 - p) (t.2.1 - p) (t.2.2 - p)).det = orient p t := colMap_det _ _ _
  have hinj : Function.Injective (tetMap p t) := by
    have hu : IsUnit (LinearMap.det (colMap (t.1 - p) (t.2.1 - p) (t.2.2 - p) : ((ℝ × ℝ) × ℝ) →ₗ[ℝ] ((ℝ × ℝ) × ℝ))) :=
      isUnit_iff_ne_zero.2 (by
        have : LinearMap.det (colMap (t.1 - p) (t.2.1 - p) (t.2.2 - p) : ((ℝ × ℝ) × ℝ) →ₗ[ℝ] ((ℝ × ℝ) × ℝ)) = orient p t := hdet
        rw [this]; exact h0)
    have hi := (LinearMap.equivOfIsUnitDet hu).injective
    intro a b hab
    have hab' : colMap (t.1 - p) (t.2.1 - p) (t.2.2 - p) a = colMap (t.1 - p) (t.2.1 - p) (t.2.2 - p) b := add_left_cancel hab
    exact hi (by simpa [LinearMap.equivOfIsUnitDet_apply] using hab')
  haveI h2 : (MeasureTheory.volume : Measure (ℝ × ℝ)).IsAddHaarMeasure := inferInstance
  haveI h3 : (MeasureTheory.volume : Measure ((ℝ × ℝ) × ℝ)).IsAddHaarMeasure :=
    Measure.prod.instIsAddHaarMeasure (MeasureTheory.volume : Measure (ℝ × ℝ)) (MeasureTheory.volume : Measure ℝ)
  have := integral_image_eq_integral_abs_det_fderiv_smul (MeasureTheory.volume : Measure ((ℝ × ℝ) × ℝ)) (IsCompact.measurableSet stdTet_compact)
    (f := tetMap p t) (f' := fun _ => colMap (t.1 - p) (t.2.1 - p) (t.2.2 - p))
    (fun x _ => ((colMap (t.1 - p) (t.2.1 - p) (t.2.2 - p)).hasFDerivAt.const_add _).hasFDerivWithinAt) hinj.injOn (fun q => f (toV q))
  rw [over, tetra_image, this]
  simp only [hdet, smul_eq_mul, toV_tetMap]
  rw [integral_const_mul, ← mul_assoc]
  have hs : Real.sign (orient p t) * |orient p t| = orient p t := by
    rcases lt_or_gt_of_ne h0 with h | h
    · rw [Real.sign_of_neg h, abs_of_neg h]; ring
    · rw [Real.sign_of_pos h, abs_of_pos h, one_mul]
  rw [hs]
  rfl

/-- The signed moments of a tetrahedron. -/
noncomputable def mom1 (p : V3 ℝ) (t : Tri3) : ℝ := orient p t / 6
noncomputable def momL (g : V3 ℝ → ℝ) (p : V3 ℝ) (t : Tri3) : ℝ := orient p t * (g p + g t.1 + g t.2.1 + g t.2.2) / 24
noncomputable def momQ (g h : V3 ℝ → ℝ) (p : V3 ℝ) (t : Tri3) : ℝ :=
  orient p t * (g p * h p + g t.1 * h t.1 + g t.2.1 * h t.2.1 + g t.2.2 * h t.2.2 +
    (g p + g t.1 + g t.2.1 + g t.2.2) * (h p + h t.1 + h t.2.1 + h t.2.2)) / 120

/-- A coordinate. -/
def Coord (g : V3 ℝ → ℝ) : Prop := g = V3.x ∨ g = V3.y ∨ g = V3.z

theorem Coord.tetPt {g : V3 ℝ → ℝ} (hg : Coord g) (p : V3 ℝ) (t : Tri3) (q : V3 ℝ) :
    g (tetPt p t q) = g p + q.x * (g t.1 - g p) + q.y * (g t.2.1 - g p) + q.z * (g t.2.2 - g p) := by
  rcases hg with rfl | rfl | rfl <;> rfl

theorem std_quad {f : V3 ℝ → ℝ} (c0 cx cy cz cxx cyy czz cxy cxz cyz : ℝ)
    (h : ∀ p, f p = c0 * 1 + cx * p.x + cy * p.y + cz * p.z + cxx * (p.x * p.x) + cyy * (p.y * p.y) + czz * (p.z * p.z) +
      cxy * (p.x * p.y) + cxz * (p.x * p.z) + cyz * (p.y * p.z)) :
    over stdTet f = c0 / 6 + (cx + cy + cz) / 24 + (cxx + cyy + czz) / 60 + (cxy + cxz + cyz) / 120 := by
  have : f = fun p => _ := funext h
  rw [this, over_quad stdTet_moments]; ring

theorem over_mom1 (p : V3 ℝ) (t : Tri3) : (Real.sign (orient p t) * over (tetra p t) fun _ => 1) = mom1 p t := by
  rw [over_tetra, std_quad 1 0 0 0 0 0 0 0 0 0 (fun q => by ring), mom1]; ring

theorem over_momL {g : V3 ℝ → ℝ} (hg : Coord g) (p : V3 ℝ) (t : Tri3) :
    (Real.sign (orient p t) * over (tetra p t) fun q => g q) = momL g p t := by
  rw [over_tetra, std_quad (g p) (g t.1 - g p) (g t.2.1 - g p) (g t.2.2 - g p) 0 0 0 0 0 0 (fun q => by rw [hg.tetPt]; ring), momL]; ring

theorem over_momQ {g h : V3 ℝ → ℝ} (hg : Coord g) (hh : Coord h) (p : V3 ℝ) (t : Tri3) :
    (Real.sign (orient p t) * over (tetra p t) fun q => g q * h q) = momQ g h p t := by
  rw [over_tetra, std_quad (g p * h p) (g p * (h t.1 - h p) + h p * (g t.1 - g p)) (g p * (h t.2.1 - h p) + h p * (g t.2.1 - g p))
    (g p * (h t.2.2 - h p) + h p * (g t.2.2 - g p)) ((g t.1 - g p) * (h t.1 - h p)) ((g t.2.1 - g p) * (h t.2.1 - h p))
    ((g t.2.2 - g p) * (h t.2.2 - h p)) ((g t.1 - g p) * (h t.2.1 - h p) + (g t.2.1 - g p) * (h t.1 - h p))
    ((g t.1 - g p) * (h t.2.2 - h p) + (g t.2.2 - g p) * (h t.1 - h p))
    ((g t.2.1 - g p) * (h t.2.2 - h p) + (g t.2.2 - g p) * (h t.2.1 - h p)) (fun q => by rw [hg.tetPt, hh.tetPt]; ring), momQ]
  ring

/-! ### Enclosed solids -/

open Classical in
theorem integral_winding (T : List Tri3) (p : V3 ℝ) {f : V3 ℝ → ℝ} (hf : Continuous fun q => f (toV q)) :
    Integrable (fun q => (T.map fun t => if toV q ∈ tetra p t then Real.sign (orient p t) else 0).sum * f (toV q)) ∧
    (∫ q, (T.map fun t => if toV q ∈ tetra p t then Real.sign (orient p t) else 0).sum * f (toV q)) =
      (T.map fun t => Real.sign (orient p t) * over (tetra p t) f).sum := by
  induction T with
  | nil => simp
  | cons t T ih =>
    have hm : MeasurableSet (toV ⁻¹' tetra p t) := IsCompact.measurableSet (tetra_solid p t)
    have e : (fun q => ((t :: T).map fun t => if toV q ∈ tetra p t then Real.sign (orient p t) else 0).sum * f (toV q)) = fun q =>
        Real.sign (orient p t) * (toV ⁻¹' tetra p t).indicator (fun q => f (toV q)) q +
          (T.map fun t => if toV q ∈ tetra p t then Real.sign (orient p t) else 0).sum * f (toV q) := by
      funext q
      simp only [List.map_cons, List.sum_cons, indicator, mem_preimage]
      split <;> ring
    have hi : Integrable fun q => Real.sign (orient p t) * (toV ⁻¹' tetra p t).indicator (fun q => f (toV q)) q :=
      ((integrable_indicator_iff hm).2 (ContinuousOn.integrableOn_compact (tetra_solid p t) hf.continuousOn)).const_mul _
    rw [e]
    refine ⟨hi.add ih.1, ?_⟩
    rw [integral_add hi ih.1, ih.2, integral_const_mul, integral_indicator hm]
    rfl

theorem Encloses.over {T : List Tri3} {p : V3 ℝ} {X : Set (V3 ℝ)} (h : Encloses T p X) (hX : Solid X) {f : V3 ℝ → ℝ}
    (hf : Continuous fun q => f (toV q)) : over X f = (T.map fun t => Real.sign (orient p t) * over (tetra p t) f).sum := by
  classical
  have hm : MeasurableSet (toV ⁻¹' X) := IsCompact.measurableSet hX
  rw [← (integral_winding T p hf).2, Mass.over, ← integral_indicator hm]
  refine integral_congr_ae ?_
  filter_upwards [h] with q hq
  simp only [indicator, mem_preimage]
  have := congrArg (· * f (toV q)) hq
  split
  · next hx =>
    rw [if_pos hx, one_mul] at this
    convert this.symm
  · next hx =>
    rw [if_neg hx, zero_mul] at this
    convert this.symm

/-! ### The tip does not matter -/

theorem sum_antisymm (L : List (V3 ℝ × V3 ℝ)) (E : V3 ℝ × V3 ℝ → ℝ) (hE : ∀ e, E e.swap = -E e) (hL : L.Perm (L.map Prod.swap)) :
    (L.map E).sum = 0 := by
  have h1 : (L.map E).sum = ((L.map Prod.swap).map E).sum := (hL.map E).sum_eq
  rw [List.map_map] at h1
  have h2 : (L.map (E ∘ Prod.swap)).sum = -(L.map E).sum := by
    have : (E ∘ Prod.swap) = fun e => -E e := funext hE
    rw [this]
    clear h1 hL this
    induction L with
    | nil => simp
    | cons a L ih => simp only [List.map_cons, List.sum_cons, ih]; ring
  linarith

theorem sum_sides (T : List Tri3) (E : V3 ℝ × V3 ℝ → ℝ) :
    ((sides3 T).map E).sum = (T.map fun t => E (t.1, t.2.1) + E (t.2.1, t.2.2) + E (t.2.2, t.1)).sum := by
  induction T with
  | nil => rfl
  | cons t T ih =>
    have : sides3 (t :: T) = [(t.1, t.2.1), (t.2.1, t.2.2), (t.2.2, t.1)] ++ sides3 T := rfl
    rw [this, List.map_append, List.sum_append, ih, List.map_cons, List.sum_cons]
    simp
    ring

theorem tip_free {T : List Tri3} (hT : NoBorder T) (F : V3 ℝ → Tri3 → ℝ)
    (hF : ∀ p a b c, F p (a, b, c) = F 0 (a, b, c) - F 0 (a, b, p) - F 0 (b, c, p) - F 0 (c, a, p))
    (ha : ∀ a b p, F 0 (b, a, p) = -F 0 (a, b, p)) (p : V3 ℝ) : (T.map (F p)).sum = (T.map (F 0)).sum := by
  have h1 := sum_antisymm (sides3 T) (fun e => F 0 (e.1, e.2, p)) (fun e => ha _ _ _) hT
  rw [sum_sides] at h1
  have h2 : (T.map (F p)).sum = (T.map (F 0)).sum - (T.map fun t => F 0 (t.1, t.2.1, p) + F 0 (t.2.1, t.2.2, p) + F 0 (t.2.2, t.1, p)).sum := by
    clear h1 hT
    induction T with
    | nil => simp
    | cons t T ih =>
      obtain ⟨a, b, c⟩ := t
      simp only [List.map_cons, List.sum_cons, ih, hF p a b c]
      ring
  rw [h2, h1, sub_zero]

theorem tip_mom1 {T : List Tri3} (hT : NoBorder T) (p : V3 ℝ) : (T.map (mom1 p)).sum = (T.map (mom1 0)).sum := by
  refine tip_free hT mom1 (fun p a b c => ?_) (fun a b p => ?_) p <;> simp [mom1, orient, V3.cross, V3.dot] <;> ring

theorem Coord.zero {g : V3 ℝ → ℝ} (hg : Coord g) : g 0 = 0 := by rcases hg with rfl | rfl | rfl <;> rfl

theorem orient_tip (p a b c : V3 ℝ) : orient p (a, b, c) = orient 0 (a, b, c) - orient 0 (a, b, p) - orient 0 (b, c, p) - orient 0 (c, a, p) := by
  simp [orient, V3.cross, V3.dot]; ring

theorem orient_swap (a b p : V3 ℝ) : orient 0 (b, a, p) = -orient 0 (a, b, p) := by
  simp [orient, V3.cross, V3.dot]; ring

theorem tip_momL {T : List Tri3} (hT : NoBorder T) {g : V3 ℝ → ℝ} (hg : Coord g) (p : V3 ℝ) :
    (T.map (momL g p)).sum = (T.map (momL g 0)).sum := by
  refine tip_free hT (momL g) (fun p a b c => ?_) (fun a b p => ?_) p
  · rcases hg with rfl | rfl | rfl <;> simp [momL, orient, V3.cross, V3.dot] <;> ring
  · simp only [momL]; rw [orient_swap]; ring

theorem tip_momQ {T : List Tri3} (hT : NoBorder T) {g h : V3 ℝ → ℝ} (hg : Coord g) (hh : Coord h) (p : V3 ℝ) :
    (T.map (momQ g h p)).sum = (T.map (momQ g h 0)).sum := by
  refine tip_free hT (momQ g h) (fun p a b c => ?_) (fun a b p => ?_) p
  · rcases hg with rfl | rfl | rfl <;> rcases hh with rfl | rfl | rfl <;> simp [momQ, orient, V3.cross, V3.dot] <;> ring
  · simp only [momQ]; rw [orient_swap]; ring

/-- The moments of an enclosed solid, with the tetrahedra at the origin. -/
theorem Encloses.moments {T : List Tri3} {p : V3 ℝ} {X : Set (V3 ℝ)} (h : Encloses T p X) (hX : Solid X) (hT : NoBorder T) :
    Moments X (T.map (mom1 0)).sum (T.map (momL V3.x 0)).sum (T.map (momL V3.y 0)).sum (T.map (momL V3.z 0)).sum
      (T.map (momQ V3.x V3.x 0)).sum (T.map (momQ V3.y V3.y 0)).sum (T.map (momQ V3.z V3.z 0)).sum
      (T.map (momQ V3.x V3.y 0)).sum (T.map (momQ V3.x V3.z 0)).sum (T.map (momQ V3.y V3.z 0)).sum := by
  have cx : Coord V3.x := .inl rfl
  have cy : Coord V3.y := .inr (.inl rfl)
  have cz : Coord V3.z := .inr (.inr rfl)
  have k1 : Continuous fun p : (ℝ × ℝ) × ℝ => (toV p).x := by simp only [toV]; fun_prop
  have k2 : Continuous fun p : (ℝ × ℝ) × ℝ => (toV p).y := by simp only [toV]; fun_prop
  have k3 : Continuous fun p : (ℝ × ℝ) × ℝ => (toV p).z := by simp only [toV]; fun_prop
  refine ⟨hX, ?_, ?_, ?_, ?_, ?_, ?_, ?_, ?_, ?_, ?_⟩
  · rw [h.over hX (by fun_prop), ← tip_mom1 hT p]; simp only [over_mom1]
  · rw [h.over hX (by fun_prop), ← tip_momL hT cx p]; simp only [over_momL cx]
  · rw [h.over hX (by fun_prop), ← tip_momL hT cy p]; simp only [over_momL cy]
  · rw [h.over hX (by fun_prop), ← tip_momL hT cz p]; simp only [over_momL cz]
  · rw [h.over hX (by fun_prop), ← tip_momQ hT cx cx p]; simp only [over_momQ cx cx]
  · rw [h.over hX (by fun_prop), ← tip_momQ hT cy cy p]; simp only [over_momQ cy cy]
  · rw [h.over hX (by fun_prop), ← tip_momQ hT cz cz p]; simp only [over_momQ cz cz]
  · rw [h.over hX (by fun_prop), ← tip_momQ hT cx cy p]; simp only [over_momQ cx cy]
  · rw [h.over hX (by fun_prop), ← tip_momQ hT cx cz p]; simp only [over_momQ cx cz]
  · rw [h.over hX (by fun_prop), ← tip_momQ hT cy cz p]; simp only [over_momQ cy cz]

end Mass
end Fcl
