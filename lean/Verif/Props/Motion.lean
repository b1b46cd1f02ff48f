import Verif.Motion.Lemmas

/-!
# C96: motions lead from the first to the second transform, and their bounds bound the speed
-/

namespace Fcl
namespace Motion

theorem unit_of {a : V3 ℝ} (h : a.nrm = 1) : a.dot a = 1 := by rw [← V3.nrm_mul_self, h, one_mul]

/-! ### Translations -/

/-- **C96 for `TranslationMotion`**, if the two transforms have the same rotation. -/
theorem C96_translation {tf1 tf2 : Pose ℝ} (h1 : tf1.Rigid) (hr : tf1.R = tf2.R) :
    (translation tf1 tf2).Leads tf1 tf2 ∧ (translation tf1 tf2).Bounds := by
  obtain ⟨R, T1⟩ := tf1
  obtain ⟨R', T2⟩ := tf2
  obtain rfl : R = R' := hr
  have step : ∀ t u, t ≤ 1 → u ≤ 1 → ∀ x n : V3 ℝ,
      n.dot (((translation ⟨R, T1⟩ ⟨R, T2⟩).integrate u).tf.apply x - ((translation ⟨R, T1⟩ ⟨R, T2⟩).integrate t).tf.apply x) =
        (u - t) * (T2 - T1).dot n := fun t u ht hu x n => by
    simp [translation, clip_eq ht, clip_eq hu, Pose.apply, V3.dot]
    ring
  refine ⟨⟨rfl, ?_, ?_, fun t _ _ => h1⟩, ⟨fun t u _ ht hu b _ n x _ => (step t u (ht.trans hu) hu x n).le,
    fun t u _ ht hu p q r n x _ => (step t u (ht.trans hu) hu x n).le⟩⟩
  · simp only [translation, clip_eq zero_le_one, Pose.mk.injEq, true_and]; v3
  · simp only [translation, clip_eq le_rfl, Pose.mk.injEq, true_and]; v3

/-! ### Interpolation -/

section
variable (m : Interp)

theorem interp_apply {t : ℝ} (ht : t ≤ 1) (x : V3 ℝ) : ((interp m).integrate t).tf.apply x =
    (M3.angleAxis (t * m.angVel) m.axis).mulVec (m.tf1.R.mulVec (x - m.ref)) + (t • m.linVel + m.tf1.apply m.ref) := by
  simp only [interp, clip_eq ht, Pose.apply, M3.mul_mulVec, M3.mulVec_sub]
  v3

theorem interp_bounds (ha : m.axis.dot m.axis = 1) (hw : 0 ≤ m.angVel) (h1 : m.tf1.Rigid) : (interp m).Bounds := by
  have aff : ∀ R : M3 ℝ, Affine fun c => (R.mulVec (c - m.ref)).cross m.axis := fun R p q t => by
    simp only [M3.mulVec_sub, M3.mulVec_add, M3.mulVec_smul]
    apply V3.ext' <;> simp [V3.cross] <;> ring
  have step : ∀ t u, t ≤ u → u ≤ 1 → ∀ x n : V3 ℝ, ∀ M,
      ((((interp m).integrate t).tf.R.mulVec (x - m.ref)).cross m.axis).nrm ≤ M →
      n.dot (((interp m).integrate u).tf.apply x - ((interp m).integrate t).tf.apply x) ≤
        (u - t) * (m.linVel.dot n + (m.axis.cross n).nrm * m.angVel * M) := fun t u ht hu x n M hM => by
    rw [interp_apply m hu, interp_apply m (ht.trans hu)]
    have e : u * m.angVel = (u - t) * m.angVel + t * m.angVel := by ring
    rw [e, M3.angleAxis_add ha]
    have e2 : ((interp m).integrate t).tf.R.mulVec (x - m.ref) =
        (M3.angleAxis (t * m.angVel) m.axis).mulVec (m.tf1.R.mulVec (x - m.ref)) := by
      simp only [interp, clip_eq (ht.trans hu), M3.mul_mulVec]
    rw [e2] at hM
    generalize (M3.angleAxis (t * m.angVel) m.axis).mulVec (m.tf1.R.mulVec (x - m.ref)) = v at hM ⊢
    have k := M3.angleAxis_move ha (mul_nonneg (by linarith : 0 ≤ u - t) hw) n v
    have e3 : n.dot ((M3.angleAxis ((u - t) * m.angVel) m.axis).mulVec v + (u • m.linVel + m.tf1.apply m.ref) -
        (v + (t • m.linVel + m.tf1.apply m.ref))) =
        (u - t) * m.linVel.dot n + n.dot ((M3.angleAxis ((u - t) * m.angVel) m.axis).mulVec v - v) := by
      simp [V3.dot]; ring
    rw [e3]
    have k2 : (u - t) * m.angVel * ((m.axis.cross n).nrm * (v.cross m.axis).nrm) ≤ (u - t) * m.angVel * ((m.axis.cross n).nrm * M) :=
      mul_le_mul_of_nonneg_left (mul_le_mul_of_nonneg_left hM (V3.nrm_nonneg _)) (mul_nonneg (by linarith) hw)
    linarith
  constructor
  · intro t u _ ht hu b hb n x hx
    refine step t u ht hu x n _ (nrm_le_projMax_rss (f := fun c => (((interp m).integrate t).tf.R.mulVec (c - m.ref)).cross m.axis) (aff _) ?_ hb hx)
    intro p q
    have o : ((interp m).integrate t).tf.R.Orthonormal := (M3.angleAxis_orthonormal ha _).mul h1
    have e : (((interp m).integrate t).tf.R.mulVec (p - m.ref)).cross m.axis - (((interp m).integrate t).tf.R.mulVec (q - m.ref)).cross m.axis =
        (((interp m).integrate t).tf.R.mulVec (p - q)).cross m.axis := by
      simp only [M3.mulVec_sub]
      apply V3.ext' <;> simp [V3.cross] <;> ring
    rw [e]
    exact (cross_le ha _).trans (o.nrm _).le
  · intro t u _ ht hu p q r n x hx
    exact step t u ht hu x n _ (nrm_le_projMax_hull (c := (p, [q, r])) (aff _) hx)

end

/-- What `computeVelocity` and `computeScrewParameter` make of angle and axis. -/
theorem positive_angle {r : M3 ℝ} {aa : ℝ × V3 ℝ} (h : IsAngleAxis r aa) :
    (if aa.1 < 0 then -aa.2 else aa.2).dot (if aa.1 < 0 then -aa.2 else aa.2) = 1 ∧ 0 ≤ (if aa.1 < 0 then -aa.1 else aa.1) ∧
      (if aa.1 < 0 then -aa.1 else aa.1) < 2 * Real.pi ∧
      M3.angleAxis (if aa.1 < 0 then -aa.1 else aa.1) (if aa.1 < 0 then -aa.2 else aa.2) = r := by
  have := abs_lt.1 h.turn
  split_ifs with c
  · exact ⟨by rw [V3.neg_dot, V3.dot_neg, neg_neg]; exact unit_of h.unit, by linarith, by linarith, by rw [M3.angleAxis_neg]; exact h.eq⟩
  · exact ⟨unit_of h.unit, not_lt.1 c, by linarith, h.eq⟩

theorem turn_back {R1 R2 : M3 ℝ} (h1 : R1.Orthonormal) : (R2.mul R1.tr).mul R1 = R2 := by
  rw [M3.mul_assoc, h1.cols, M3.mul_one]

/-- **C96 for `InterpMotion`**, whatever the reference point is. -/
theorem C96_interp {tf1 tf2 : Pose ℝ} (h1 : tf1.Rigid) (ref : V3 ℝ) {aa : ℝ × V3 ℝ} (h : IsAngleAxis (tf2.R.mul tf1.R.tr) aa) :
    (interp (.make tf1 tf2 ref aa)).Leads tf1 tf2 ∧ (interp (.make tf1 tf2 ref aa)).Bounds := by
  obtain ⟨ha, hw, -, he⟩ := positive_angle h
  refine ⟨⟨rfl, ?_, ?_, fun t _ _ => ?_⟩, interp_bounds _ ha hw h1⟩
  · obtain ⟨R, T⟩ := tf1
    simp only [interp, clip_eq zero_le_one, zero_mul, M3.angleAxis_zero, M3.one_mul, Interp.make, Pose.apply, Pose.mk.injEq, true_and]
    v3
  · obtain ⟨R1, T1⟩ := tf1
    obtain ⟨R2, T2⟩ := tf2
    simp only [interp, clip_eq le_rfl, one_mul, Interp.make, he, turn_back h1, Pose.apply, Pose.mk.injEq, true_and]
    v3
  · exact (M3.angleAxis_orthonormal ha _).mul h1

/-! ### Screws -/

section
variable (m : Screw)

theorem screw_apply {t : ℝ} (ht : t ≤ 1) (x : V3 ℝ) : ((screw m).integrate t).tf.apply x =
    (M3.angleAxis (t * m.angVel) m.axis).mulVec (m.tf1.apply x - m.p) + ((t * m.linVel) • m.axis + m.p) := by
  simp only [screw, clip_eq ht, Pose.apply, M3.mul_mulVec, M3.mulVec_sub, M3.mulVec_add]
  v3

theorem screw_bounds (ha : m.angVel = 0 ∨ m.axis.dot m.axis = 1) (hw : 0 ≤ m.angVel) (h1 : m.tf1.Rigid) : (screw m).Bounds := by
  rcases ha with h0 | ha
  · have step : ∀ t u, t ≤ u → u ≤ 1 → ∀ x n : V3 ℝ, ∀ M,
        n.dot (((screw m).integrate u).tf.apply x - ((screw m).integrate t).tf.apply x) ≤
          (u - t) * (m.axis.dot n * m.linVel + (m.axis.cross n).nrm * m.angVel * M) := fun t u ht hu x n M => by
      rw [screw_apply m hu, screw_apply m (ht.trans hu), h0, mul_zero, mul_zero, M3.angleAxis_zero, M3.one_mulVec]
      simp [V3.dot]; linarith
    exact ⟨fun t u _ ht hu b _ n x _ => step t u ht hu x n _, fun t u _ ht hu p q r n x _ => step t u ht hu x n _⟩
  have place : ∀ t, t ≤ 1 → ∀ x, ((screw m).integrate t).tf.R.mulVec x + ((screw m).integrate t).tf.t - m.p =
      (M3.angleAxis (t * m.angVel) m.axis).mulVec (m.tf1.apply x - m.p) + (t * m.linVel) • m.axis := fun t ht x => by
    have := screw_apply m ht x
    rw [Pose.apply] at this
    rw [this]; v3
  have dropAxis : ∀ (v : V3 ℝ) (k : ℝ), (v + k • m.axis).cross m.axis = v.cross m.axis := fun v k => by
    apply V3.ext' <;> simp [V3.cross] <;> ring
  have step : ∀ t u, t ≤ u → u ≤ 1 → ∀ x n : V3 ℝ, ∀ M,
      ((((screw m).integrate t).tf.R.mulVec x + ((screw m).integrate t).tf.t - m.p).cross m.axis).nrm ≤ M →
      n.dot (((screw m).integrate u).tf.apply x - ((screw m).integrate t).tf.apply x) ≤
        (u - t) * (m.axis.dot n * m.linVel + (m.axis.cross n).nrm * m.angVel * M) := fun t u ht hu x n M hM => by
    rw [place t (ht.trans hu), dropAxis] at hM
    rw [screw_apply m hu, screw_apply m (ht.trans hu)]
    have e : u * m.angVel = (u - t) * m.angVel + t * m.angVel := by ring
    rw [e, M3.angleAxis_add ha]
    generalize (M3.angleAxis (t * m.angVel) m.axis).mulVec (m.tf1.apply x - m.p) = v at hM ⊢
    have k := M3.angleAxis_move ha (mul_nonneg (by linarith : 0 ≤ u - t) hw) n v
    have e3 : n.dot ((M3.angleAxis ((u - t) * m.angVel) m.axis).mulVec v + ((u * m.linVel) • m.axis + m.p) -
        (v + ((t * m.linVel) • m.axis + m.p))) =
        (u - t) * (m.axis.dot n * m.linVel) + n.dot ((M3.angleAxis ((u - t) * m.angVel) m.axis).mulVec v - v) := by
      simp [V3.dot]; ring
    rw [e3]
    have k2 : (u - t) * m.angVel * ((m.axis.cross n).nrm * (v.cross m.axis).nrm) ≤ (u - t) * m.angVel * ((m.axis.cross n).nrm * M) :=
      mul_le_mul_of_nonneg_left (mul_le_mul_of_nonneg_left hM (V3.nrm_nonneg _)) (mul_nonneg (by linarith) hw)
    linarith
  constructor
  · intro t u _ ht hu b hb n x hx
    refine step t u ht hu x n _ ?_
    have o : ((screw m).integrate t).tf.R.Orthonormal := (M3.angleAxis_orthonormal ha _).mul h1
    have k := nrm_le_projMax_rss (f := fun c => (((screw m).integrate t).tf.R.mulVec c).cross m.axis)
      (fun p q t => by
        simp only [M3.mulVec_add, M3.mulVec_smul]
        apply V3.ext' <;> simp [V3.cross] <;> ring)
      (fun p q => by
        have e : (((screw m).integrate t).tf.R.mulVec p).cross m.axis - (((screw m).integrate t).tf.R.mulVec q).cross m.axis =
            (((screw m).integrate t).tf.R.mulVec (p - q)).cross m.axis := by
          simp only [M3.mulVec_sub]
          apply V3.ext' <;> simp [V3.cross] <;> ring
        rw [e]
        exact (cross_le ha _).trans (o.nrm _).le) hb hx
    have e : (((screw m).integrate t).tf.R.mulVec x + ((screw m).integrate t).tf.t - m.p).cross m.axis =
        (((screw m).integrate t).tf.R.mulVec x).cross m.axis + (((screw m).integrate t).tf.t - m.p).cross m.axis := by
      apply V3.ext' <;> simp [V3.cross] <;> ring
    rw [e]
    linarith [V3.nrm_add_le ((((screw m).integrate t).tf.R.mulVec x).cross m.axis) ((((screw m).integrate t).tf.t - m.p).cross m.axis)]
  · intro t u _ ht hu p q r n x hx
    refine step t u ht hu x n _ (nrm_le_projMax_hull (c := (p, [q, r]))
      (f := fun c => (((screw m).integrate t).tf.R.mulVec c + ((screw m).integrate t).tf.t - m.p).cross m.axis) ?_ hx)
    intro p q s
    simp only [M3.mulVec_add, M3.mulVec_smul]
    apply V3.ext' <;> simp [V3.cross] <;> ring

end

/-- The bounds of `ScrewMotion` are right, whatever the angle is. -/
theorem C96_screw_bounds {tf1 tf2 : Pose ℝ} (h1 : tf1.Rigid) {aa : ℝ × V3 ℝ} (h : IsAngleAxis (tf2.R.mul tf1.R.tr) aa) :
    (screw (.make tf1 tf2 aa)).Bounds := by
  obtain ⟨ha, hw, -, -⟩ := positive_angle h
  unfold Screw.make
  generalize (if aa.1 < 0 then -aa.2 else aa.2) = a at *
  generalize (if aa.1 < 0 then -aa.1 else aa.1) = w at *
  dsimp only
  split_ifs with c
  · exact screw_bounds _ (.inl rfl) le_rfl h1
  · exact screw_bounds _ (.inr ha) hw h1

theorem half_angle {w : ℝ} (h0 : 0 < w) (h1 : w < 2 * Real.pi) : Real.sin w * (1 / Real.tan (w / 2)) = 1 + Real.cos w ∧
    (1 - Real.cos w) * (1 / Real.tan (w / 2)) = Real.sin w := by
  have hs : Real.sin (w / 2) ≠ 0 := (Real.sin_pos_of_pos_of_lt_pi (by linarith) (by linarith)).ne'
  have e : w = 2 * (w / 2) := by ring
  have es : Real.sin w = 2 * Real.sin (w / 2) * Real.cos (w / 2) := by conv_lhs => rw [e, Real.sin_two_mul]
  have ec : Real.cos w = 2 * Real.cos (w / 2) ^ 2 - 1 := by conv_lhs => rw [e, Real.cos_two_mul]
  have k := Real.sin_sq_add_cos_sq (w / 2)
  rw [Real.tan_eq_sin_div_cos, one_div_div, es, ec]
  generalize Real.sin (w / 2) = s at *
  generalize Real.cos (w / 2) = c at *
  constructor
  · field_simp; ring
  · field_simp; linear_combination -2 * c * k

/-- **C96 for `ScrewMotion`**, if the two rotations differ by an angle that the code does not take for zero. -/
theorem C96_screw {tf1 tf2 : Pose ℝ} (h1 : tf1.Rigid) {aa : ℝ × V3 ℝ} (h : IsAngleAxis (tf2.R.mul tf1.R.tr) aa) (hl : 1 / 10 ^ 10 ≤ |aa.1|) :
    (screw (.make tf1 tf2 aa)).Leads tf1 tf2 ∧ (screw (.make tf1 tf2 aa)).Bounds := by
  refine ⟨?_, C96_screw_bounds h1 h⟩
  obtain ⟨ha, hw, hp, he⟩ := positive_angle h
  have hl' : 1 / 10 ^ 10 ≤ (if aa.1 < 0 then -aa.1 else aa.1) := by
    split_ifs with c
    · rwa [abs_of_neg c] at hl
    · rwa [abs_of_nonneg (not_lt.1 c)] at hl
  unfold Screw.make
  generalize (if aa.1 < 0 then -aa.2 else aa.2) = a at *
  generalize (if aa.1 < 0 then -aa.1 else aa.1) = w at *
  dsimp only
  rw [if_neg (not_lt.2 hl')]
  have hw0 : 0 < w := lt_of_lt_of_le (by positivity) hl'
  obtain ⟨k1, k2⟩ := half_angle hw0 hp
  obtain ⟨R1, T1⟩ := tf1
  obtain ⟨R2, T2⟩ := tf2
  refine ⟨rfl, ?_, ?_, fun t _ _ => (M3.angleAxis_orthonormal ha _).mul h1⟩
  · simp only [screw, clip_eq zero_le_one, zero_mul, M3.angleAxis_zero, M3.one_mul, M3.one_mulVec, Pose.mk.injEq, true_and]
    v3
  · simp only [screw, clip_eq le_rfl, one_mul, Pose.mk.injEq]
    refine ⟨by rw [he]; exact turn_back h1, ?_⟩
    rw [M3.angleAxis_mulVec]
    generalize Real.cos w = c at *
    generalize Real.sin w = s at *
    generalize 1 / Real.tan (w / 2) = k at *
    simp only [V3.dot] at ha
    apply V3.ext' <;> simp [V3.cross, V3.dot] <;> grind

/-! ### Cases that meet the hypotheses -/

/-- The identity, then a quarter turn about the third axis and a translation. -/
noncomputable def exQuarter (t : V3 ℝ) : Pose ℝ := ⟨M3.angleAxis (Real.pi / 2) ⟨0, 0, 1⟩, t⟩

theorem exQuarter_angle (t : V3 ℝ) : IsAngleAxis ((exQuarter t).R.mul (Pose.id : Pose ℝ).R.tr) (Real.pi / 2, ⟨0, 0, 1⟩) := by
  refine ⟨by norm_num [V3.nrm, V3.dot], ?_, ?_⟩
  · rw [abs_of_pos (by linarith [Real.pi_pos])]; linarith [Real.pi_pos]
  · have : (Pose.id : Pose ℝ).R.tr = M3.one := by simp [Pose.id, M3.tr, M3.one, M3.col, V3.get]
    rw [this, M3.mul_one]; rfl

example (t ref : V3 ℝ) : (interp (.make Pose.id (exQuarter t) ref (Real.pi / 2, ⟨0, 0, 1⟩))).Leads Pose.id (exQuarter t) :=
  (C96_interp Pose.id_rigid ref (exQuarter_angle t)).1

example (t : V3 ℝ) : (screw (.make Pose.id (exQuarter t) (Real.pi / 2, ⟨0, 0, 1⟩))).Leads Pose.id (exQuarter t) :=
  (C96_screw Pose.id_rigid (exQuarter_angle t) (by
    rw [abs_of_pos (by show 0 < Real.pi / 2; linarith [Real.pi_pos])]
    show 1 / 10 ^ 10 ≤ Real.pi / 2
    have := Real.one_le_pi_div_two
    norm_num; linarith)).1

example (t : V3 ℝ) : (translation Pose.id ⟨M3.one, t⟩).Leads Pose.id ⟨M3.one, t⟩ := (C96_translation (tf2 := ⟨M3.one, t⟩) Pose.id_rigid rfl).1

/-! ### What does not hold -/

theorem angle_of_one {aa : ℝ × V3 ℝ} (h : IsAngleAxis M3.one aa) : aa.1 = 0 := by
  have hu := unit_of h.unit
  have e := h.eq
  simp only [M3.angleAxis, M3.one, M3.mk.injEq, V3.mk.injEq] at e
  simp only [V3.dot] at hu
  have hc : Real.cos aa.1 = 1 := by
    obtain ⟨⟨e1, -, -⟩, ⟨-, e2, -⟩, -, -, e3⟩ := e
    generalize Real.cos aa.1 = c at *
    linear_combination (1 / 2 : ℝ) * (e1 + e2 + e3) - (1 / 2 : ℝ) * (1 - c) * hu
  have := abs_lt.1 h.turn
  exact (Real.cos_eq_one_iff_of_lt_of_lt (by linarith) (by linarith)).1 hc

/-- **C96 fails for screws without rotation.** The axis of a translation is not normalised and its length is used once more as the
velocity: from the origin to (2, 0, 0) the motion goes to (4, 0, 0). -/
theorem C96_violated_screw {aa : ℝ × V3 ℝ} (h : IsAngleAxis ((⟨M3.one, ⟨2, 0, 0⟩⟩ : Pose ℝ).R.mul (Pose.id : Pose ℝ).R.tr) aa) :
    ((screw (.make Pose.id ⟨M3.one, ⟨2, 0, 0⟩⟩ aa)).integrate 1).tf = ⟨M3.one, ⟨4, 0, 0⟩⟩ := by
  have e1 : (Pose.id : Pose ℝ).R.tr = M3.one := by simp [Pose.id, M3.tr, M3.one, M3.col, V3.get]
  rw [e1, M3.mul_one] at h
  have h0 := angle_of_one h
  have hn : (⟨2, 0, 0⟩ - 0 : V3 ℝ).nrm = 2 := V3.nrm_unique (by norm_num) (by norm_num [V3.dot])
  simp only [Screw.make, h0, lt_irrefl, if_false]
  rw [if_pos (by positivity)]
  simp only [screw, clip_eq le_rfl, one_mul, M3.angleAxis_zero, M3.one_mul, M3.one_mulVec, Pose.id]
  rw [hn]
  simp only [Pose.mk.injEq, true_and]
  apply V3.ext' <;> norm_num

example : IsAngleAxis ((⟨M3.one, ⟨2, 0, 0⟩⟩ : Pose ℝ).R.mul (Pose.id : Pose ℝ).R.tr) (0, ⟨1, 0, 0⟩) := by
  have e1 : (Pose.id : Pose ℝ).R.tr = M3.one := by simp [Pose.id, M3.tr, M3.one, M3.col, V3.get]
  refine ⟨by norm_num [V3.nrm, V3.dot], by simpa using Real.pi_pos, ?_⟩
  rw [e1, M3.mul_one, M3.angleAxis_zero]

/-- **C96 fails for translations between different rotations**: the second rotation is dropped. -/
theorem C96_violated_translation (tf1 tf2 : Pose ℝ) (h : tf1.R ≠ tf2.R) : ¬ (translation tf1 tf2).Leads tf1 tf2 := fun l =>
  h (show ((translation tf1 tf2).integrate 1).tf.R = tf2.R by rw [l.stop])

/-- **The path of `InterpMotion(tf1, tf2)` depends on uninitialised memory.** The two transforms do not determine it: half way through
half a turn the origin is where it was, or elsewhere, depending on the reference point, which that constructor does not set. -/
theorem C96_violated_reference : ∃ (tf1 tf2 : Pose ℝ) (aa : ℝ × V3 ℝ) (ref ref' : V3 ℝ), tf1.Rigid ∧ tf2.Rigid ∧
    IsAngleAxis (tf2.R.mul tf1.R.tr) aa ∧ ((interp (.make tf1 tf2 ref aa)).integrate (1 / 2)).tf.apply 0 = ⟨0, 0, 0⟩ ∧
    ((interp (.make tf1 tf2 ref' aa)).integrate (1 / 2)).tf.apply 0 = ⟨0, -1, 0⟩ := by
  have e1 : (Pose.id : Pose ℝ).R.tr = M3.one := by simp [Pose.id, M3.tr, M3.one, M3.col, V3.get]
  refine ⟨Pose.id, ⟨M3.angleAxis Real.pi ⟨0, 0, 1⟩, 0⟩, (Real.pi, ⟨0, 0, 1⟩), 0, ⟨1, 0, 0⟩, Pose.id_rigid,
    M3.angleAxis_orthonormal (by norm_num [V3.dot]) _, ⟨by norm_num [V3.nrm, V3.dot], ?_, by rw [e1, M3.mul_one]⟩, ?_, ?_⟩
  · rw [abs_of_pos Real.pi_pos]; linarith [Real.pi_pos]
  all_goals
    rw [interp_apply _ (by norm_num)]
    have hp : ¬ Real.pi < 0 := not_lt.2 Real.pi_pos.le
    have hh : 1 / 2 * Real.pi = Real.pi / 2 := by ring
    simp only [Interp.make, if_neg hp, hh, M3.angleAxis_mulVec, Real.cos_pi_div_two, Real.sin_pi_div_two, Pose.apply,
      Real.cos_pi, Real.sin_pi]
    apply V3.ext' <;> norm_num [V3.cross, V3.dot, Pose.id, M3.one, M3.mulVec]

/-- **`InterpMotion(tf1, tf2, O)` leads nowhere in particular**: it does not compute the velocities. -/
theorem C96_violated_constructor (tf1 tf2 : Pose ℝ) (o : V3 ℝ) : ∃ lin ang axis, ¬ (interp (.makeAt tf1 o lin ang axis)).Leads tf1 tf2 := by
  refine ⟨tf2.t - tf1.t + ⟨1, 0, 0⟩, 0, 0, fun l => ?_⟩
  have h := congrArg (fun X : Pose ℝ => (X.t).x) l.stop
  simp only [interp, Interp.makeAt, clip_eq le_rfl, mul_zero, M3.angleAxis_zero, M3.one_mul, Pose.apply] at h
  simp at h
  linarith

/-- A spline without rotation: along the first axis by `6 t - 3 t²`. -/
noncomputable def exSpline : Spline := ⟨⟨-8, 0, 0⟩, ⟨1, 0, 0⟩, ⟨4, 0, 0⟩, ⟨1, 0, 0⟩, 0, 0, 0, 0⟩

theorem exSpline_integrate {t : ℝ} (ht : t ≤ 1) : exSpline.integrate t = ⟨⟨M3.one, ⟨6 * t - 3 * t * t, 0, 0⟩⟩, t⟩ := by
  have hb : Spline.blend t (0 : V3 ℝ) 0 0 0 = 0 := by rw [Spline.blend]; v3
  have e : Spline.blend t (⟨-8, 0, 0⟩ : V3 ℝ) ⟨1, 0, 0⟩ ⟨4, 0, 0⟩ ⟨1, 0, 0⟩ = ⟨6 * t - 3 * t * t, 0, 0⟩ := by
    rw [Spline.blend]
    apply V3.ext' <;> simp; ring
  simp only [Spline.integrate, exSpline, clip_eq ht, hb, V3.nrm_zero, M3.angleAxis_zero, e]

theorem exSpline_dw {eps : ℝ} (he : 0 < eps) (t : ℝ) : exSpline.dwMax eps t = 0 := by
  have h0 : (0 : V3 ℝ).dot 0 = 0 := by simp [V3.dot]
  have hz : PolySolver.isZero eps 0 = true := by simp [PolySolver.isZero, he]
  simp only [Spline.dwMax, exSpline, h0, zero_mul, add_zero, zero_div]
  simp [PolySolver.solveCubic, PolySolver.solveQuadric, PolySolver.solveLinear, hz, largest]

theorem exSpline_bound {eps : ℝ} (he : 0 < eps) (b : RSS ℝ) (n : V3 ℝ) {t : ℝ} (ht : t < 1) :
    (spline eps exSpline).bvBound ⟨⟨M3.one, ⟨6 * t - 3 * t * t, 0, 0⟩⟩, t⟩ b n = if 0 ≤ n.x then 3 * (1 - t) * (1 - t) * n.x else 0 := by
  have hm : min (1 - t) (0 : ℝ) = 0 := min_eq_right (by linarith)
  simp only [spline, exSpline_dw he, hm, mul_zero, zero_add]
  have ea : ((3 : ℝ) • (⟨1, 0, 0⟩ : V3 ℝ) - (3 : ℝ) • ⟨4, 0, 0⟩ + ⟨1, 0, 0⟩ - ⟨-8, 0, 0⟩).dot n = 0 := by
    simp [V3.dot]; left; norm_num
  have eb : ((3 : ℝ) • (⟨-8, 0, 0⟩ - (2 : ℝ) • ⟨1, 0, 0⟩ + ⟨4, 0, 0⟩ : V3 ℝ)).dot n = -18 * n.x := by
    simp [V3.dot]; ring
  have ec : ((3 : ℝ) • (⟨4, 0, 0⟩ - ⟨-8, 0, 0⟩ : V3 ℝ)).dot n = 36 * n.x := by
    simp [V3.dot]; left; norm_num
  simp only [Spline.tBound, exSpline, ea, eb, ec]
  have hq : -(36 * n.x) / (2 * (-18 * n.x)) = if n.x = 0 then 0 else 1 := by
    split_ifs with h
    · simp [h]
    · field_simp; norm_num
  rw [hq]
  simp only [if_true]
  have hmore : (if -18 * n.x * (-18 * n.x) - 3 * 0 * (36 * n.x) ≥ 0 then
      if -18 * n.x ≠ 0 then if (if n.x = 0 then (0 : ℝ) else 1) < 1 ∧ (if n.x = 0 then (0 : ℝ) else 1) > t then [if n.x = 0 then (0 : ℝ) else 1] else [] else []
      else []) = [] := by
    by_cases h : n.x = 0
    · simp [h]
    · simp [h]
  rw [hmore]
  simp only [List.map, largest, List.foldl]
  split_ifs with c1 c2 c2 <;> nlinarith [mul_self_nonneg (1 - t)]

/-- **C96 fails for splines.** The bound is how far the body still goes, not how fast it goes: a body that starts fast is underestimated
by a factor that the conservative advancement relies on. -/
theorem C96_violated_spline {eps : ℝ} (he : 0 < eps) : ¬ (spline eps exSpline).Bounds := by
  intro h
  have k := h.bv 0 (1 / 2) le_rfl (by norm_num) (by norm_num) ⟨M3.one, 0, 0, 0, 0⟩ ⟨M3.orthonormal_one, le_rfl, le_rfl, le_rfl⟩ ⟨1, 0, 0⟩ 0
    ⟨0, ⟨0, 0, le_rfl, le_rfl, le_rfl, le_rfl, by v3⟩, by simp [V3.dot]⟩
  have e0 : (spline eps exSpline).integrate 0 = ⟨⟨M3.one, ⟨6 * 0 - 3 * 0 * 0, 0, 0⟩⟩, 0⟩ := exSpline_integrate zero_le_one
  have e1 : (spline eps exSpline).integrate (1 / 2) = ⟨⟨M3.one, ⟨6 * (1 / 2) - 3 * (1 / 2) * (1 / 2), 0, 0⟩⟩, 1 / 2⟩ :=
    exSpline_integrate (by norm_num)
  rw [e0, e1, exSpline_bound he _ _ zero_lt_one] at k
  simp only [Pose.apply, M3.one_mulVec] at k
  norm_num [V3.dot] at k

/-- C96: After time 1 every motion stays where it is at time 1. -/
theorem C96_after {t : ℝ} (ht : 1 ≤ t) (tf1 tf2 : Pose ℝ) (i : Interp) (c : Screw) (s : Spline) :
    (translation tf1 tf2).integrate t = (translation tf1 tf2).integrate 1 ∧ (interp i).integrate t = (interp i).integrate 1 ∧
      (screw c).integrate t = (screw c).integrate 1 ∧ s.integrate t = s.integrate 1 := by
  have e : clip t = clip 1 := by
    rw [clip_eq le_rfl, clip]
    split_ifs with h
    · rfl
    · exact le_antisymm (not_lt.1 h) ht
  simp only [translation, interp, screw, Spline.integrate, e, and_self]

end Motion
end Fcl
