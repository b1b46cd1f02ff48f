import Verif.Taylor.Spec
import Verif.Props.Interval

/-!
# C38: arithmetic of Taylor models; C59: vectors and matrices of Taylor models
-/

set_option linter.unusedSectionVars false
set_option linter.unusedSimpArgs false

namespace Fcl
variable {K : Type*} [Field K] [LinearOrder K] [IsStrictOrderedRing K]
open Iv TM

variable {l r : K}

theorem Encl.of_eq {m : TM K} {f g : K → K} (h : Encl l r m f) (e : ∀ t, g t = f t) : Encl l r m g :=
  fun t ht => by rw [e]; exact h t ht

/-- C38, sums and differences. -/
theorem C38_add {a b : TM K} {f g : K → K} (hf : Encl l r a f) (hg : Encl l r b g) :
    Encl l r (a.add b) (fun t => f t + g t) := by
  intro t ht
  have := add_mem (hf t ht) (hg t ht)
  have e : f t + g t - (a.add b).poly t = f t - a.poly t + (g t - b.poly t) := by simp only [TM.add, TM.poly]; ring
  rw [e]; exact this

@[inherit_doc C38_add] theorem C38_sub {a b : TM K} {f g : K → K} (hf : Encl l r a f) (hg : Encl l r b g) :
    Encl l r (a.sub b) (fun t => f t - g t) := by
  intro t ht
  have := sub_mem (hf t ht) (hg t ht)
  have e : f t - g t - (a.sub b).poly t = f t - a.poly t - (g t - b.poly t) := by simp only [TM.sub, TM.poly]; ring
  rw [e]; exact this

/-- C38, product with a number and negation. -/
theorem C38_scale {a : TM K} {f : K → K} (hf : Encl l r a f) (d : K) : Encl l r (a.scale d) (fun t => f t * d) := by
  intro t ht
  have := scale_mem (hf t ht) d
  have e : f t * d - (a.scale d).poly t = (f t - a.poly t) * d := by simp only [TM.scale, TM.poly]; ring
  rw [e]; exact this

@[inherit_doc C38_scale] theorem C38_neg {a : TM K} {f : K → K} (hf : Encl l r a f) :
    Encl l r a.neg (fun t => -f t) := by
  intro t ht
  have := neg_mem (hf t ht)
  have e : -f t - a.neg.poly t = -(f t - a.poly t) := by simp only [TM.neg, TM.poly]; ring
  rw [e]; exact this

/-- C38, sum, difference with a number, on either side. -/
theorem C38_scalar {a : TM K} {f : K → K} (hf : Encl l r a f) (d : K) :
    Encl l r (a.addS d) (fun t => f t + d) ∧ Encl l r (a.subS d) (fun t => f t - d) ∧
      Encl l r (TM.rsubS d a) (fun t => d - f t) := by
  refine ⟨fun t ht => ?_, fun t ht => ?_, fun t ht => ?_⟩
  · have e : f t + d - (a.addS d).poly t = f t - a.poly t := by simp only [TM.addS, TM.poly]; ring
    rw [e]; exact hf t ht
  · have e : f t - d - (a.subS d).poly t = f t - a.poly t := by simp only [TM.subS, TM.poly]; ring
    rw [e]; exact hf t ht
  · have e : d - f t - (TM.rsubS d a).poly t = -(f t - a.poly t) := by
      simp only [TM.rsubS, TM.addS, TM.neg, TM.poly]; ring
    rw [e]; exact neg_mem (hf t ht)

/-- C38, models of constants and of linear functions. -/
theorem C38_generators (c p v : K) :
    Encl l r (TM.const c) (fun _ => c) ∧ Encl l r (TM.linear p v) (fun t => p + t * v) ∧
      Encl l r TM.zero (fun _ => 0) := by
  refine ⟨fun t _ => ?_, fun t _ => ?_, fun t _ => ?_⟩ <;>
    simp only [TM.const, TM.linear, TM.zero, TM.poly, Iv.set, Iv.pt, Set.mem_Icc] <;> constructor <;>
    (apply le_of_eq; ring)

theorem Iv.pt_mem (c : K) : c ∈ (Iv.pt c).set := ⟨le_rfl, le_rfl⟩

theorem TimeIv.pow_mem {t : K} (hl : 0 ≤ l) (ht : t ∈ Set.Icc l r) :
    t ∈ (TimeIv.of l r).t.set ∧ t ^ 2 ∈ (TimeIv.of l r).t2.set ∧ t ^ 3 ∈ (TimeIv.of l r).t3.set ∧
      t ^ 4 ∈ (TimeIv.of l r).t4.set ∧ t ^ 5 ∈ (TimeIv.of l r).t5.set ∧ t ^ 6 ∈ (TimeIv.of l r).t6.set := by
  obtain ⟨h1, h2⟩ := ht
  have h0 := hl.trans h1
  have A : ∀ n, l ^ n ≤ t ^ n := fun n => pow_le_pow_left₀ hl h1 n
  have B : ∀ n, t ^ n ≤ r ^ n := fun n => pow_le_pow_left₀ h0 h2 n
  refine ⟨⟨h1, h2⟩, ⟨?_, ?_⟩, ⟨?_, ?_⟩, ⟨?_, ?_⟩, ⟨?_, ?_⟩, ⟨?_, ?_⟩⟩ <;> simp only [TimeIv.of]
  · convert A 2 using 1; ring
  · convert B 2 using 1; ring
  · convert A 3 using 1; ring
  · convert B 3 using 1; ring
  · convert A 4 using 1; ring
  · convert B 4 using 1; ring
  · convert A 5 using 1; ring
  · convert B 5 using 1; ring
  · convert A 6 using 1; ring
  · convert B 6 using 1; ring

/-- C38, product, over times that are not negative. For other times see `C38_mul_negative_time`. -/
theorem C38_mul_partial {a b : TM K} {f g : K → K} (hl : 0 ≤ l) (hf : Encl l r a f) (hg : Encl l r b g) :
    Encl l r (a.mul (TimeIv.of l r) b) (fun t => f t * g t) := by
  intro t ht
  obtain ⟨m1, m2, m3, m4, m5, m6⟩ := TimeIv.pow_mem hl ht
  have hf := hf t ht
  have hg := hg t ht
  have pf := add_mem (add_mem (add_mem (pt_mem a.c0) (scale_mem m1 a.c1)) (scale_mem m2 a.c2)) (scale_mem m3 a.c3)
  have pg := add_mem (add_mem (add_mem (pt_mem b.c0) (scale_mem m1 b.c1)) (scale_mem m2 b.c2)) (scale_mem m3 b.c3)
  have := add_mem (add_mem (add_mem (add_mem (mul_mem hf hg)
    (scale_mem m4 (a.c1 * b.c3 + a.c2 * b.c2 + a.c3 * b.c1))) (scale_mem m5 (a.c2 * b.c3 + a.c3 * b.c2)))
    (scale_mem m6 (a.c3 * b.c3))) (add_mem (mul_mem pf hg) (mul_mem pg hf))
  have e : f t * g t - (a.mul (TimeIv.of l r) b).poly t =
      (f t - a.poly t) * (g t - b.poly t) + t ^ 4 * (a.c1 * b.c3 + a.c2 * b.c2 + a.c3 * b.c1) +
        t ^ 5 * (a.c2 * b.c3 + a.c3 * b.c2) + t ^ 6 * (a.c3 * b.c3) +
        ((a.c0 + t * a.c1 + t ^ 2 * a.c2 + t ^ 3 * a.c3) * (g t - b.poly t) +
          (b.c0 + t * b.c1 + t ^ 2 * b.c2 + t ^ 3 * b.c3) * (f t - a.poly t)) := by
    simp only [TM.mul, TM.poly]; ring
  rw [e]; exact this

/-- C38 fails for products over times of both signs: the powers of the time interval are computed as if it were
not negative. Over `[-1, 1]`, the model of `t * t ^ 3` does not contain the value at time zero. -/
theorem C38_mul_negative_time :
    Encl (-1 : ℚ) 1 ⟨0, 1, 0, 0, ⟨0, 0⟩⟩ (fun t => t) ∧ Encl (-1 : ℚ) 1 ⟨0, 0, 0, 1, ⟨0, 0⟩⟩ (fun t => t ^ 3) ∧
      ¬ Encl (-1 : ℚ) 1 (TM.mul (TimeIv.of (-1) 1) ⟨0, 1, 0, 0, ⟨0, 0⟩⟩ ⟨0, 0, 0, 1, ⟨0, 0⟩⟩) (fun t => t * t ^ 3) := by
  refine ⟨fun t _ => ?_, fun t _ => ?_, fun h => ?_⟩
  · simp only [TM.poly, Iv.set, Set.mem_Icc]; constructor <;> (apply le_of_eq; ring)
  · simp only [TM.poly, Iv.set, Set.mem_Icc]; constructor <;> (apply le_of_eq; ring)
  · have := (h 0 ⟨by norm_num, by norm_num⟩).1
    revert this
    decide +kernel

/-- C38, `getBound(t)` contains the value at time `t`. -/
theorem C38_boundAt {a : TM K} {f : K → K} (hf : Encl l r a f) {t : K} (ht : t ∈ Set.Icc l r) :
    f t ∈ (a.boundAt t).set := by
  have := add_mem (pt_mem (a.c0 + t * (a.c1 + t * (a.c2 + t * a.c3)))) (hf t ht)
  have e : f t = a.c0 + t * (a.c1 + t * (a.c2 + t * a.c3)) + (f t - a.poly t) := by simp only [TM.poly]; ring
  rw [e]; exact this

/-- C38, `getBound(t0, t1)` contains the value at each time between, when `t0` is not negative. -/
theorem C38_boundOn_partial {a : TM K} {f : K → K} (hf : Encl l r a f) {t0 t1 : K} (h0 : 0 ≤ t0) {t : K}
    (ht : t ∈ Set.Icc l r) (h : t ∈ Set.Icc t0 t1) : f t ∈ (a.boundOn t0 t1).set := by
  obtain ⟨m1, m2, m3, -⟩ := TimeIv.pow_mem h0 h
  have := add_mem (add_mem (add_mem (add_mem (pt_mem a.c0) (scale_mem m1 a.c1)) (scale_mem m2 a.c2))
    (scale_mem m3 a.c3)) (hf t ht)
  have e : f t = a.c0 + t * a.c1 + t ^ 2 * a.c2 + t ^ 3 * a.c3 + (f t - a.poly t) := by simp only [TM.poly]; ring
  rw [e]
  exact this

/-- C38 fails for `getBound(t0, t1)` when `t0` is negative: the square of the time over `[-1, 1]`. -/
theorem C38_boundOn_negative_time :
    Encl (-1 : ℚ) 1 ⟨0, 0, 1, 0, ⟨0, 0⟩⟩ (fun t => t ^ 2) ∧
      (0 : ℚ) ^ 2 ∉ (TM.boundOn (⟨0, 0, 1, 0, ⟨0, 0⟩⟩ : TM ℚ) (-1) 1).set := by
  refine ⟨fun t _ => ?_, fun h => ?_⟩
  · simp only [TM.poly, Iv.set, Set.mem_Icc]; constructor <;> (apply le_of_eq; ring)
  · have := h.1
    revert this
    decide +kernel

/-- C38, `getBound()` contains every value when the constant coefficient is not larger than the linear one, which
the code uses instead of it for the upper end. See `C38_bound_wrong`. -/
theorem C38_bound_partial {a : TM K} {f : K → K} (hf : Encl l r a f) (hl : 0 ≤ l) (hc : a.c0 ≤ a.c1) {t : K}
    (ht : t ∈ Set.Icc l r) : f t ∈ (a.bound (TimeIv.of l r)).set := by
  obtain ⟨m1, m2, m3, -⟩ := TimeIv.pow_mem hl ht
  have h1 : f t - a.poly t + a.c0 ∈ (⟨a.c0 + a.r.lo, a.c1 + a.r.hi⟩ : Iv K).set := by
    obtain ⟨p, q⟩ := hf t ht
    simp only [Iv.set, Set.mem_Icc]
    constructor <;> linarith
  have := add_mem (add_mem (add_mem h1 (scale_mem m1 a.c1)) (scale_mem m2 a.c2)) (scale_mem m3 a.c3)
  have e : f t = f t - a.poly t + a.c0 + t * a.c1 + t ^ 2 * a.c2 + t ^ 3 * a.c3 := by simp only [TM.poly]; ring
  rw [e]
  exact this

/-- C38 fails for `getBound()` on every positive constant: the result does not contain it. -/
theorem C38_bound_wrong (hl : 0 ≤ l) {c : K} (hc : 0 < c) :
    Encl l r (TM.const c) (fun _ => c) ∧ c ∉ ((TM.const c).bound (TimeIv.of l r)).set := by
  refine ⟨(C38_generators c 0 0).1, fun h => ?_⟩
  have := h.2
  simp only [TM.bound, TM.const, Iv.add, Iv.scale, TimeIv.of, ge_iff_le, le_refl, if_true, mul_zero, add_zero] at this
  linarith

/-- A model, and a function it encloses over times that are not negative. -/
example : Encl (0 : ℚ) 1 ⟨1, 2, 0, 0, ⟨0, 1⟩⟩ (fun t => 1 + 2 * t + t ^ 2) ∧ (0 : ℚ) ≤ 0 ∧
    Encl (0 : ℚ) 1 (TM.mul (TimeIv.of 0 1) ⟨1, 2, 0, 0, ⟨0, 1⟩⟩ ⟨1, 2, 0, 0, ⟨0, 1⟩⟩)
      (fun t => (1 + 2 * t + t ^ 2) * (1 + 2 * t + t ^ 2)) := by
  have h : Encl (0 : ℚ) 1 ⟨1, 2, 0, 0, ⟨0, 1⟩⟩ (fun t => 1 + 2 * t + t ^ 2) := by
    rintro t ⟨h1, h2⟩
    simp only [TM.poly, Iv.set, Set.mem_Icc]
    constructor <;> nlinarith
  exact ⟨h, le_rfl, C38_mul_partial le_rfl h h⟩

/-! ### Vectors and matrices -/

/-- C59, vectors, operations that are right for all times. -/
theorem C59_vec {a b : TVec K} {f g : K → V3 K} (hf : EnclV l r a f) (hg : EnclV l r b g) (v : V3 K) (d : K) :
    EnclV l r (a.add b) (fun t => f t + g t) ∧ EnclV l r (a.sub b) (fun t => f t - g t) ∧
      EnclV l r a.neg (fun t => -f t) ∧ EnclV l r (a.addV v) (fun t => f t + v) ∧
      EnclV l r (a.subV v) (fun t => f t - v) ∧ EnclV l r (TVec.rsubV v a) (fun t => v - f t) ∧
      EnclV l r (a.scale d) (fun t => d • f t) ∧ Encl l r (a.dotV v) (fun t => (f t).dot v) ∧
      EnclV l r (a.crossV v) (fun t => (f t).cross v) := by
  obtain ⟨f0, f1, f2⟩ := hf
  obtain ⟨g0, g1, g2⟩ := hg
  refine ⟨⟨C38_add f0 g0, C38_add f1 g1, C38_add f2 g2⟩, ⟨C38_sub f0 g0, C38_sub f1 g1, C38_sub f2 g2⟩,
    ⟨C38_neg f0, C38_neg f1, C38_neg f2⟩, ⟨(C38_scalar f0 _).1, (C38_scalar f1 _).1, (C38_scalar f2 _).1⟩,
    ⟨(C38_scalar f0 _).2.1, (C38_scalar f1 _).2.1, (C38_scalar f2 _).2.1⟩,
    ⟨(C38_scalar f0 _).2.2, (C38_scalar f1 _).2.2, (C38_scalar f2 _).2.2⟩,
    ⟨(C38_scale f0 d).of_eq fun t => mul_comm _ _, (C38_scale f1 d).of_eq fun t => mul_comm _ _,
      (C38_scale f2 d).of_eq fun t => mul_comm _ _⟩,
    C38_add (C38_add (C38_scale f0 _) (C38_scale f1 _)) (C38_scale f2 _),
    ⟨C38_sub (C38_scale f1 _) (C38_scale f2 _), C38_sub (C38_scale f2 _) (C38_scale f0 _),
      C38_sub (C38_scale f0 _) (C38_scale f1 _)⟩⟩

theorem EnclV.dot {a b : TVec K} {f g : K → V3 K} (hl : 0 ≤ l) (hf : EnclV l r a f) (hg : EnclV l r b g) :
    Encl l r (a.dot (TimeIv.of l r) b) (fun t => (f t).dot (g t)) :=
  C38_add (C38_add (C38_mul_partial hl hf.1 hg.1) (C38_mul_partial hl hf.2.1 hg.2.1)) (C38_mul_partial hl hf.2.2 hg.2.2)

/-- C59, vectors, products over times that are not negative. -/
theorem C59_vec_products_partial {a b : TVec K} {f g : K → V3 K} {c : TM K} {h : K → K} (hl : 0 ≤ l)
    (hf : EnclV l r a f) (hg : EnclV l r b g) (hh : Encl l r c h) :
    Encl l r (a.dot (TimeIv.of l r) b) (fun t => (f t).dot (g t)) ∧
      EnclV l r (a.cross (TimeIv.of l r) b) (fun t => (f t).cross (g t)) ∧
      EnclV l r (a.mulT (TimeIv.of l r) c) (fun t => h t • f t) ∧
      Encl l r (a.squareLength (TimeIv.of l r)) (fun t => (f t).dot (f t)) := by
  refine ⟨hf.dot hl hg, ?_, ?_, hf.dot hl hf⟩
  · obtain ⟨f0, f1, f2⟩ := hf
    obtain ⟨g0, g1, g2⟩ := hg
    exact ⟨C38_sub (C38_mul_partial hl f1 g2) (C38_mul_partial hl f2 g1),
      C38_sub (C38_mul_partial hl f2 g0) (C38_mul_partial hl f0 g2),
      C38_sub (C38_mul_partial hl f0 g1) (C38_mul_partial hl f1 g0)⟩
  · exact ⟨(C38_mul_partial hl hf.1 hh).of_eq fun t => mul_comm _ _,
      (C38_mul_partial hl hf.2.1 hh).of_eq fun t => mul_comm _ _,
      (C38_mul_partial hl hf.2.2 hh).of_eq fun t => mul_comm _ _⟩

/-- C59, vectors made from constants, from a linear motion, and from a scalar model. -/
theorem C59_vec_generators (p v : V3 K) {c : TM K} {h : K → K} (hh : Encl l r c h) :
    EnclV l r (TVec.const v) (fun _ => v) ∧ EnclV l r (TVec.linear p v) (fun t => p + t • v) ∧
      EnclV l r (TVec.ofScalar v c) (fun t => h t • v) ∧ EnclV l r TVec.zero (fun _ => 0) :=
  ⟨⟨(C38_generators _ 0 0).1, (C38_generators _ 0 0).1, (C38_generators _ 0 0).1⟩,
   ⟨(C38_generators 0 _ _).2.1, (C38_generators 0 _ _).2.1, (C38_generators 0 _ _).2.1⟩,
   ⟨C38_scale hh _, C38_scale hh _, C38_scale hh _⟩,
   ⟨(C38_generators 0 0 0).2.2, (C38_generators 0 0 0).2.2, (C38_generators 0 0 0).2.2⟩⟩

/-- C59, bounds of a vector at a time, and over times that are not negative. -/
theorem C59_vec_bounds_partial {a : TVec K} {f : K → V3 K} (hf : EnclV l r a f) {t : K} (ht : t ∈ Set.Icc l r) :
    f t ∈ (a.boundAt t).set ∧ ∀ t0 t1, 0 ≤ t0 → t ∈ Set.Icc t0 t1 → f t ∈ (a.boundOn t0 t1).set :=
  ⟨⟨C38_boundAt hf.1 ht, C38_boundAt hf.2.1 ht, C38_boundAt hf.2.2 ht⟩, fun _ _ h0 h =>
    ⟨C38_boundOn_partial hf.1 h0 ht h, C38_boundOn_partial hf.2.1 h0 ht h, C38_boundOn_partial hf.2.2 h0 ht h⟩⟩

theorem EnclM.col {a : TMat K} {f : K → M3 K} (hf : EnclM l r a f) (i : Fin 3) :
    EnclV l r (a.col i) (fun t => (f t).col i) := by
  obtain ⟨⟨h00, h01, h02⟩, ⟨h10, h11, h12⟩, h20, h21, h22⟩ := hf
  match i with
  | 0 => exact ⟨h00, h10, h20⟩
  | 1 => exact ⟨h01, h11, h21⟩
  | 2 => exact ⟨h02, h12, h22⟩

/-- C59, matrices, operations that are right for all times. -/
theorem C59_mat {a b : TMat K} {f g : K → M3 K} (hf : EnclM l r a f) (hg : EnclM l r b g) (m : M3 K) (v : V3 K)
    (d : K) :
    EnclM l r (a.add b) (fun t => ⟨(f t).r0 + (g t).r0, (f t).r1 + (g t).r1, (f t).r2 + (g t).r2⟩) ∧
      EnclM l r (a.sub b) (fun t => ⟨(f t).r0 - (g t).r0, (f t).r1 - (g t).r1, (f t).r2 - (g t).r2⟩) ∧
      EnclM l r a.neg (fun t => ⟨-(f t).r0, -(f t).r1, -(f t).r2⟩) ∧
      EnclM l r (a.addM m) (fun t => ⟨(f t).r0 + m.r0, (f t).r1 + m.r1, (f t).r2 + m.r2⟩) ∧
      EnclM l r (a.subM m) (fun t => ⟨(f t).r0 - m.r0, (f t).r1 - m.r1, (f t).r2 - m.r2⟩) ∧
      EnclM l r (TMat.rsubM m a) (fun t => ⟨m.r0 - (f t).r0, m.r1 - (f t).r1, m.r2 - (f t).r2⟩) ∧
      EnclM l r (a.scale d) (fun t => ⟨d • (f t).r0, d • (f t).r1, d • (f t).r2⟩) ∧
      EnclV l r (a.mulVec v) (fun t => (f t).mulVec v) ∧ EnclM l r (a.mulMat m) (fun t => (f t).mul m) ∧
      EnclM l r (TMat.const m) (fun _ => m) ∧ EnclM l r TMat.identity (fun _ => M3.one) := by
  obtain ⟨f0, f1, f2⟩ := hf
  obtain ⟨g0, g1, g2⟩ := hg
  have V := fun (w : V3 K) => C59_vec f0 g0 w d
  have V1 := fun (w : V3 K) => C59_vec f1 g1 w d
  have V2 := fun (w : V3 K) => C59_vec f2 g2 w d
  have D := fun w => (V w).2.2.2.2.2.2.2.1
  have D1 := fun w => (V1 w).2.2.2.2.2.2.2.1
  have D2 := fun w => (V2 w).2.2.2.2.2.2.2.1
  have Z := (C38_generators (l := l) (r := r) (0 : K) 0 0).2.2
  have O := (C38_generators (l := l) (r := r) (1 : K) 0 0).1
  have C := fun c : K => (C38_generators (l := l) (r := r) c 0 0).1
  exact ⟨⟨(V v).1, (V1 v).1, (V2 v).1⟩, ⟨(V v).2.1, (V1 v).2.1, (V2 v).2.1⟩,
    ⟨(V v).2.2.1, (V1 v).2.2.1, (V2 v).2.2.1⟩, ⟨(V _).2.2.2.1, (V1 _).2.2.2.1, (V2 _).2.2.2.1⟩,
    ⟨(V _).2.2.2.2.1, (V1 _).2.2.2.2.1, (V2 _).2.2.2.2.1⟩,
    ⟨(V _).2.2.2.2.2.1, (V1 _).2.2.2.2.2.1, (V2 _).2.2.2.2.2.1⟩,
    ⟨(V v).2.2.2.2.2.2.1, (V1 v).2.2.2.2.2.2.1, (V2 v).2.2.2.2.2.2.1⟩,
    ⟨D _, D1 _, D2 _⟩, ⟨⟨D _, D _, D _⟩, ⟨D1 _, D1 _, D1 _⟩, ⟨D2 _, D2 _, D2 _⟩⟩,
    ⟨⟨C _, C _, C _⟩, ⟨C _, C _, C _⟩, ⟨C _, C _, C _⟩⟩, ⟨⟨O, Z, Z⟩, ⟨Z, O, Z⟩, ⟨Z, Z, O⟩⟩⟩

/-- C59, matrices, products over times that are not negative. -/
theorem C59_mat_products_partial {a b : TMat K} {f g : K → M3 K} {u : TVec K} {v : K → V3 K} {c : TM K} {h : K → K}
    (hl : 0 ≤ l) (hf : EnclM l r a f) (hg : EnclM l r b g) (hv : EnclV l r u v) (hh : Encl l r c h) :
    EnclM l r (a.mul (TimeIv.of l r) b) (fun t => (f t).mul (g t)) ∧
      EnclV l r (a.mulTVec (TimeIv.of l r) u) (fun t => (f t).mulVec (v t)) ∧
      EnclM l r (a.mulT (TimeIv.of l r) c) (fun t => ⟨h t • (f t).r0, h t • (f t).r1, h t • (f t).r2⟩) := by
  have gc := hg.col
  obtain ⟨f0, f1, f2⟩ := hf
  exact ⟨⟨⟨f0.dot hl (gc 0), f0.dot hl (gc 1), f0.dot hl (gc 2)⟩,
      ⟨f1.dot hl (gc 0), f1.dot hl (gc 1), f1.dot hl (gc 2)⟩,
      ⟨f2.dot hl (gc 0), f2.dot hl (gc 1), f2.dot hl (gc 2)⟩⟩,
    ⟨f0.dot hl hv, f1.dot hl hv, f2.dot hl hv⟩,
    ⟨(C59_vec_products_partial hl f0 f0 hh).2.2.1, (C59_vec_products_partial hl f1 f1 hh).2.2.1,
      (C59_vec_products_partial hl f2 f2 hh).2.2.1⟩⟩

/-- C59, bounds of a matrix at a time, and over times that are not negative. -/
theorem C59_mat_bounds_partial {a : TMat K} {f : K → M3 K} (hf : EnclM l r a f) {t : K} (ht : t ∈ Set.Icc l r) :
    f t ∈ (a.boundAt t).set ∧ ∀ t0 t1, 0 ≤ t0 → t ∈ Set.Icc t0 t1 → f t ∈ (a.boundOn t0 t1).set := by
  obtain ⟨f0, f1, f2⟩ := hf
  have b0 := C59_vec_bounds_partial f0 ht
  have b1 := C59_vec_bounds_partial f1 ht
  have b2 := C59_vec_bounds_partial f2 ht
  exact ⟨⟨b0.1, b1.1, b2.1⟩, fun t0 t1 h0 h => ⟨b0.2 t0 t1 h0 h, b1.2 t0 t1 h0 h, b2.2 t0 t1 h0 h⟩⟩

/-- C59 fails for the product of a matrix and a scalar model: the identity times the constant `1` has a zero in
the last entry of the diagonal. -/
theorem C59_mat_scalar_wrong :
    Encl (0 : ℚ) 1 (TM.const 1) (fun _ => 1) ∧
      ¬ EnclM (0 : ℚ) 1 (TMat.ofScalar M3.one (TM.const 1)) (fun _ => M3.one) := by
  refine ⟨(C38_generators 1 0 0).1, fun h => ?_⟩
  have := (h.2.2.2.2 0 ⟨le_rfl, by norm_num⟩).2
  revert this
  decide +kernel

/-- C59 fails for `TMatrix3::rotationConstrain`: it clamps the remainder, not the values, so a rotation enclosed by
a wide model is lost. -/
theorem C59_rotationConstrain_wrong :
    Encl (0 : ℚ) 1 ⟨1, 0, 0, 0, ⟨-2, 0⟩⟩ (fun _ => -1) ∧
      ¬ Encl (0 : ℚ) 1 (TMat.clamp ⟨1, 0, 0, 0, ⟨-2, 0⟩⟩) (fun _ => -1) := by
  refine ⟨fun t _ => ?_, fun h => ?_⟩
  · simp only [TM.poly, Iv.set, Set.mem_Icc]; constructor <;> norm_num
  · have := (h 0 ⟨le_rfl, by norm_num⟩).1
    revert this
    decide +kernel

/-- C59, `rotationConstrain` leaves an entry alone when its remainder is inside `[-1, 1]` and is not all of it. -/
theorem C59_rotationConstrain_partial {a : TM K} (h0 : -1 ≤ a.r.lo) (h1 : a.r.hi ≤ 1) (hv : a.r.Valid)
    (hn : a.r.lo ≠ -1 ∨ a.r.hi ≠ 1) : TMat.clamp a = a := by
  simp only [Iv.Valid] at hv
  have e0 : IMat.clampEnd a.r.lo = a.r.lo := by
    rw [IMat.clampEnd_eq, min_eq_left (hv.trans h1), max_eq_right h0]
  have e1 : IMat.clampEnd a.r.hi = a.r.hi := by
    rw [IMat.clampEnd_eq, min_eq_left h1, max_eq_right (h0.trans hv)]
  unfold TMat.clamp
  simp only [e0, e1]
  rw [if_neg (by rintro ⟨h, h'⟩; rcases hn with hn | hn <;> contradiction)]

/-- A rotating frame's linear motion, an instance of the hypotheses. -/
example : EnclV (0 : ℚ) 1 (TVec.linear ⟨1, 2, 3⟩ ⟨1, 0, -1⟩) (fun t => (⟨1, 2, 3⟩ : V3 ℚ) + t • (⟨1, 0, -1⟩ : V3 ℚ)) :=
  (C59_vec_generators _ _ (C38_generators 0 0 0).1).2.1

end Fcl
