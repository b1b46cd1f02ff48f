import Verif.Rand.Model
import Verif.Rand.Seed
import Verif.OBB.MergeLemmas
import Verif.Geom.Thick
import Mathlib.Tactic.NormNum
import Mathlib.Tactic.LinearCombination
import Mathlib.Tactic.FieldSimp
import Mathlib.Algebra.Order.Archimedean.Basic

/-! # C105, C106: random numbers, samplers and seeds -/

namespace Fcl
namespace Rand
open Real

/-! ## Specification -/

/-- The numbers of `std::uniform_real_distribution<>(0, 1)`. Nothing is assumed of the normal distribution. -/
def Gen.Valid (g : Gen) : Prop := ∀ k, 0 ≤ g.uni k ∧ g.uni k < 1

/-- Within bounds. -/
def Within (lower upper x : ℝ) : Prop := lower ≤ x ∧ x ≤ upper

/-! ## Real numbers, integers -/

theorem uniformReal_rest {l u : ℝ} {g : Gen} (h : g.Valid) : (uniformReal l u g).2.Valid := fun k => h (k + 1)

/-- **C105.** `uniformReal`: at least the lower bound, and less than the upper bound unless both are equal. -/
theorem C105_real {l u : ℝ} (hl : l ≤ u) {g : Gen} (h : g.Valid) :
    Within l u (uniformReal l u g).1 ∧ (l < u → (uniformReal l u g).1 < u) := by
  obtain ⟨h0, h1⟩ := h 0
  show (l ≤ (u - l) * g.uni 0 + l ∧ (u - l) * g.uni 0 + l ≤ u) ∧ (l < u → (u - l) * g.uni 0 + l < u)
  refine ⟨⟨by nlinarith, by nlinarith⟩, fun hlu => by nlinarith⟩

/-- **C105.** `uniformInt`: an integer within the bounds, and each of them for numbers of the generator from an interval of
the same length. -/
theorem C105_int {l u : ℤ} (hl : l ≤ u) {g : Gen} (h : g.Valid) : l ≤ (uniformInt l u g).1 ∧ (uniformInt l u g).1 ≤ u ∧
    ∀ k : ℤ, l ≤ k → k ≤ u → ((uniformInt l u g).1 = k ↔
      ((k - l : ℤ) : ℝ) / ((u - l + 1 : ℤ) : ℝ) ≤ g.uni 0 ∧ g.uni 0 < ((k - l + 1 : ℤ) : ℝ) / ((u - l + 1 : ℤ) : ℝ)) := by
  obtain ⟨h0, h1⟩ := h 0
  have hN : (0 : ℝ) < ((u - l + 1 : ℤ) : ℝ) := by exact_mod_cast (by omega : 0 < u - l + 1)
  have e : ((u : ℝ) + 1 - l) = ((u - l + 1 : ℤ) : ℝ) := by push_cast; ring
  have hlt : ⌊((u : ℝ) + 1 - l) * g.uni 0 + l⌋ < u + 1 := by
    rw [Int.floor_lt]
    push_cast
    rw [e]
    have : ((u - l + 1 : ℤ) : ℝ) * g.uni 0 < ((u - l + 1 : ℤ) : ℝ) * 1 := mul_lt_mul_of_pos_left h1 hN
    push_cast at this ⊢
    linarith
  have hge : l ≤ ⌊((u : ℝ) + 1 - l) * g.uni 0 + l⌋ := by
    rw [Int.le_floor, e]
    have : 0 ≤ ((u - l + 1 : ℤ) : ℝ) * g.uni 0 := mul_nonneg hN.le h0
    linarith
  have hv : (uniformInt l u g).1 = ⌊((u : ℝ) + 1 - l) * g.uni 0 + l⌋ := by
    show (if ⌊((u : ℝ) + 1 - l) * g.uni 0 + l⌋ > u then u else _) = _
    rw [if_neg (by omega)]
  rw [hv]
  refine ⟨hge, by omega, fun k _ _ => ?_⟩
  rw [Int.floor_eq_iff, e, div_le_iff₀ hN, lt_div_iff₀ hN]
  push_cast
  constructor
  · rintro ⟨h2, h3⟩; exact ⟨by linarith, by linarith⟩
  · rintro ⟨h2, h3⟩; exact ⟨by linarith, by linarith⟩

/-- **C105.** `uniformBool`: true for one half of the numbers. -/
theorem C105_bool (g : Gen) : (uniformBool g).1 = true ↔ g.uni 0 ≤ 1 / 2 := by
  show decide (g.uni 0 ≤ 0.5) = true ↔ _
  rw [decide_eq_true_iff]
  norm_num

/-- **C105.** `halfNormalReal`: within the bounds, whatever the normal distribution gives. -/
theorem C105_halfNormal {a b : ℝ} (hab : a ≤ b) (focus : ℝ) (g : Gen) : Within a b (halfNormalReal a b focus g).1 := by
  show Within a b (if (if (if g.nor 0 * ((b - a) / focus) + (b - a) > b - a then 2 * (b - a) - (g.nor 0 * ((b - a) / focus) + (b - a))
    else g.nor 0 * ((b - a) / focus) + (b - a)) ≥ 0 then _ + a else a) > b then b else _)
  generalize (if g.nor 0 * ((b - a) / focus) + (b - a) > b - a then 2 * (b - a) - (g.nor 0 * ((b - a) / focus) + (b - a))
    else g.nor 0 * ((b - a) / focus) + (b - a)) = v
  unfold Within
  split_ifs <;> constructor <;> linarith

/-- **C105.** `halfNormalInt`: within the bounds. -/
theorem C105_halfNormalInt {a b : ℤ} (hab : a ≤ b) (focus : ℝ) (g : Gen) :
    a ≤ (halfNormalInt a b focus g).1 ∧ (halfNormalInt a b focus g).1 ≤ b := by
  have h := (C105_halfNormal (a := (a : ℝ)) (b := (b : ℝ) + 1) (by exact_mod_cast (by omega : a ≤ b + 1)) focus g).1
  have h' : a ≤ ⌊(halfNormalReal (a : ℝ) ((b : ℝ) + 1) focus g).1⌋ := Int.le_floor.2 h
  have e : (halfNormalInt a b focus g).1 = if ⌊(halfNormalReal (a : ℝ) ((b : ℝ) + 1) focus g).1⌋ > b then b
      else ⌊(halfNormalReal (a : ℝ) ((b : ℝ) + 1) focus g).1⌋ := rfl
  rw [e]
  generalize ⌊(halfNormalReal (a : ℝ) ((b : ℝ) + 1) focus g).1⌋ = v at *
  split_ifs <;> constructor <;> omega

/-! ## Directions, discs and balls -/

/-- **C105.** `quaternion`: a unit quaternion, so its matrix is a rotation. -/
theorem C105_quaternion {g : Gen} (h : g.Valid) :
    let q := (quaternion g).1
    q.1 ^ 2 + q.2.1 ^ 2 + q.2.2.1 ^ 2 + q.2.2.2 ^ 2 = 1 ∧ (OBB.Quat.toMat ⟨q.1, q.2.1, q.2.2.1, q.2.2.2⟩).Orthonormal := by
  obtain ⟨h0, h1⟩ := h 0
  have key : (sin (2 * π * g.uni 1) * √(1 - g.uni 0)) ^ 2 + (cos (2 * π * g.uni 1) * √(1 - g.uni 0)) ^ 2 +
      (sin (2 * π * g.uni 2) * √(g.uni 0)) ^ 2 + (cos (2 * π * g.uni 2) * √(g.uni 0)) ^ 2 = 1 := by
    have e1 := sq_sqrt (by linarith : 0 ≤ 1 - g.uni 0)
    have e2 := sq_sqrt h0
    have e3 := sin_sq_add_cos_sq (2 * π * g.uni 1)
    have e4 := sin_sq_add_cos_sq (2 * π * g.uni 2)
    linear_combination √(1 - g.uni 0) ^ 2 * e3 + √(g.uni 0) ^ 2 * e4 + e1 + e2
  refine ⟨key, OBB.Quat.toMat_orthonormal ?_⟩
  show _ * _ + _ * _ + _ * _ + _ * _ = (1 : ℝ)
  simp only [← pow_two]
  exact key

/-- **C105.** `eulerRPY`: each angle in its range. -/
theorem C105_euler {g : Gen} (h : g.Valid) :
    let v := (eulerRPY g).1
    (-π ≤ v.x ∧ v.x < π) ∧ (-(π / 2) ≤ v.y ∧ v.y < π / 2) ∧ (-π ≤ v.z ∧ v.z < π) := by
  have hp := pi_pos
  obtain ⟨a0, a1⟩ := h 0
  obtain ⟨b0, b1⟩ := h 1
  obtain ⟨c0, c1⟩ := h 2
  show (-π ≤ π * (2 * g.uni 0 - 1) ∧ π * (2 * g.uni 0 - 1) < π) ∧
    (-(π / 2) ≤ arccos (1 - 2 * g.uni 1) - π / 2 ∧ arccos (1 - 2 * g.uni 1) - π / 2 < π / 2) ∧
    (-π ≤ π * (2 * g.uni 2 - 1) ∧ π * (2 * g.uni 2 - 1) < π)
  have k1 := arccos_nonneg (1 - 2 * g.uni 1)
  have k2 : arccos (1 - 2 * g.uni 1) < π := by
    refine lt_of_le_of_ne (arccos_le_pi _) fun k => ?_
    rw [arccos_eq_pi] at k
    linarith
  refine ⟨⟨by nlinarith, by nlinarith⟩, ⟨by linarith, by linarith⟩, by nlinarith, by nlinarith⟩

/-- **C105.** `disk`: the distance to the centre is within the radii, and the area inside grows in proportion to the number
of the generator. -/
theorem C105_disk {a b : ℝ} (ha : 0 ≤ a) (hab : a ≤ b) {g : Gen} (h : g.Valid) :
    let p := (disk a b g).1
    Within a b (√(p.1 ^ 2 + p.2 ^ 2)) ∧ p.1 ^ 2 + p.2 ^ 2 = a ^ 2 + g.uni 0 * (b ^ 2 - a ^ 2) := by
  obtain ⟨h0, h1⟩ := h 0
  have hA : 0 ≤ g.uni 0 * b * b + (1 - g.uni 0) * a * a := by
    have : 0 ≤ 1 - g.uni 0 := by linarith
    have hb : 0 ≤ b := ha.trans hab
    positivity
  have key : (√(g.uni 0 * b * b + (1 - g.uni 0) * a * a) * cos (2 * π * g.uni 1)) ^ 2 +
      (√(g.uni 0 * b * b + (1 - g.uni 0) * a * a) * sin (2 * π * g.uni 1)) ^ 2 = a ^ 2 + g.uni 0 * (b ^ 2 - a ^ 2) := by
    have e1 := sq_sqrt hA
    have e2 := sin_sq_add_cos_sq (2 * π * g.uni 1)
    linear_combination √(g.uni 0 * b * b + (1 - g.uni 0) * a * a) ^ 2 * e2 + e1
  have hs : a ^ 2 ≤ b ^ 2 := by nlinarith
  refine ⟨⟨?_, ?_⟩, key⟩
  · refine le_sqrt_of_sq_le ?_
    rw [show ((disk a b g).1.1 ^ 2 + (disk a b g).1.2 ^ 2) = _ from key]
    nlinarith
  · refine sqrt_le_iff.2 ⟨ha.trans hab, ?_⟩
    rw [show ((disk a b g).1.1 ^ 2 + (disk a b g).1.2 ^ 2) = _ from key]
    nlinarith

/-- The cube root. -/
theorem cube_root {x : ℝ} (hx : 0 ≤ x) : (x ^ ((1 : ℝ) / 3)) ^ 3 = x := by
  rw [← rpow_natCast, ← rpow_mul hx]
  norm_num

/-- **C105.** `ball`: the distance to the centre is within the radii, and the volume inside grows in proportion to the number
of the generator. -/
theorem C105_ball {a b : ℝ} (ha : 0 ≤ a) (hab : a ≤ b) {g : Gen} (h : g.Valid) :
    Within a b (ball a b g).1.nrm ∧ (ball a b g).1.nrm ^ 3 = a ^ 3 + g.uni 0 * (b ^ 3 - a ^ 3) := by
  obtain ⟨h0, h1⟩ := h 0
  obtain ⟨b0, b1⟩ := h 1
  have hb : 0 ≤ b := ha.trans hab
  have hA : 0 ≤ g.uni 0 * b ^ 3 + (1 - g.uni 0) * a ^ 3 := by
    have : 0 ≤ 1 - g.uni 0 := by linarith
    positivity
  obtain ⟨r, hr⟩ : ∃ r, r = (g.uni 0 * b ^ 3 + (1 - g.uni 0) * a ^ 3) ^ ((1 : ℝ) / 3) := ⟨_, rfl⟩
  have hr0 : 0 ≤ r := hr ▸ rpow_nonneg hA _
  have hr3 : r ^ 3 = g.uni 0 * b ^ 3 + (1 - g.uni 0) * a ^ 3 := hr ▸ cube_root hA
  have hn : (ball a b g).1.nrm = r := by
    refine V3.nrm_unique hr0 ?_
    have e : (ball a b g).1 = ⟨(g.uni 0 * b ^ 3 + (1 - g.uni 0) * a ^ 3) ^ ((1 : ℝ) / 3) * cos (arccos (1 - 2 * g.uni 1)),
        (g.uni 0 * b ^ 3 + (1 - g.uni 0) * a ^ 3) ^ ((1 : ℝ) / 3) * sin (arccos (1 - 2 * g.uni 1)) * cos (2 * π * g.uni 2),
        (g.uni 0 * b ^ 3 + (1 - g.uni 0) * a ^ 3) ^ ((1 : ℝ) / 3) * sin (arccos (1 - 2 * g.uni 1)) * sin (2 * π * g.uni 2)⟩ := rfl
    rw [e, ← hr]
    simp only [V3.dot]
    have e1 := sin_sq_add_cos_sq (arccos (1 - 2 * g.uni 1))
    have e2 := sin_sq_add_cos_sq (2 * π * g.uni 2)
    linear_combination r ^ 2 * e1 + r ^ 2 * sin (arccos (1 - 2 * g.uni 1)) ^ 2 * e2
  have hs : a ^ 3 ≤ b ^ 3 := pow_le_pow_left₀ ha hab 3
  rw [hn]
  refine ⟨⟨?_, ?_⟩, by rw [hr3]; ring⟩
  · refine (pow_le_pow_iff_left₀ ha hr0 (n := 3) (by norm_num)).1 ?_
    rw [hr3]; nlinarith
  · refine (pow_le_pow_iff_left₀ hr0 hb (n := 3) (by norm_num)).1 ?_
    rw [hr3]; nlinarith

/-! ## Samplers -/

/-- **C105.** `SamplerR`: every coordinate is within its bounds. -/
theorem C105_sampleR {bs : List (ℝ × ℝ)} (hb : ∀ b ∈ bs, b.1 ≤ b.2) {g : Gen} (h : g.Valid) :
    List.Forall₂ (fun b x => Within b.1 b.2 x) bs (sampleR bs g).1 ∧ (sampleR bs g).2.Valid := by
  induction bs generalizing g with
  | nil => exact ⟨.nil, h⟩
  | cons b bs ih =>
    obtain ⟨h1, h2⟩ := ih (fun b' hb' => hb b' (by simp [hb'])) (uniformReal_rest (l := b.1) (u := b.2) h)
    exact ⟨.cons (C105_real (hb b (by simp)) h).1 h1, h2⟩

/-- **C105.** `SamplerSE2_disk`: the sample is within the radii of `c - cref`, and the angle is in its range. -/
theorem C105_se2Disk (cx cy r1 r2 crefx crefy : ℝ) (h1 : 0 ≤ r1) (h2 : r1 ≤ r2) {g : Gen} (h : g.Valid) :
    let q := (sampleSE2Disk (setDisk cx cy r1 r2 crefx crefy) g).1
    Within r1 r2 (√((q.x - (cx - crefx)) ^ 2 + (q.y - (cy - crefy)) ^ 2)) ∧ -π ≤ q.z ∧ q.z < π := by
  intro q
  have hd := (C105_disk h1 h2 h).1
  have hg : (disk r1 r2 g).2.Valid := fun k => h (k + 2)
  have ha := C105_real (l := -π) (u := π) (by linarith [pi_pos]) hg
  have ex : q.x - (cx - crefx) = (disk r1 r2 g).1.1 := by
    show (disk r1 r2 g).1.1 + cx - crefx - (cx - crefx) = _
    ring
  have ey : q.y - (cy - crefy) = (disk r1 r2 g).1.2 := by
    show (disk r1 r2 g).1.2 + cy - crefy - (cy - crefy) = _
    ring
  rw [ex, ey]
  exact ⟨hd, ha.1.1, ha.2 (by linarith [pi_pos])⟩

/-- Six numbers: a position, and the angles of a rotation. -/
def PoseAngles (f : Angles) (P : V3 ℝ → Prop) (v : List ℝ) : Prop :=
  ∃ p R, P p ∧ M3.Orthonormal R ∧ v = [p.x, p.y, p.z, (f R).x, (f R).y, (f R).z]

/-- Seven numbers: a position, and a unit quaternion. -/
def PoseQuat (P : V3 ℝ → Prop) (v : List ℝ) : Prop :=
  ∃ p a b c d, P p ∧ a ^ 2 + b ^ 2 + c ^ 2 + d ^ 2 = 1 ∧ v = [p.x, p.y, p.z, a, b, c, d]

/-- Every coordinate is within its bounds. -/
def InBox (l u p : V3 ℝ) : Prop := Within l.x u.x p.x ∧ Within l.y u.y p.y ∧ Within l.z u.z p.z

/-- **C105.** `SamplerSE3Euler`: the position is within the bounds, and the angles are those of a rotation. -/
theorem C105_se3Euler (f : Angles) {l u : V3 ℝ} (hx : l.x ≤ u.x) (hy : l.y ≤ u.y) (hz : l.z ≤ u.z) {g : Gen} (h : g.Valid) :
    ∃ v, (sampleSE3Euler f l u g).1 = some v ∧ PoseAngles f (InBox l u) v := by
  have h1 : Gen.Valid (uniformReal l.x u.x g).2 := uniformReal_rest h
  have h2 : Gen.Valid (uniformReal l.y u.y (uniformReal l.x u.x g).2).2 := uniformReal_rest h1
  have h3 : Gen.Valid (samplePos l u g).2 := uniformReal_rest (l := l.z) (u := u.z) h2
  refine ⟨_, rfl, (samplePos l u g).1, _, ⟨(C105_real hx h).1, (C105_real hy h1).1, (C105_real hz h2).1⟩, (C105_quaternion h3).2, rfl⟩

/-- **C105.** `SamplerSE3Euler_ball`. -/
theorem C105_se3EulerBall (f : Angles) {r : ℝ} (hr : 0 ≤ r) {g : Gen} (h : g.Valid) :
    ∃ v, (sampleSE3EulerBall f r g).1 = some v ∧ PoseAngles f (fun p => p.nrm ≤ r) v := by
  have h3 : Gen.Valid (ball 0 r g).2 := fun k => h (k + 3)
  exact ⟨_, rfl, (ball 0 r g).1, _, (C105_ball le_rfl hr h).1.2, (C105_quaternion h3).2, rfl⟩

/-- **C105.** `SamplerSE3Quat_ball`. -/
theorem C105_se3QuatBall {r : ℝ} (hr : 0 ≤ r) {g : Gen} (h : g.Valid) :
    ∃ v, (sampleSE3QuatBall r g).1 = some v ∧ PoseQuat (fun p => p.nrm ≤ r) v := by
  have h3 : Gen.Valid (ball 0 r g).2 := fun k => h (k + 3)
  exact ⟨_, rfl, (ball 0 r g).1, _, _, _, _, (C105_ball le_rfl hr h).1.2, (C105_quaternion h3).1, rfl⟩

/-! ## What does not hold -/

/-- **C105, violated: `SamplerSE2`.** The sample is not within the bounds: with the bounds [0, 1] × [10, 11] the first
coordinate is drawn from [0, 10], and it is 5 for the number 1/2, whatever is read beyond the vector. -/
theorem C105_violated_se2 (beyond : ℝ) {g : Gen} (h : g.uni 0 = 1 / 2) :
    (sampleSE2 (0, 10) (1, 11) beyond g).1.x = 5 ∧ ¬ Within 0 1 (sampleSE2 (0, 10) (1, 11) beyond g).1.x := by
  have e : (sampleSE2 (0, 10) (1, 11) beyond g).1.x = 5 := by
    show (10 - 0) * g.uni 0 + 0 = 5
    rw [h]; norm_num
  rw [e]
  exact ⟨rfl, fun k => by have := k.2; norm_num at this⟩

/-- **C105, violated: `SamplerSE3Quat`.** Every sample writes beyond the vector it returns. -/
theorem C105_violated_se3Quat (l u : V3 ℝ) (g : Gen) : (sampleSE3Quat l u g).1 = none := rfl

/-! ## Seeds -/

/-- The seeds of the generators that a program creates, in order. -/
def seeds (seq : ℕ → ℕ) (s : SeedState) : List SeedCall → List ℕ
  | [] => []
  | .create :: cs => (seedCall seq s .create).1.getD 0 :: seeds seq (seedCall seq s .create).2 cs
  | c :: cs => seeds seq (seedCall seq s c).2 cs

/-- The state after a program. -/
def after (seq : ℕ → ℕ) (cs : List SeedCall) : SeedState := (seedRun seq .start cs).2

/-- What `getSeed` returns after a program. -/
def seedAfter (seq : ℕ → ℕ) (cs : List SeedCall) (now : ℕ) : Option ℕ := (seedCall seq (after seq cs) (.getSeed now)).1

theorem seedRun_append (seq : ℕ → ℕ) (s : SeedState) (as bs : List SeedCall) :
    (seedRun seq s (as ++ bs)).2 = (seedRun seq (seedRun seq s as).2 bs).2 := by
  induction as generalizing s with
  | nil => rfl
  | cons a as ih => exact ih _

theorem first_kept (seq : ℕ → ℕ) {s : SeedState} (h : s.generated = true) (cs : List SeedCall) :
    (seedRun seq s cs).2.generated = true ∧ (seedRun seq s cs).2.first = s.first := by
  induction cs generalizing s with
  | nil => exact ⟨h, rfl⟩
  | cons c cs ih =>
    have key : (seedCall seq s c).2.generated = true ∧ (seedCall seq s c).2.first = s.first := by
      cases c <;> simp [seedCall, setSeed, getFirstSeed, getNextSeed, h]
    obtain ⟨h1, h2⟩ := ih key.1
    exact ⟨h1, h2.trans key.2⟩

/-- **C106.** Once `getSeed` has returned a value it returns the same value for ever, whatever is called in between and
whatever the time is. -/
theorem C106_stable (seq : ℕ → ℕ) (cs cs' : List SeedCall) (now now' : ℕ) :
    seedAfter seq (cs ++ .getSeed now :: cs') now' = seedAfter seq cs now := by
  unfold seedAfter after
  rw [seedRun_append]
  generalize (seedRun seq .start cs).2 = s
  have h1 : (seedCall seq s (.getSeed now)).2.generated = true := by
    by_cases hg : s.generated = true <;> simp [seedCall, getFirstSeed, hg]
  obtain ⟨k1, k2⟩ := first_kept seq h1 cs'
  show (seedCall seq (seedRun seq (seedCall seq s (.getSeed now)).2 cs').2 (.getSeed now')).1 = _
  rw [show ∀ s : SeedState, (seedCall seq s (.getSeed now')).1 = some (getFirstSeed s now').1 from fun _ => rfl]
  rw [getFirstSeed, if_pos k1, k2]
  by_cases hg : s.generated = true <;> simp [seedCall, getFirstSeed, hg]

/-- **C106.** The seed of the last `setSeed` before the first `getSeed` is what `getSeed` returns; 1 for 0. -/
theorem C106_user (seq : ℕ → ℕ) (cs cs' : List SeedCall) (n now : ℕ) (h : ∀ c ∈ cs ++ cs', ∀ t, c ≠ .getSeed t)
    (h' : ∀ c ∈ cs', c = .create) : seedAfter seq (cs ++ .setSeed n :: cs') now = some (if n = 0 then 1 else n) := by
  have ungen : ∀ (cs : List SeedCall) (s : SeedState), s.generated = false → (∀ c ∈ cs, ∀ t, c ≠ .getSeed t) →
      (seedRun seq s cs).2.generated = false := by
    intro cs
    induction cs with
    | nil => exact fun s hs _ => hs
    | cons c cs ih =>
      intro s hs hc
      refine ih _ ?_ fun c' hc' => hc c' (by simp [hc'])
      cases c with
      | setSeed n => exact hs
      | getSeed t => exact absurd rfl (hc _ (by simp) t)
      | create => exact hs
  have create : ∀ (cs : List SeedCall) (s : SeedState), (∀ c ∈ cs, c = .create) → (seedRun seq s cs).2.generated = s.generated ∧
      (seedRun seq s cs).2.userSet = s.userSet := by
    intro cs
    induction cs with
    | nil => exact fun s _ => ⟨rfl, rfl⟩
    | cons c cs ih =>
      intro s hc
      obtain rfl := hc c (by simp)
      exact ih (seedCall seq s .create).2 fun c' hc' => hc c' (by simp [hc'])
  unfold seedAfter after
  rw [seedRun_append]
  have h1 := ungen cs .start rfl fun c hc => h c (by simp [hc])
  generalize (seedRun seq .start cs).2 = s at *
  obtain ⟨h2, h3⟩ := create cs' (setSeed s n) h'
  show some (getFirstSeed (seedRun seq (setSeed s n) cs').2 now).1 = _
  have h4 : (setSeed s n).generated = false := h1
  have h5 : (setSeed s n).userSet = if n = 0 then 1 else n := rfl
  rw [getFirstSeed, if_neg (by rw [h2, h4]; decide), h3, h5]
  split_ifs <;> simp_all

theorem seeds_eq (seq : ℕ → ℕ) (s : SeedState) (cs : List SeedCall) :
    seeds seq s cs = (List.range (cs.countP fun c => match c with | .create => true | _ => false)).map fun k => seq (s.handed + k) := by
  induction cs generalizing s with
  | nil => rfl
  | cons c cs ih =>
    cases c with
    | setSeed n =>
      rw [seeds, ih]
      · simp [seedCall, setSeed]
      · simp
    | getSeed t =>
      rw [seeds, ih]
      · have : (seedCall seq s (.getSeed t)).2.handed = s.handed := by
          by_cases hg : s.generated = true <;> simp [seedCall, getFirstSeed, hg]
        simp [this]
      · simp
    | create =>
      rw [seeds, ih]
      simp only [List.countP_cons, if_true, List.range_succ_eq_map, List.map_cons, List.map_map]
      refine List.cons_eq_cons.2 ⟨rfl, List.map_congr_left fun k _ => ?_⟩
      show seq (s.handed + 1 + k) = seq (s.handed + (k + 1))
      congr 1
      omega

/-- **C106.** Programs that create the same number of generators give them the same seeds, in the same order: in particular
a program is repeatable. -/
theorem C106_repeatable (seq : ℕ → ℕ) (cs cs' : List SeedCall)
    (h : (cs.countP fun c => match c with | .create => true | _ => false) = cs'.countP fun c => match c with | .create => true | _ => false) :
    seeds seq .start cs = seeds seq .start cs' := by
  rw [seeds_eq, seeds_eq, h]

/-- **C106, violated: `setSeed` has no effect** on the numbers of any generator, before or after the first of them is
created: the program that sets the seed first gets the same generators as the program that does not. -/
theorem C106_violated_no_effect (seq : ℕ → ℕ) (n : ℕ) (cs : List SeedCall) :
    seeds seq .start (.setSeed n :: cs) = seeds seq .start cs := C106_repeatable seq _ _ (by simp)

/-- **C106, violated: different seeds.** "It is also guaranteed that all created instances will have a different random
seed" (rng.h 55-56): of 1000000001 generators two have the same seed, whatever the sequence of numbers from 1 to
1000000000 is. -/
theorem C106_violated_different (seq : ℕ → ℕ) (h : ∀ k, 1 ≤ seq k ∧ seq k ≤ 1000000000) :
    ∃ i j, i < j ∧ j < 1000000001 ∧ seq i = seq j := by
  have hc : Fintype.card (Fin 1000000000) < Fintype.card (Fin 1000000001) := by simp
  obtain ⟨i, j, hij, e⟩ := Fintype.exists_ne_map_eq_of_card_lt
    (fun k : Fin 1000000001 => (⟨seq k - 1, by have := h k; omega⟩ : Fin 1000000000)) hc
  simp only [Fin.mk.injEq] at e
  have h1 := h i
  have h2 := h j
  have e : seq i = seq j := by omega
  have hne : (i : ℕ) ≠ j := fun k => hij (Fin.ext k)
  rcases lt_or_gt_of_ne hne with k | k
  · exact ⟨i, j, k, j.2, e⟩
  · exact ⟨j, i, k, i.2, e.symm⟩

/-! ## Examples -/

namespace Example

/-- A generator. -/
noncomputable def gen : Gen := ⟨fun k => 1 / (k + 2), fun _ => 3⟩

theorem gen_valid : gen.Valid := by
  intro k
  have : (0 : ℝ) < k + 2 := by positivity
  refine ⟨by show (0 : ℝ) ≤ 1 / (k + 2); positivity, ?_⟩
  show (1 : ℝ) / (k + 2) < 1
  rw [div_lt_one this]
  have : (0 : ℝ) ≤ k := by positivity
  linarith

/-- The roll of a die. -/
theorem die : (uniformInt 1 6 gen).1 = 4 := by
  rw [(C105_int (by norm_num) gen_valid).2.2 4 (by norm_num) (by norm_num)]
  norm_num [gen]

/-- The sampler for the plane leaves its bounds with this generator. -/
example : ¬ Within 0 1 (sampleSE2 (0, 10) (1, 11) 0 gen).1.x := (C105_violated_se2 0 (by norm_num [gen])).2

example : seedAfter (fun k => k) [.create, .setSeed 7, .create] 1234 = some 7 := by decide
example : seeds (fun k => k + 1) .start [.setSeed 7, .create, .getSeed 3, .create] = [1, 2] := by decide

end Example
end Rand
end Fcl
