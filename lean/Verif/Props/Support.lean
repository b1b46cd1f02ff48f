import Verif.Narrow.Support
import Verif.BVH.MeshLemmas
import Mathlib.Tactic.NormNum

/-!
# C50: support functions return extreme points
-/

namespace Fcl
open V3

/-- `p` is a point of `S` that is extreme in direction `d`. -/
def IsSupport (S : Set (V3 ℝ)) (d p : V3 ℝ) : Prop := p ∈ S ∧ ∀ q ∈ S, d.dot q ≤ d.dot p

/-- `p` is a point of `S` that is extreme in direction `d` up to `e`. -/
def IsSupportUpTo (e : ℝ) (S : Set (V3 ℝ)) (d p : V3 ℝ) : Prop := p ∈ S ∧ ∀ q ∈ S, d.dot q ≤ d.dot p + e

/-- What a shape must satisfy for its support point to be defined: positive radii of an ellipsoid, a cone
that is not a single point, a convex with vertices in the range of the scalar type. -/
def Geo.Supported (big : ℝ) (d : V3 ℝ) : Geo ℝ → Prop
  | .ellipsoid s => 0 < s.x ∧ 0 < s.y ∧ 0 < s.z
  | .cone r lz => 0 < r ∨ 0 < lz
  | .convex vs => vs ≠ [] ∧ ∀ v ∈ vs, -big < d.dot v
  | .triangle a b c => True
  | _ => True

namespace Support

theorem le_of_hull {d : V3 ℝ} {vs : List (V3 ℝ)} {m : ℝ} (h : ∀ v ∈ vs, d.dot v ≤ m) {q : V3 ℝ} (hq : HullOf vs q) :
    d.dot q ≤ m := by
  induction hq with
  | pt hp => exact h _ hp
  | seg t h0 h1 _ _ ih1 ih2 =>
    rw [dot_add, dot_smul, dot_smul]
    nlinarith [mul_le_mul_of_nonneg_left ih1 (by linarith : 0 ≤ 1 - t), mul_le_mul_of_nonneg_left ih2 h0]

theorem scanMax_spec (d : V3 ℝ) (vs : List (V3 ℝ)) (m : ℝ) (best : V3 ℝ) :
    (∀ v ∈ vs, d.dot v ≤ m) ∧ scanMax d vs m best = best ∨
    scanMax d vs m best ∈ vs ∧ m < d.dot (scanMax d vs m best) ∧ ∀ v ∈ vs, d.dot v ≤ d.dot (scanMax d vs m best) := by
  induction vs generalizing m best with
  | nil => exact Or.inl ⟨by simp, rfl⟩
  | cons v vs ih =>
    unfold scanMax
    split
    · next h =>
      right
      rcases ih (d.dot v) v with ⟨h1, h2⟩ | ⟨h1, h2, h3⟩
      · rw [h2]
        refine ⟨List.mem_cons_self, h, ?_⟩
        intro u hu
        rcases List.mem_cons.1 hu with rfl | hu
        · exact le_refl _
        · exact h1 u hu
      · refine ⟨List.mem_cons_of_mem _ h1, h.trans h2, ?_⟩
        intro u hu
        rcases List.mem_cons.1 hu with rfl | hu
        · exact h2.le
        · exact h3 u hu
    · next h =>
      rcases ih m best with ⟨h1, h2⟩ | ⟨h1, h2, h3⟩
      · left
        refine ⟨?_, h2⟩
        intro u hu
        rcases List.mem_cons.1 hu with rfl | hu
        · exact not_lt.1 h
        · exact h1 u hu
      · right
        refine ⟨List.mem_cons_of_mem _ h1, h2, ?_⟩
        intro u hu
        rcases List.mem_cons.1 hu with rfl | hu
        · exact (not_lt.1 h).trans h2.le
        · exact h3 u hu

theorem convex_support {big : ℝ} {d : V3 ℝ} {vs : List (V3 ℝ)} (h : vs ≠ []) (hb : ∀ v ∈ vs, -big < d.dot v) :
    IsSupport (Shape.convex vs) d (scanMax d vs (-big) 0) := by
  rcases scanMax_spec d vs (-big) 0 with ⟨h1, _⟩ | ⟨h1, _, h3⟩
  · obtain ⟨v, hv⟩ := List.exists_mem_of_ne_nil _ h
    exact absurd (h1 v hv) (not_le.2 (hb v hv))
  · exact ⟨.pt h1, fun q hq => le_of_hull h3 hq⟩

theorem triangle_support (a b c d : V3 ℝ) : IsSupport (Shape.triangle a b c) d (triangle a b c d) := by
  have key : triangle a b c d ∈ [a, b, c] ∧ ∀ v ∈ [a, b, c], d.dot v ≤ d.dot (triangle a b c d) := by
    unfold triangle
    simp only [List.mem_cons, List.not_mem_nil, or_false, forall_eq_or_imp, forall_eq]
    split_ifs with h1 h2 h3
    · exact ⟨by simp, by linarith, by linarith, le_refl _⟩
    · exact ⟨by simp, le_refl _, by linarith, by linarith⟩
    · exact ⟨by simp, by linarith, by linarith, le_refl _⟩
    · exact ⟨by simp, by linarith, le_refl _, by linarith⟩
  exact ⟨.pt key.1, fun q hq => le_of_hull key.2 hq⟩

theorem side_le {s d p : ℝ} (hs : 0 ≤ s) (h1 : -(s / 2) ≤ p) (h2 : p ≤ s / 2) :
    d * p ≤ d * (if d > 0 then s / 2 else -s / 2) := by
  split_ifs with h
  · exact mul_le_mul_of_nonneg_left h2 h.le
  · nlinarith [mul_le_mul_of_nonneg_left h1 (by linarith : 0 ≤ -d)]

theorem box_support {side : V3 ℝ} (h : 0 ≤ side.x ∧ 0 ≤ side.y ∧ 0 ≤ side.z) (d : V3 ℝ) :
    IsSupport (Shape.box side) d (box side d) := by
  obtain ⟨hx, hy, hz⟩ := h
  constructor
  · refine ⟨?_, ?_, ?_⟩ <;> simp only [box] <;> split_ifs <;> constructor <;> linarith
  · rintro q ⟨⟨a1, a2⟩, ⟨b1, b2⟩, ⟨c1, c2⟩⟩
    have h1 := side_le (d := d.x) hx a1 a2
    have h2 := side_le (d := d.y) hy b1 b2
    have h3 := side_le (d := d.z) hz c1 c2
    simp only [box, dot]
    linarith

theorem ball_support {r : ℝ} (hr : 0 ≤ r) {d : V3 ℝ} (hd : d.dot d = 1) : IsSupport (Shape.ball r) d (r • d) := by
  have hd' : d.x * d.x + d.y * d.y + d.z * d.z = 1 := hd
  constructor
  · have h : (r • d).dot (r • d) = r * r := by rw [smul_dot, dot_smul, hd]; ring
    exact h.le
  · intro q hq
    have hq' : q.dot q ≤ r * r := hq
    have h1 := dot_le d q
    have h2 : q.nrm ≤ r := (nrm_le_iff hr).2 hq'
    have h3 : d.nrm = 1 := nrm_unique zero_le_one (by rw [hd]; ring)
    rw [dot_smul, hd, mul_one]
    rw [h3, one_mul] at h1
    exact h1.trans h2

theorem ellipsoid_support {s : V3 ℝ} (hs : 0 < s.x ∧ 0 < s.y ∧ 0 < s.z) {d : V3 ℝ} (hd : d ≠ 0) :
    ∃ p, ellipsoid s d = some p ∧ IsSupport (Shape.ellipsoid s) d p := by
  obtain ⟨hx, hy, hz⟩ := hs
  set e : V3 ℝ := ⟨s.x * d.x, s.y * d.y, s.z * d.z⟩ with he
  have hee : (⟨s.x * s.x * d.x, s.y * s.y * d.y, s.z * s.z * d.z⟩ : V3 ℝ).dot d = e.dot e := by
    simp only [dot, he]; ring
  have hne : e ≠ 0 := by
    intro h
    have h0 : s.x * d.x = 0 := congrArg V3.x h
    have h1 : s.y * d.y = 0 := congrArg V3.y h
    have h2 : s.z * d.z = 0 := congrArg V3.z h
    refine hd (V3.ext' ?_ ?_ ?_)
    · exact (mul_eq_zero.1 h0).resolve_left hx.ne'
    · exact (mul_eq_zero.1 h1).resolve_left hy.ne'
    · exact (mul_eq_zero.1 h2).resolve_left hz.ne'
  have hp := nrm_pos hne
  refine ⟨(1 / e.nrm) • ⟨s.x * s.x * d.x, s.y * s.y * d.y, s.z * s.z * d.z⟩, ?_, ?_, ?_⟩
  · unfold ellipsoid quot
    simp only [hee]
    rw [show Real.sqrt (e.dot e) = e.nrm from rfl, if_neg hp.ne']
    rfl
  · refine ⟨(1 / e.nrm) • e, ?_, ?_⟩
    · have : ((1 / e.nrm) • e).dot ((1 / e.nrm) • e) = 1 := by
        rw [smul_dot, dot_smul, ← nrm_mul_self]; field_simp
      exact this.le
    · apply V3.ext' <;> simp only [smul_x, smul_y, smul_z, he] <;> ring
  · rintro q ⟨u, hu, rfl⟩
    have h1 : d.dot ⟨s.x * u.x, s.y * u.y, s.z * u.z⟩ = e.dot u := by simp only [dot, he]; ring
    have h2 : u.nrm ≤ 1 := (nrm_le_iff zero_le_one).2 (by rw [mul_one]; exact hu)
    rw [h1, dot_smul, dot_comm d, hee, ← nrm_mul_self]
    have h3 := dot_le e u
    have h4 : 1 / e.nrm * (e.nrm * e.nrm) = e.nrm := by field_simp
    rw [h4]
    nlinarith

theorem capsule_support {r lz : ℝ} (hr : 0 ≤ r) (hl : 0 ≤ lz) {d : V3 ℝ} (hd : d.dot d = 1) :
    IsSupport (Shape.capsule r lz) d (capsule r lz d) := by
  have hd' : d.x * d.x + d.y * d.y + d.z * d.z = 1 := hd
  have hball := (ball_support hr hd).2
  have key : ∀ q ∈ Shape.capsule r lz, d.dot q ≤ |d.z| * (lz / 2) + r := by
    rintro q ⟨c, c1, c2, hc⟩
    have h1 := hball ⟨q.x, q.y, q.z - c⟩ hc
    rw [dot_smul, hd, mul_one] at h1
    have h2 : d.dot q = d.dot ⟨q.x, q.y, q.z - c⟩ + d.z * c := by simp only [dot]; ring
    have h3 : d.z * c ≤ |d.z| * (lz / 2) := by
      have := abs_le.2 ⟨c1, c2⟩
      calc d.z * c ≤ |d.z * c| := le_abs_self _
        _ = |d.z| * |c| := abs_mul _ _
        _ ≤ _ := mul_le_mul_of_nonneg_left this (abs_nonneg _)
    linarith
  have e1 : d.dot ((⟨0, 0, lz * (1 / 2)⟩ : V3 ℝ) + r • d) = d.z * (lz / 2) + r := by
    rw [dot_add, dot_smul, hd]; simp only [dot]; ring
  have e2 : d.dot ((⟨0, 0, -(lz * (1 / 2))⟩ : V3 ℝ) + r • d) = -d.z * (lz / 2) + r := by
    rw [dot_add, dot_smul, hd]; simp only [dot]; ring
  unfold capsule
  simp only [e1, e2]
  constructor
  · split_ifs
    · refine ⟨lz / 2, by linarith, le_refl _, ?_⟩
      have h : r * r * (d.x * d.x + d.y * d.y + d.z * d.z) = r * r := by rw [hd', mul_one]
      simp only [add_x, add_y, add_z, smul_x, smul_y, smul_z]
      refine le_of_eq (Eq.trans ?_ h)
      ring
    · refine ⟨-(lz / 2), le_refl _, by linarith, ?_⟩
      have h : r * r * (d.x * d.x + d.y * d.y + d.z * d.z) = r * r := by rw [hd', mul_one]
      simp only [add_x, add_y, add_z, smul_x, smul_y, smul_z]
      refine le_of_eq (Eq.trans ?_ h)
      ring
  · intro q hq
    have := key q hq
    split_ifs with h
    · rw [e1]
      have hz : 0 ≤ d.z := by
        by_contra hz
        have : d.z * (lz / 2) ≤ 0 := mul_nonpos_of_nonpos_of_nonneg (by linarith) (by linarith)
        linarith
      rw [abs_of_nonneg hz] at this
      exact this
    · rw [e2]
      rcases le_or_gt d.z 0 with hz | hz
      · rw [abs_of_nonpos hz] at this; exact this
      · rw [abs_of_pos hz] at this
        linarith

theorem sqrt_mul_self_xy (d : V3 ℝ) : Real.sqrt (d.x * d.x + d.y * d.y) * Real.sqrt (d.x * d.x + d.y * d.y) =
    d.x * d.x + d.y * d.y :=
  Real.mul_self_sqrt (by nlinarith [mul_self_nonneg d.x, mul_self_nonneg d.y])

/-- The largest product with a disc. -/
theorem disc_le {r : ℝ} (hr : 0 ≤ r) (d : V3 ℝ) {x y : ℝ} (h : x * x + y * y ≤ r * r) :
    d.x * x + d.y * y ≤ r * Real.sqrt (d.x * d.x + d.y * d.y) := by
  set z := Real.sqrt (d.x * d.x + d.y * d.y) with hz
  have h0 : 0 ≤ z := Real.sqrt_nonneg _
  have h1 : z * z = d.x * d.x + d.y * d.y := sqrt_mul_self_xy d
  refine (abs_le_of_sq_le_sq' ?_ (mul_nonneg hr h0)).2
  have h2 : (d.x * x + d.y * y) ^ 2 ≤ (d.x * d.x + d.y * d.y) * (x * x + y * y) := by
    nlinarith [mul_self_nonneg (d.x * y - d.y * x)]
  have h3 : (d.x * d.x + d.y * d.y) * (x * x + y * y) ≤ (z * z) * (r * r) := by
    rw [← h1]; exact mul_le_mul_of_nonneg_left h (mul_self_nonneg z)
  nlinarith

/-- The rim point of a disc in direction `d`. -/
theorem rim {r : ℝ} {d : V3 ℝ} (h : 0 < Real.sqrt (d.x * d.x + d.y * d.y)) :
    let k := r / Real.sqrt (d.x * d.x + d.y * d.y)
    k * d.x * (k * d.x) + k * d.y * (k * d.y) = r * r ∧
      d.x * (k * d.x) + d.y * (k * d.y) = r * Real.sqrt (d.x * d.x + d.y * d.y) := by
  have h1 := sqrt_mul_self_xy d
  set z := Real.sqrt (d.x * d.x + d.y * d.y)
  intro k
  have hk : k * z = r := div_mul_cancel₀ _ h.ne'
  constructor
  · calc k * d.x * (k * d.x) + k * d.y * (k * d.y) = k * k * (d.x * d.x + d.y * d.y) := by ring
      _ = k * z * (k * z) := by rw [← h1]; ring
      _ = r * r := by rw [hk]
  · calc d.x * (k * d.x) + d.y * (k * d.y) = k * (d.x * d.x + d.y * d.y) := by ring
      _ = k * z * z := by rw [← h1]; ring
      _ = r * z := by rw [hk]

theorem cylinder_support {r lz : ℝ} (hr : 0 ≤ r) (hl : 0 ≤ lz) (d : V3 ℝ) :
    IsSupport (Shape.cylinder r lz) d (cylinder r lz d) := by
  have hz : ∀ z : ℝ, -(lz / 2) ≤ z → z ≤ lz / 2 → d.z * z ≤ d.z * (if d.z > 0 then lz * (1 / 2) else -(lz * (1 / 2))) := by
    intro z h1 h2
    have := side_le (d := d.z) hl h1 h2
    split_ifs at this ⊢ <;> linarith
  have hin : -(lz / 2) ≤ (if d.z > 0 then lz * (1 / 2) else -(lz * (1 / 2))) ∧
      (if d.z > 0 then lz * (1 / 2) else -(lz * (1 / 2))) ≤ lz / 2 := by split_ifs <;> constructor <;> linarith
  unfold cylinder
  simp only
  by_cases h0 : Real.sqrt (d.x * d.x + d.y * d.y) = 0
  · rw [if_pos h0]
    refine ⟨⟨by simp only; nlinarith [mul_self_nonneg r], hin⟩, ?_⟩
    rintro q ⟨h1, h2, h3⟩
    have h4 := disc_le hr d h1
    rw [h0, mul_zero] at h4
    have h5 := hz q.z h2 h3
    simp only [dot]
    linarith
  · rw [if_neg h0]
    have hpos : 0 < Real.sqrt (d.x * d.x + d.y * d.y) := lt_of_le_of_ne (Real.sqrt_nonneg _) (Ne.symm h0)
    obtain ⟨r1, r2⟩ := rim (r := r) hpos
    refine ⟨⟨r1.le, hin⟩, ?_⟩
    rintro q ⟨h1, h2, h3⟩
    have h4 := disc_le hr d h1
    have h5 := hz q.z h2 h3
    simp only [dot]
    linarith

theorem cone_support {r lz : ℝ} (hr : 0 ≤ r) (hl : 0 ≤ lz) (hp : 0 < r ∨ 0 < lz) (d : V3 ℝ) :
    ∃ p, cone r lz d = some p ∧ IsSupport (Shape.cone r lz) d p := by
  set z := Real.sqrt (d.x * d.x + d.y * d.y) with hz
  have hz0 : 0 ≤ z := Real.sqrt_nonneg _
  have hzz : z * z = d.x * d.x + d.y * d.y := sqrt_mul_self_xy d
  -- every point is at most a convex combination of the tip and the rim
  have key : ∀ m, d.z * (lz / 2) ≤ m → r * z - d.z * (lz / 2) ≤ m → ∀ q ∈ Shape.cone r lz, d.dot q ≤ m := by
    rintro m m1 m2 q ⟨s, x, y, s0, s1, hxy, rfl⟩
    have h1 := disc_le hr d hxy
    rw [← hz] at h1
    have h2 : d.dot ⟨s * x, s * y, lz / 2 - s * lz⟩ =
        (1 - s) * (d.z * (lz / 2)) + s * (d.x * x + d.y * y - d.z * (lz / 2)) := by simp only [dot]; ring
    rw [h2]
    nlinarith [mul_le_mul_of_nonneg_left m1 (by linarith : 0 ≤ 1 - s), mul_le_mul_of_nonneg_left m2 s0,
      mul_le_mul_of_nonneg_left h1 s0]
  set L := Real.sqrt (r * r + 4 * (lz * (1 / 2)) * (lz * (1 / 2))) with hL
  have harg : r * r + 4 * (lz * (1 / 2)) * (lz * (1 / 2)) = r * r + lz * lz := by ring
  have hLL : L * L = r * r + lz * lz := by
    rw [hL, harg]; exact Real.mul_self_sqrt (by nlinarith [mul_self_nonneg r, mul_self_nonneg lz])
  have hL0 : 0 < L := by
    rw [hL, harg]; apply Real.sqrt_pos.2
    rcases hp with h | h
    · nlinarith [mul_pos h h, mul_self_nonneg lz]
    · nlinarith [mul_pos h h, mul_self_nonneg r]
  set N := Real.sqrt (d.x * d.x + d.y * d.y + d.z * d.z) with hN
  have hNN : N * N = z * z + d.z * d.z := by
    rw [hzz, hN]
    exact Real.mul_self_sqrt (by nlinarith [mul_self_nonneg d.x, mul_self_nonneg d.y, mul_self_nonneg d.z])
  have hN0 : 0 ≤ N := Real.sqrt_nonneg _
  refine ⟨if d.z > N * (r / L) then ⟨0, 0, lz * (1 / 2)⟩ else if z > 0 then ⟨r / z * d.x, r / z * d.y, -(lz * (1 / 2))⟩
    else ⟨0, 0, -(lz * (1 / 2))⟩, ?_, ?_⟩
  · unfold cone quot
    simp only [← hL, ← hz, ← hN, if_neg hL0.ne', Option.map_some]
  · -- comparison with the slope
    have hcmp : d.z > N * (r / L) ↔ d.z * L > N * r := by
      rw [gt_iff_lt, ← mul_div_assoc, div_lt_iff₀ hL0]
    by_cases h1 : d.z > N * (r / L)
    · rw [if_pos h1]
      rw [hcmp] at h1
      have hNr : 0 ≤ N * r := mul_nonneg hN0 hr
      have hdz : 0 < d.z := by
        by_contra h
        nlinarith [mul_nonpos_of_nonpos_of_nonneg (not_lt.1 h) hL0.le]
      have hsq : (z * r) ^ 2 ≤ (d.z * lz) ^ 2 := by
        have : (N * r) * (N * r) < (d.z * L) * (d.z * L) := mul_self_lt_mul_self hNr h1
        have e1 : (N * r) * (N * r) = (z * z + d.z * d.z) * (r * r) := by rw [← hNN]; ring
        have e2 : (d.z * L) * (d.z * L) = d.z * d.z * (r * r + lz * lz) := by rw [← hLL]; ring
        rw [e1, e2] at this
        nlinarith
      have hle : z * r ≤ d.z * lz := (abs_le_of_sq_le_sq' hsq (mul_nonneg hdz.le hl)).2
      refine ⟨⟨0, 0, 0, le_refl _, zero_le_one, by nlinarith [mul_self_nonneg r], ?_⟩, ?_⟩
      · apply V3.ext' <;> simp only <;> ring
      · apply key
        · simp only [dot]; linarith
        · simp only [dot]; linarith
    · rw [if_neg h1]
      rw [hcmp] at h1
      have hle : d.z * lz ≤ z * r := by
        rcases le_or_gt d.z 0 with h | h
        · exact (mul_nonpos_of_nonpos_of_nonneg h hl).trans (mul_nonneg hz0 hr)
        · have hsq : (d.z * L) * (d.z * L) ≤ (N * r) * (N * r) :=
            mul_self_le_mul_self (mul_nonneg h.le hL0.le) (not_lt.1 h1)
          have e1 : (N * r) * (N * r) = (z * z + d.z * d.z) * (r * r) := by rw [← hNN]; ring
          have e2 : (d.z * L) * (d.z * L) = d.z * d.z * (r * r + lz * lz) := by rw [← hLL]; ring
          rw [e1, e2] at hsq
          exact (abs_le_of_sq_le_sq' (by nlinarith) (mul_nonneg hz0 hr)).2
      by_cases h2 : z > 0
      · rw [if_pos h2]
        obtain ⟨r1, r2⟩ := rim (r := r) (d := d) h2
        rw [← hz] at r1 r2
        refine ⟨⟨1, r / z * d.x, r / z * d.y, zero_le_one, le_refl _, r1.le, ?_⟩, ?_⟩
        · apply V3.ext' <;> simp only <;> ring
        · apply key
          · simp only [dot]; linarith
          · simp only [dot]; linarith
      · rw [if_neg h2]
        have hz00 : z = 0 := le_antisymm (not_lt.1 h2) hz0
        refine ⟨⟨1, 0, 0, zero_le_one, le_refl _, by nlinarith [mul_self_nonneg r], ?_⟩, ?_⟩
        · apply V3.ext' <;> simp only <;> ring
        · rw [hz00] at hle
          apply key
          · simp only [dot]; linarith
          · simp only [dot, hz00]; linarith

end Support

open Support

/-- C50: for a direction of unit length, as the GJK code passes it, the support point of every bounded
shape with sensible parameters is a point of the shape that is extreme in that direction. -/
theorem C50_support {big : ℝ} {g : Geo ℝ} {d : V3 ℝ} (hb : g.Bounded) (hw : g.WF) (hs : g.Supported big d)
    (hd : d.nrm = 1) : ∃ p, getSupport big g d = some p ∧ IsSupport g.pts d p := by
  have hdd : d.dot d = 1 := by rw [← nrm_mul_self, hd, mul_one]
  have hd0 : d ≠ 0 := by rintro rfl; rw [nrm_zero] at hd; exact zero_ne_one hd
  cases g with
  | box s => exact ⟨_, rfl, box_support hw d⟩
  | sphere r => exact ⟨_, rfl, ball_support hw hdd⟩
  | capsule r lz => exact ⟨_, rfl, capsule_support hw.1 hw.2 hdd⟩
  | cylinder r lz => exact ⟨_, rfl, cylinder_support hw.1 hw.2 d⟩
  | cone r lz => exact cone_support hw.1 hw.2 hs d
  | ellipsoid s => exact ellipsoid_support hs hd0
  | halfspace n k => exact hb.elim
  | plane n k => exact hb.elim
  | triangle a b c => exact ⟨_, rfl, triangle_support a b c d⟩
  | convex vs => exact ⟨_, rfl, convex_support hs.1 hs.2⟩

/-- The same for directions of any length, for shapes other than spheres and capsules. -/
theorem C50_support_any {big : ℝ} {g : Geo ℝ} {d : V3 ℝ} (hb : g.Bounded) (hw : g.WF) (hs : g.Supported big d)
    (hd : d ≠ 0) (h1 : ∀ r, g ≠ .sphere r) (h2 : ∀ r lz, g ≠ .capsule r lz) :
    ∃ p, getSupport big g d = some p ∧ IsSupport g.pts d p := by
  cases g with
  | box s => exact ⟨_, rfl, box_support hw d⟩
  | sphere r => exact absurd rfl (h1 r)
  | capsule r lz => exact absurd rfl (h2 r lz)
  | cylinder r lz => exact ⟨_, rfl, cylinder_support hw.1 hw.2 d⟩
  | cone r lz => exact cone_support hw.1 hw.2 hs d
  | ellipsoid s => exact ellipsoid_support hs hd
  | halfspace n k => exact hb.elim
  | plane n k => exact hb.elim
  | triangle a b c => exact ⟨_, rfl, triangle_support a b c d⟩
  | convex vs => exact ⟨_, rfl, convex_support hs.1 hs.2⟩

/-- Non-vacuity: a cone and a diagonal direction. -/
example : ∃ p, getSupport 1000 (.cone 1 2) (⟨3 / 5, 0, 4 / 5⟩ : V3 ℝ) = some p ∧
    IsSupport (Geo.cone 1 2 : Geo ℝ).pts ⟨3 / 5, 0, 4 / 5⟩ p :=
  C50_support (g := .cone 1 2) trivial ⟨by norm_num, by norm_num⟩ (Or.inl (by norm_num))
    (nrm_unique zero_le_one (by simp only [dot]; norm_num))

/-- C50 fails for spheres in directions that are not of unit length: the point returned is not in the
sphere. (So it does for capsules, `C50_violated_capsule`.) -/
theorem C50_violated_sphere : ∃ p, getSupport 1000 (.sphere 1) (⟨2, 0, 0⟩ : V3 ℝ) = some p ∧
    p ∉ (Geo.sphere 1 : Geo ℝ).pts := by
  refine ⟨_, rfl, ?_⟩
  intro h
  have h' : (1 * 2) * (1 * 2) + (1 * 0) * (1 * 0) + (1 * 0) * (1 * 0) ≤ (1 : ℝ) * 1 := h
  norm_num at h'

theorem C50_violated_capsule : ∃ p, getSupport 1000 (.capsule 1 2) (⟨2, 0, 0⟩ : V3 ℝ) = some p ∧
    p ∉ (Geo.capsule 1 2 : Geo ℝ).pts := by
  refine ⟨_, rfl, ?_⟩
  rintro ⟨c, -, -, h⟩
  have : (capsule 1 2 (⟨2, 0, 0⟩ : V3 ℝ)).x = 2 ∧ (capsule 1 2 (⟨2, 0, 0⟩ : V3 ℝ)).y = 0 := by
    unfold capsule
    simp only
    split_ifs <;> constructor <;> simp
  rw [this.1, this.2] at h
  nlinarith [mul_self_nonneg ((capsule 1 2 (⟨2, 0, 0⟩ : V3 ℝ)).z - c)]

/-- C50 for the Minkowski difference: for a unit direction `d` in the frame of the first shape, the support
of the difference is, in world coordinates, the difference of a point of the first and a point of the second
placed shape, and it is extreme in direction `d` over all such differences. -/
theorem C50_minkowski {big : ℝ} {g1 g2 : Geo ℝ} {tf1 tf2 : Pose ℝ} {d : V3 ℝ} (h1 : tf1.Rigid) (h2 : tf2.Rigid)
    (hb1 : g1.Bounded) (hw1 : g1.WF) (hs1 : g1.Supported big d) (hb2 : g2.Bounded) (hw2 : g2.WF)
    (hs2 : g2.Supported big (tf2.R.tr.mulVec (tf1.R.mulVec (-d)))) (hd : d.nrm = 1) :
    ∃ p, (MinkowskiDiff.ofShapes g1 tf1 g2 tf2).support big d = some p ∧
      (∃ a ∈ Placed tf1.R tf1.t g1.pts, ∃ b ∈ Placed tf2.R tf2.t g2.pts, tf1.R.mulVec p = a - b) ∧
      ∀ a ∈ Placed tf1.R tf1.t g1.pts, ∀ b ∈ Placed tf2.R tf2.t g2.pts,
        (tf1.R.mulVec d).dot (a - b) ≤ (tf1.R.mulVec d).dot (tf1.R.mulVec p) := by
  obtain ⟨p1, e1, m1, x1⟩ := C50_support hb1 hw1 hs1 hd
  have hn : (tf2.R.tr.mulVec (tf1.R.mulVec (-d))).nrm = 1 := by
    rw [M3.Orthonormal.nrm (M3.Orthonormal.tr h2), M3.Orthonormal.nrm h1, nrm_neg, hd]
  obtain ⟨p2, e2, m2, x2⟩ := C50_support hb2 hw2 hs2 hn
  have hdiff : tf1.R.mulVec (p1 - (tf1.inv.mul tf2).apply p2) = tf1.apply p1 - tf2.apply p2 := by
    rw [← Pose.apply_sub, Pose.mul_apply, Pose.apply_inv h1]
  refine ⟨p1 - (tf1.inv.mul tf2).apply p2, ?_, ?_, ?_⟩
  · simp only [MinkowskiDiff.support, MinkowskiDiff.support0, MinkowskiDiff.support1, MinkowskiDiff.ofShapes, e1,
      M3.mul_mulVec, e2, Option.bind_some, Option.map_some]
  · exact ⟨tf1.apply p1, ⟨p1, m1, rfl⟩, tf2.apply p2, ⟨p2, m2, rfl⟩, hdiff⟩
  · rintro _ ⟨a, ha, rfl⟩ _ ⟨b, hb, rfl⟩
    rw [hdiff]
    have i1 : (tf1.R.mulVec d).dot (tf1.R.mulVec a + tf1.t) = d.dot a + (tf1.R.mulVec d).dot tf1.t := by
      rw [dot_add, M3.Orthonormal.dot h1]
    have i2 : (tf1.R.mulVec d).dot (tf1.apply p1) = d.dot p1 + (tf1.R.mulVec d).dot tf1.t := by
      rw [Pose.apply, dot_add, M3.Orthonormal.dot h1]
    have i3 : ∀ q, (tf1.R.mulVec d).dot (tf2.R.mulVec q + tf2.t) =
        -(tf2.R.tr.mulVec (tf1.R.mulVec (-d))).dot q + (tf1.R.mulVec d).dot tf2.t := by
      intro q
      rw [dot_add, dot_comm (tf1.R.mulVec d), M3.dot_mulVec, M3.mulVec_neg, M3.mulVec_neg, neg_dot, neg_neg, dot_comm q]
    rw [dot_sub, dot_sub, i1, i2, i3]
    rw [show tf2.apply p2 = tf2.R.mulVec p2 + tf2.t from rfl, i3]
    have := x1 a ha
    have := x2 b hb
    linarith

/-- The use GJK makes of it: when the support in some direction lies on the negative side, the placed shapes
have no common point. The direction need not be normalized. -/
theorem C50_separates {big : ℝ} {g1 g2 : Geo ℝ} {tf1 tf2 : Pose ℝ} {d p : V3 ℝ} (h1 : tf1.Rigid) (h2 : tf2.Rigid)
    (hb1 : g1.Bounded) (hw1 : g1.WF) (hs1 : g1.Supported big d.normalized) (hb2 : g2.Bounded) (hw2 : g2.WF)
    (hs2 : g2.Supported big (tf2.R.tr.mulVec (tf1.R.mulVec (-d.normalized)))) (hd : d ≠ 0)
    (hp : gjkSupport big (MinkowskiDiff.ofShapes g1 tf1 g2 tf2) d = some p) (hneg : d.dot p < 0) :
    ∀ q, q ∈ Placed tf1.R tf1.t g1.pts → q ∉ Placed tf2.R tf2.t g2.pts := by
  intro q hq1 hq2
  obtain ⟨p', e, -, hx⟩ := C50_minkowski h1 h2 hb1 hw1 hs1 hb2 hw2 hs2 (nrm_normalized hd)
  rw [show gjkSupport big (MinkowskiDiff.ofShapes g1 tf1 g2 tf2) d = _ from e] at hp
  obtain rfl := Option.some.inj hp
  have := hx q hq1 q hq2
  rw [V3.sub_self, M3.Orthonormal.dot h1] at this
  have hz : (tf1.R.mulVec d.normalized).dot 0 = 0 := by simp [dot]
  rw [hz] at this
  have hpos := nrm_pos hd
  have h3 : d.dot p' = d.nrm * d.normalized.dot p' := by
    rw [← smul_dot, nrm_smul_normalized]
  rw [h3] at hneg
  nlinarith

/-- Non-vacuity: two unit spheres, the second 4 away, are separated by the x axis. -/
example : ∃ p, gjkSupport 1000 (MinkowskiDiff.ofShapes (.sphere 1) Pose.id (.sphere 1) ⟨M3.one, ⟨4, 0, 0⟩⟩) ⟨1, 0, 0⟩ = some p ∧
    (⟨1, 0, 0⟩ : V3 ℝ).dot p < 0 := by
  refine ⟨_, rfl, ?_⟩
  have hn : (⟨1, 0, 0⟩ : V3 ℝ).normalized = ⟨1, 0, 0⟩ := by
    have : (⟨1, 0, 0⟩ : V3 ℝ).nrm = 1 := nrm_unique zero_le_one (by simp [dot])
    rw [normalized, this, if_neg one_ne_zero]
    apply V3.ext' <;> simp
  rw [hn]
  simp [dot, MinkowskiDiff.ofShapes, Pose.apply, Pose.mul, Pose.inv, Pose.id, M3.mulVec, M3.mul, M3.tr, M3.col, M3.one, V3.get]
  norm_num

/-- C50 for the swept difference: `support(d, v)` is the support of the difference in which the first shape
is swept along the segment from 0 to `v`. -/
theorem C50_swept {big : ℝ} {m : MinkowskiDiff} {d v : V3 ℝ} {p1 p : V3 ℝ}
    (hp1 : getSupport big m.s0 d = some p1) (hx : IsSupport m.s0.pts d p1) (hp : m.support0Swept big d v = some p) :
    IsSupport {q | ∃ a ∈ m.s0.pts, ∃ t : ℝ, 0 ≤ t ∧ t ≤ 1 ∧ q = a + t • v} d p := by
  unfold MinkowskiDiff.support0Swept at hp
  rw [hp1] at hp
  split_ifs at hp with h
  · obtain rfl := Option.some.inj hp
    refine ⟨⟨p1, hx.1, 0, le_refl _, zero_le_one, by v3⟩, ?_⟩
    rintro _ ⟨a, ha, t, t0, t1, rfl⟩
    rw [dot_add, dot_smul]
    have := hx.2 a ha
    nlinarith [mul_nonneg t0 (neg_nonneg.2 h)]
  · obtain rfl := Option.some.inj hp
    refine ⟨⟨p1, hx.1, 1, zero_le_one, le_refl _, by v3⟩, ?_⟩
    rintro _ ⟨a, ha, t, t0, t1, rfl⟩
    rw [dot_add, dot_add, dot_smul]
    have := hx.2 a ha
    nlinarith [mul_nonneg (by linarith : 0 ≤ 1 - t) (not_le.1 h).le]

/-! ## The support functions given to libccd -/

namespace Ccd

theorem side_le' {s d p : ℝ} (h1 : -(s / 2) ≤ p) (h2 : p ≤ s / 2) :
    d * p ≤ d * ((if d ≥ 0 then 1 else -1) * (s / 2)) := by
  split_ifs with h
  · nlinarith [mul_le_mul_of_nonneg_left h2 h]
  · nlinarith [mul_le_mul_of_nonneg_left h1 (by linarith : 0 ≤ -d)]

theorem box_support {side : V3 ℝ} (h : 0 ≤ side.x ∧ 0 ≤ side.y ∧ 0 ≤ side.z) (d : V3 ℝ) :
    IsSupport (Shape.box side) d (box side d) := by
  obtain ⟨hx, hy, hz⟩ := h
  constructor
  · refine ⟨?_, ?_, ?_⟩ <;> simp only [box] <;> split_ifs <;> constructor <;> linarith
  · rintro q ⟨⟨a1, a2⟩, ⟨b1, b2⟩, ⟨c1, c2⟩⟩
    have h1 := side_le' (d := d.x) a1 a2
    have h2 := side_le' (d := d.y) b1 b2
    have h3 := side_le' (d := d.z) c1 c2
    simp only [box, dot]
    linarith

theorem scaled {S : Set (V3 ℝ)} {d p : V3 ℝ} (hd : d ≠ 0) (h : IsSupport S ((1 / d.nrm) • d) p) : IsSupport S d p := by
  refine ⟨h.1, fun q hq => ?_⟩
  have := h.2 q hq
  rw [smul_dot, smul_dot] at this
  have hp := nrm_pos hd
  exact le_of_mul_le_mul_left this (by positivity)

theorem unit_dot {d : V3 ℝ} (hd : d ≠ 0) : ((1 / d.nrm) • d).dot ((1 / d.nrm) • d) = 1 := by
  have hp := nrm_pos hd
  rw [smul_dot, dot_smul, ← nrm_mul_self]; field_simp

theorem sphere_support {r : ℝ} (hr : 0 ≤ r) {d : V3 ℝ} (hd : d ≠ 0) :
    ∃ p, sphere r d = some p ∧ IsSupport (Shape.ball r) d p := by
  have hp := nrm_pos hd
  refine ⟨r • ((1 / d.nrm) • d), ?_, scaled hd (ball_support hr (unit_dot hd))⟩
  unfold sphere quot
  rw [show Real.sqrt (d.dot d) = d.nrm from rfl, if_neg hp.ne', Option.map_some]
  congr 1
  apply V3.ext' <;> simp only [smul_x, smul_y, smul_z] <;> ring

theorem capsule_support {r lz : ℝ} (hr : 0 ≤ r) (hl : 0 ≤ lz) {d : V3 ℝ} (hd : d ≠ 0) :
    ∃ p, capsule r lz d = some p ∧ IsSupport (Shape.capsule r lz) d p := by
  have hp := nrm_pos hd
  set u := (1 / d.nrm) • d with hu
  refine ⟨if d.z > 0 then (⟨0, 0, lz / 2⟩ : V3 ℝ) + r • u else (⟨0, 0, -(lz / 2)⟩ : V3 ℝ) + r • u, ?_, ?_⟩
  · unfold capsule quot
    rw [show Real.sqrt (d.dot d) = d.nrm from rfl, if_neg hp.ne', Option.map_some]
  · have h1 := Support.capsule_support hr hl (unit_dot hd)
    rw [← hu] at h1
    have huu : u.dot u = 1 := unit_dot hd
    have hdu : d.dot u = d.nrm := by rw [hu, dot_smul, ← nrm_mul_self]; field_simp
    have hmem : ∀ c, -(lz / 2) ≤ c → c ≤ lz / 2 → (⟨0, 0, c⟩ : V3 ℝ) + r • u ∈ Shape.capsule r lz := by
      intro c c1 c2
      refine ⟨c, c1, c2, ?_⟩
      have : u.x * u.x + u.y * u.y + u.z * u.z = 1 := huu
      simp only [add_x, add_y, add_z, smul_x, smul_y, smul_z]
      nlinarith
    constructor
    · split_ifs
      · exact hmem _ (by linarith) (le_refl _)
      · exact hmem _ (le_refl _) (by linarith)
    · rintro q hq
      have h2 := (scaled hd h1).2 q hq
      refine h2.trans ?_
      unfold Support.capsule
      simp only
      have e : ∀ c, d.dot ((⟨0, 0, c⟩ : V3 ℝ) + r • u) = d.z * c + r * d.nrm := by
        intro c; rw [dot_add, dot_smul, hdu]; simp only [dot]; ring
      split_ifs <;> rw [e, e] <;> nlinarith

theorem triLoop_spec (d c : V3 ℝ) (vs : List (V3 ℝ)) (m : ℝ) (best : Option (V3 ℝ)) :
    (∀ v ∈ vs, d.dot (v - c) ≤ m) ∧ triLoop d c vs m best = best ∨
    ∃ p, triLoop d c vs m best = some p ∧ p ∈ vs ∧ m < d.dot (p - c) ∧ ∀ v ∈ vs, d.dot (v - c) ≤ d.dot (p - c) := by
  induction vs generalizing m best with
  | nil => exact Or.inl ⟨by simp, rfl⟩
  | cons v vs ih =>
    unfold triLoop
    split
    · next h =>
      right
      rcases ih (d.dot (v - c)) (some v) with ⟨h1, h2⟩ | ⟨p, h0, h1, h2, h3⟩
      · refine ⟨v, h2, List.mem_cons_self, h, ?_⟩
        intro u hu
        rcases List.mem_cons.1 hu with rfl | hu
        · exact le_refl _
        · exact h1 u hu
      · refine ⟨p, h0, List.mem_cons_of_mem _ h1, h.trans h2, ?_⟩
        intro u hu
        rcases List.mem_cons.1 hu with rfl | hu
        · exact h2.le
        · exact h3 u hu
    · next h =>
      rcases ih m best with ⟨h1, h2⟩ | ⟨p, h0, h1, h2, h3⟩
      · left
        refine ⟨?_, h2⟩
        intro u hu
        rcases List.mem_cons.1 hu with rfl | hu
        · exact not_lt.1 h
        · exact h1 u hu
      · right
        refine ⟨p, h0, List.mem_cons_of_mem _ h1, h2, ?_⟩
        intro u hu
        rcases List.mem_cons.1 hu with rfl | hu
        · exact (not_lt.1 h).trans h2.le
        · exact h3 u hu

theorem triangle_support {big : ℝ} (hbig : 0 < big) (a b c d : V3 ℝ) :
    ∃ p, triLoop d (centre a b c) [a, b, c] (-big) none = some p ∧ IsSupport (Shape.triangle a b c) d p := by
  rcases triLoop_spec d (centre a b c) [a, b, c] (-big) none with ⟨h1, -⟩ | ⟨p, h0, h1, -, h3⟩
  · exfalso
    have ha := h1 a (by simp)
    have hb := h1 b (by simp)
    have hc := h1 c (by simp)
    have hsum : d.dot (a - centre a b c) + d.dot (b - centre a b c) + d.dot (c - centre a b c) = 0 := by
      simp only [dot, centre, sub_x, sub_y, sub_z]; ring
    linarith
  · refine ⟨p, h0, .pt h1, fun q hq => ?_⟩
    refine le_of_hull (vs := [a, b, c]) ?_ hq
    intro v hv
    have := h3 v hv
    rw [dot_sub, dot_sub] at this
    linarith

theorem sign_le {eps x h : ℝ} (he : 0 ≤ eps) (hh : 0 ≤ h) {z : ℝ} (h1 : -h ≤ z) (h2 : z ≤ h) :
    x * z ≤ x * (sign eps x * h) + eps * h ∧ -h ≤ sign eps x * h ∧ sign eps x * h ≤ h := by
  unfold sign isZero
  by_cases h0 : |x| < eps
  · rw [decide_eq_true h0, if_pos rfl]
    refine ⟨?_, by linarith, by linarith⟩
    have : x * z ≤ |x| * h := by
      calc x * z ≤ |x * z| := le_abs_self _
        _ = |x| * |z| := abs_mul _ _
        _ ≤ _ := mul_le_mul_of_nonneg_left (abs_le.2 ⟨h1, h2⟩) (abs_nonneg _)
    nlinarith
  · rw [decide_eq_false h0]
    simp only [Bool.false_eq_true, if_false]
    have := mul_nonneg he hh
    split_ifs with h3
    · refine ⟨?_, by linarith, by linarith⟩
      nlinarith [mul_le_mul_of_nonneg_left h1 (by linarith : 0 ≤ -x)]
    · refine ⟨?_, by linarith, by linarith⟩
      nlinarith [mul_le_mul_of_nonneg_left h2 (not_lt.1 h3)]

theorem cylinder_support {eps r lz : ℝ} (he : 0 < eps) (hr : 0 ≤ r) (hl : 0 ≤ lz) (d : V3 ℝ) :
    IsSupportUpTo (eps * (r + lz / 2)) (Shape.cylinder r lz) d (cylinder eps r lz d) := by
  unfold cylinder
  simp only
  have hh : 0 ≤ lz / 2 := by linarith
  have hsg := sign_le (x := d.z) he.le hh (z := 0) (by linarith) hh
  have her : 0 ≤ eps * r := mul_nonneg he.le hr
  by_cases h0 : isZero eps (Real.sqrt (d.x * d.x + d.y * d.y)) = true
  · rw [if_pos h0]
    refine ⟨⟨by simp only; nlinarith [mul_self_nonneg r], hsg.2⟩, ?_⟩
    rintro q ⟨h1, h2, h3⟩
    have h4 := disc_le hr d h1
    have h5 := (sign_le (x := d.z) he.le hh h2 h3).1
    have h6 : Real.sqrt (d.x * d.x + d.y * d.y) < eps := by
      have := of_decide_eq_true h0
      rwa [abs_of_nonneg (Real.sqrt_nonneg _)] at this
    simp only [dot]
    nlinarith [mul_le_mul_of_nonneg_left h6.le hr]
  · rw [if_neg h0]
    have h6 : eps ≤ Real.sqrt (d.x * d.x + d.y * d.y) := by
      have : ¬ |Real.sqrt (d.x * d.x + d.y * d.y)| < eps := by simpa [isZero] using h0
      rw [abs_of_nonneg (Real.sqrt_nonneg _)] at this
      exact not_lt.1 this
    obtain ⟨r1, r2⟩ := rim (r := r) (he.trans_le h6)
    refine ⟨⟨r1.le, hsg.2⟩, ?_⟩
    rintro q ⟨h1, h2, h3⟩
    have h4 := disc_le hr d h1
    have h5 := (sign_le (x := d.z) he.le hh h2 h3).1
    simp only [dot]
    nlinarith

end Ccd

/-- A support in the frame of the shape gives a support at the pose. -/
theorem IsSupportUpTo.placed {e : ℝ} {S : Set (V3 ℝ)} {X : Pose ℝ} {d p : V3 ℝ}
    (h : IsSupportUpTo e S (X.R.tr.mulVec d) p) : IsSupportUpTo e (Placed X.R X.t S) d (X.apply p) := by
  refine ⟨⟨p, h.1, rfl⟩, ?_⟩
  rintro _ ⟨q, hq, rfl⟩
  have i : ∀ u, d.dot (X.R.mulVec u + X.t) = (X.R.tr.mulVec d).dot u + d.dot X.t := by
    intro u
    rw [dot_add, dot_comm d, M3.dot_mulVec, dot_comm u]
  rw [i, show X.apply p = X.R.mulVec p + X.t from rfl, i]
  linarith [h.2 q hq]

theorem IsSupport.upTo {S : Set (V3 ℝ)} {d p : V3 ℝ} (h : IsSupport S d p) : IsSupportUpTo 0 S d p :=
  ⟨h.1, fun q hq => by rw [add_zero]; exact h.2 q hq⟩

/-- The error of a libccd support function: only the cylinder has one, from `ccdIsZero`. -/
noncomputable def Ccd.slack (eps : ℝ) : Geo ℝ → ℝ
  | .cylinder r lz => eps * (r + lz / 2)
  | _ => 0

/-- C50 for the support functions given to libccd, which is used by default: in every direction but zero
the support point is a point of the placed shape, extreme in that direction; for a cylinder up to `CCD_EPS`
times its size. For a convex this says that `findExtremeVertex` has to be right (C51). -/
theorem C50_libccd {eps big : ℝ} (he : 0 < eps) (hbig : 0 < big) {extreme : V3 ℝ → Option (V3 ℝ)} {g : Geo ℝ} {tf : Pose ℝ} {d : V3 ℝ}
    (hR : tf.Rigid) (hb : g.Bounded) (hw : g.WF) (hs : g.Supported big (tf.R.tr.mulVec d)) (hd : d ≠ 0)
    (hx : ∀ vs, g = .convex vs → ∃ p, extreme (tf.R.tr.mulVec d) = some p ∧ IsSupport (Shape.convex vs) (tf.R.tr.mulVec d) p) :
    ∃ p, Ccd.support eps big extreme g tf d = some p ∧ IsSupportUpTo (Ccd.slack eps g) (Placed tf.R tf.t g.pts) d p := by
  have hd' : tf.R.tr.mulVec d ≠ 0 := by
    intro h
    have := M3.Orthonormal.mul_tr hR d
    rw [h, M3.mulVec_zero] at this
    exact hd this.symm
  have key : ∃ p, Ccd.localSupport eps big extreme g (tf.R.tr.mulVec d) = some p ∧
      IsSupportUpTo (Ccd.slack eps g) g.pts (tf.R.tr.mulVec d) p := by
    cases g with
    | box s => exact ⟨_, rfl, (Ccd.box_support hw _).upTo⟩
    | sphere r =>
      obtain ⟨p, h1, h2⟩ := Ccd.sphere_support hw hd'
      exact ⟨p, h1, h2.upTo⟩
    | capsule r lz =>
      obtain ⟨p, h1, h2⟩ := Ccd.capsule_support hw.1 hw.2 hd'
      exact ⟨p, h1, h2.upTo⟩
    | cylinder r lz => exact ⟨_, rfl, Ccd.cylinder_support he hw.1 hw.2 _⟩
    | cone r lz =>
      obtain ⟨p, h1, h2⟩ := cone_support hw.1 hw.2 hs (tf.R.tr.mulVec d)
      exact ⟨p, h1, h2.upTo⟩
    | ellipsoid s =>
      obtain ⟨p, h1, h2⟩ := ellipsoid_support hs hd'
      exact ⟨p, h1, h2.upTo⟩
    | halfspace n k => exact hb.elim
    | plane n k => exact hb.elim
    | triangle a b c =>
      obtain ⟨p, h1, h2⟩ := Ccd.triangle_support hbig a b c (tf.R.tr.mulVec d)
      exact ⟨p, h1, h2.upTo⟩
    | convex vs =>
      obtain ⟨p, h1, h2⟩ := hx vs rfl
      exact ⟨p, h1, h2.upTo⟩
  obtain ⟨p, h1, h2⟩ := key
  exact ⟨tf.apply p, by unfold Ccd.support; rw [h1]; rfl, h2.placed⟩

/-- Non-vacuity: a capsule at the identity pose in the direction of its axis. -/
example : ∃ p, Ccd.support (1 / 1000) 1000 (fun _ => none) (.capsule 1 2) Pose.id (⟨0, 0, 5⟩ : V3 ℝ) = some p ∧
    IsSupportUpTo 0 (Placed (Pose.id : Pose ℝ).R (Pose.id : Pose ℝ).t (Geo.capsule 1 2 : Geo ℝ).pts) ⟨0, 0, 5⟩ p :=
  C50_libccd (g := .capsule 1 2) (by norm_num) (by norm_num) Pose.id_rigid trivial ⟨by norm_num, by norm_num⟩ trivial
    (fun h => by have := congrArg V3.z h; norm_num at this) (fun vs h => by cases h)

end Fcl
