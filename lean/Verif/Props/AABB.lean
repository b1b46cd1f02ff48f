import Verif.AABB.Lemmas
import Mathlib.Tactic.NormNum
import Mathlib.Tactic.FieldSimp
import Mathlib.Tactic.FinCases
import Mathlib.Algebra.Order.Floor.Ring

/-!
# C01–C04: axis-aligned boxes
-/

namespace Fcl
open AABB

/-! ## C01 -/

/-- C01: `overlap` is true exactly when the boxes share a point. -/
theorem C01_overlap_iff_common_point {K : Type*} [LinearOrder K] (a b : AABB K)
    (ha : a.Valid) (hb : b.Valid) :
    a.overlap b = true ↔ ∃ p, p ∈ a.pts ∧ p ∈ b.pts := by
  rw [overlap_iff]
  constructor
  · rintro ⟨⟨h1, h2⟩, ⟨h3, h4⟩, h5, h6⟩
    refine ⟨⟨max a.lo.x b.lo.x, max a.lo.y b.lo.y, max a.lo.z b.lo.z⟩, ?_, ?_⟩ <;>
      simp only [pts, Set.mem_ofPred_eq, le_max_left, le_max_right, max_le_iff, true_and] <;>
      obtain ⟨a1, a2, a3⟩ := ha <;> obtain ⟨b1, b2, b3⟩ := hb <;> tauto
  · rintro ⟨p, ⟨⟨h1, h2⟩, ⟨h3, h4⟩, h5, h6⟩, ⟨k1, k2⟩, ⟨k3, k4⟩, k5, k6⟩
    exact ⟨⟨h1.trans k2, k1.trans h2⟩, ⟨h3.trans k4, k3.trans h4⟩, h5.trans k6, k5.trans h6⟩

/-- C01: `contain(b)` is true exactly when every point of `b` is a point of `a`. -/
theorem C01_contain_iff_subset {K : Type*} [LinearOrder K] (a b : AABB K) (hb : b.Valid) :
    a.contain b = true ↔ b.pts ⊆ a.pts := by
  rw [contain_iff]
  constructor
  · rintro ⟨⟨h1, h2⟩, ⟨h3, h4⟩, h5, h6⟩ p ⟨⟨k1, k2⟩, ⟨k3, k4⟩, k5, k6⟩
    exact ⟨⟨h1.trans k1, k2.trans h2⟩, ⟨h3.trans k3, k4.trans h4⟩, h5.trans k5, k6.trans h6⟩
  · intro h
    obtain ⟨v1, v2, v3⟩ := hb
    obtain ⟨⟨h1, -⟩, ⟨h2, -⟩, h3, -⟩ := @h b.lo ⟨⟨le_rfl, v1⟩, ⟨le_rfl, v2⟩, le_rfl, v3⟩
    obtain ⟨⟨-, k1⟩, ⟨-, k2⟩, -, k3⟩ := @h b.hi ⟨⟨v1, le_rfl⟩, ⟨v2, le_rfl⟩, v3, le_rfl⟩
    exact ⟨⟨h1, k1⟩, ⟨h2, k2⟩, h3, k3⟩

/-- C01: `contain(p)` is membership. -/
theorem C01_contain_point {K : Type*} [LinearOrder K] (a : AABB K) (p : V3 K) :
    a.containPt p = true ↔ p ∈ a.pts := containPt_iff a p

/-- C01: `axisOverlap(b, i)` is true exactly when some coordinate value lies in both projections. -/
theorem C01_axisOverlap {K : Type*} [LinearOrder K] (a b : AABB K) (i : Fin 3)
    (ha : a.lo.get i ≤ a.hi.get i) (hb : b.lo.get i ≤ b.hi.get i) :
    a.axisOverlap b i = true ↔
      ∃ c, (a.lo.get i ≤ c ∧ c ≤ a.hi.get i) ∧ (b.lo.get i ≤ c ∧ c ≤ b.hi.get i) := by
  unfold axisOverlap
  constructor
  · split
    · simp
    · split
      · simp
      · rename_i h1 h2
        rw [gt_iff_lt, not_lt] at h1
        rw [not_lt] at h2
        intro _
        exact ⟨max (a.lo.get i) (b.lo.get i), ⟨le_max_left _ _, max_le ha h2⟩,
          le_max_right _ _, max_le h1 hb⟩
  · rintro ⟨c, ⟨h1, h2⟩, h3, h4⟩
    rw [if_neg (not_lt.2 (h1.trans h4)), if_neg (not_lt.2 (h3.trans h2))]

/-- C01: `overlap(b, part)` returns the same flag as `overlap(b)`, leaves `part` alone when it is
false, and otherwise leaves in `part` exactly the common points. -/
theorem C01_overlap_part {K : Type*} [LinearOrder K] (a b part : AABB K) :
    (a.overlapPart b part).1 = a.overlap b ∧
    (a.overlap b = false → (a.overlapPart b part).2 = part) ∧
    (a.overlap b = true → (a.overlapPart b part).2.pts = a.pts ∩ b.pts) := by
  unfold overlapPart
  cases h : a.overlap b
  · simp
  · simp only [Bool.not_true, Bool.false_eq_true, if_false, true_and, forall_const, reduceCtorEq,
      IsEmpty.forall_iff]
    ext p
    simp only [pts, V3.cmax, V3.cmin, Set.mem_ofPred_eq, Set.mem_inter_iff, max_le_iff, le_min_iff]
    tauto

/-- Non-vacuity: touching boxes overlap, separated ones do not, all valid. -/
example : (⟨⟨0, 0, 0⟩, ⟨1, 1, 1⟩⟩ : AABB ℤ).Valid ∧ (⟨⟨1, 0, 0⟩, ⟨2, 1, 1⟩⟩ : AABB ℤ).Valid ∧
    (⟨⟨0, 0, 0⟩, ⟨1, 1, 1⟩⟩ : AABB ℤ).overlap ⟨⟨1, 0, 0⟩, ⟨2, 1, 1⟩⟩ = true ∧
    (⟨⟨0, 0, 0⟩, ⟨1, 1, 1⟩⟩ : AABB ℤ).overlap ⟨⟨2, 0, 0⟩, ⟨3, 1, 1⟩⟩ = false := by
  simp only [Valid]; decide

/-! ## C02 -/

/-- C02: the merge contains both operands and is contained in every box containing both. -/
theorem C02_merge_least {K : Type*} [LinearOrder K] (a b : AABB K) (ha : a.Valid) (hb : b.Valid) :
    a.pts ⊆ (a.merge b).pts ∧ b.pts ⊆ (a.merge b).pts ∧ (a.merge b).Valid ∧
    ∀ c : AABB K, a.pts ⊆ c.pts → b.pts ⊆ c.pts → (a.merge b).pts ⊆ c.pts := by
  refine ⟨(C01_contain_iff_subset _ _ ha).1 (merge_contain_left a b),
    (C01_contain_iff_subset _ _ hb).1 (merge_contain_right a b), ha.merge_left, ?_⟩
  intro c h1 h2
  exact (C01_contain_iff_subset _ _ ha.merge_left).1
    (merge_least ((C01_contain_iff_subset _ _ ha).2 h1) ((C01_contain_iff_subset _ _ hb).2 h2))

/-- A box is the smallest box around a set of points. -/
def IsLeastBox {K : Type*} [LinearOrder K] (b : AABB K) (P : Set (V3 K)) : Prop :=
  P ⊆ b.pts ∧ ∀ c : AABB K, P ⊆ c.pts → b.pts ⊆ c.pts

/-- C02: `a += p` is the smallest box around `a` and `p`. -/
theorem C02_addPt_least {K : Type*} [LinearOrder K] (a : AABB K) (p : V3 K) (ha : a.Valid) :
    IsLeastBox (a.addPt p) (a.pts ∪ {p}) := by
  have hp : (ofPoint p).Valid := ⟨le_rfl, le_rfl, le_rfl⟩
  have hpp : (ofPoint p).pts = {p} := by
    ext q
    simp only [pts, ofPoint, Set.mem_ofPred_eq, Set.mem_singleton_iff]
    constructor
    · rintro ⟨⟨h1, h2⟩, ⟨h3, h4⟩, h5, h6⟩
      cases p; cases q
      simp only [V3.mk.injEq]
      exact ⟨le_antisymm h2 h1, le_antisymm h4 h3, le_antisymm h6 h5⟩
    · rintro rfl; simp
  have h := C02_merge_least a (ofPoint p) ha hp
  rw [hpp] at h
  refine ⟨Set.union_subset h.1 h.2.1, fun c hc => ?_⟩
  exact h.2.2.2 c (Set.union_subset_iff.1 hc).1 (Set.union_subset_iff.1 hc).2

/-- C02: the 1-, 2- and 3-point constructors give the smallest box around those points. -/
theorem C02_constructors_least {K : Type*} [LinearOrder K] (a b c : V3 K) :
    IsLeastBox (ofPoint a) {a} ∧ IsLeastBox (ofTwo a b) {a, b} ∧
    IsLeastBox (ofThree a b c) {a, b, c} := by
  refine ⟨⟨?_, ?_⟩, ⟨?_, ?_⟩, ⟨?_, ?_⟩⟩
  · rintro p rfl; simp [pts, ofPoint]
  · intro c hc q hq
    have h := hc rfl
    simp only [pts, ofPoint, Set.mem_ofPred_eq] at h hq ⊢
    obtain ⟨⟨h1, h2⟩, ⟨h3, h4⟩, h5, h6⟩ := h
    obtain ⟨⟨k1, k2⟩, ⟨k3, k4⟩, k5, k6⟩ := hq
    exact ⟨⟨h1.trans k1, k2.trans h2⟩, ⟨h3.trans k3, k4.trans h4⟩, h5.trans k5, k6.trans h6⟩
  · rintro p (rfl | rfl) <;> simp [pts, ofTwo, V3.cmin, V3.cmax]
  · intro d hd q hq
    have h := hd (Set.mem_insert a {b})
    have h' := hd (Set.mem_insert_of_mem a rfl)
    simp only [pts, ofTwo, V3.cmin, V3.cmax, Set.mem_ofPred_eq, min_le_iff, le_max_iff] at h h' hq ⊢
    obtain ⟨⟨h1, h2⟩, ⟨h3, h4⟩, h5, h6⟩ := h
    obtain ⟨⟨g1, g2⟩, ⟨g3, g4⟩, g5, g6⟩ := h'
    obtain ⟨⟨k1, k2⟩, ⟨k3, k4⟩, k5, k6⟩ := hq
    refine ⟨⟨?_, ?_⟩, ⟨?_, ?_⟩, ?_, ?_⟩ <;> first
      | (rcases k1 with k | k <;> first | exact h1.trans k | exact g1.trans k)
      | (rcases k2 with k | k <;> first | exact k.trans h2 | exact k.trans g2)
      | (rcases k3 with k | k <;> first | exact h3.trans k | exact g3.trans k)
      | (rcases k4 with k | k <;> first | exact k.trans h4 | exact k.trans g4)
      | (rcases k5 with k | k <;> first | exact h5.trans k | exact g5.trans k)
      | (rcases k6 with k | k <;> first | exact k.trans h6 | exact k.trans g6)
  · rintro p (rfl | rfl | rfl) <;> simp [pts, ofThree, V3.cmin, V3.cmax]
  · intro d hd q hq
    have h := hd (Set.mem_insert a {b, c})
    have h' := hd (Set.mem_insert_of_mem a (Set.mem_insert b {c}))
    have h'' := hd (Set.mem_insert_of_mem a (Set.mem_insert_of_mem b rfl))
    simp only [pts, ofThree, V3.cmin, V3.cmax, Set.mem_ofPred_eq, min_le_iff, le_max_iff]
      at h h' h'' hq ⊢
    obtain ⟨⟨h1, h2⟩, ⟨h3, h4⟩, h5, h6⟩ := h
    obtain ⟨⟨g1, g2⟩, ⟨g3, g4⟩, g5, g6⟩ := h'
    obtain ⟨⟨f1, f2⟩, ⟨f3, f4⟩, f5, f6⟩ := h''
    obtain ⟨⟨k1, k2⟩, ⟨k3, k4⟩, k5, k6⟩ := hq
    refine ⟨⟨?_, ?_⟩, ⟨?_, ?_⟩, ?_, ?_⟩ <;> first
      | (rcases k1 with (k | k) | k <;> first | exact h1.trans k | exact g1.trans k | exact f1.trans k)
      | (rcases k2 with (k | k) | k <;> first | exact k.trans h2 | exact k.trans g2 | exact k.trans f2)
      | (rcases k3 with (k | k) | k <;> first | exact h3.trans k | exact g3.trans k | exact f3.trans k)
      | (rcases k4 with (k | k) | k <;> first | exact k.trans h4 | exact k.trans g4 | exact k.trans f4)
      | (rcases k5 with (k | k) | k <;> first | exact h5.trans k | exact g5.trans k | exact f5.trans k)
      | (rcases k6 with (k | k) | k <;> first | exact k.trans h6 | exact k.trans g6 | exact k.trans f6)

/-- All coordinates of a point are within the finite range of the scalar type. -/
def V3.InRange {K : Type*} [LinearOrder K] (big nbig : K) (p : V3 K) : Prop :=
  (nbig ≤ p.x ∧ p.x ≤ big) ∧ (nbig ≤ p.y ∧ p.y ≤ big) ∧ (nbig ≤ p.z ∧ p.z ≤ big)

/-- C02: starting from the default (empty) box and adding any non-empty sequence of points in range
gives the smallest box around exactly those points. -/
theorem C02_accumulate_least {K : Type*} [LinearOrder K] (big nbig : K) (ps : List (V3 K))
    (hne : ps ≠ []) (hr : ∀ p ∈ ps, p.InRange big nbig) :
    IsLeastBox (ps.foldl addPt (AABB.default big nbig)) {p | p ∈ ps} := by
  have key : ∀ (qs : List (V3 K)) (b : AABB K) (P : Set (V3 K)), b.Valid → IsLeastBox b P →
      IsLeastBox (qs.foldl addPt b) (P ∪ {p | p ∈ qs}) := by
    intro qs
    induction qs with
    | nil => intro b P _ h; simpa using h
    | cons q qs ih =>
      intro b P hv h
      have hq := C02_addPt_least b q hv
      have hv' : (b.addPt q).Valid := by
        obtain ⟨v1, v2, v3⟩ := hv
        refine ⟨?_, ?_, ?_⟩ <;> simp [addPt, V3.cmin, V3.cmax, *]
      have := ih (b.addPt q) (P ∪ {q}) hv'
        ⟨Set.union_subset (h.1.trans (Set.subset_union_left.trans hq.1))
          (Set.subset_union_right.trans hq.1),
         fun c hc => hq.2 c (Set.union_subset (h.2 c (Set.union_subset_iff.1 hc).1)
          (Set.union_subset_iff.1 hc).2)⟩
      have e : P ∪ {p | p ∈ q :: qs} = P ∪ {q} ∪ {p | p ∈ qs} := by
        ext r; simp; tauto
      rw [e]; exact this
  cases ps with
  | nil => exact absurd rfl hne
  | cons p ps =>
    have h0 : (AABB.default big nbig).addPt p = ofPoint p := by
      obtain ⟨⟨r1, r2⟩, ⟨r3, r4⟩, r5, r6⟩ := hr p (by simp)
      simp [AABB.default, addPt, ofPoint, V3.cmin, V3.cmax, *]
    have h1 := key ps (ofPoint p) {p} ⟨le_rfl, le_rfl, le_rfl⟩ (C02_constructors_least p p p).1
    have e : {q | q ∈ p :: ps} = {p} ∪ {q | q ∈ ps} := by ext r; simp
    rw [List.foldl_cons, h0, e]; exact h1

/-- Non-vacuity: three concrete points in range. -/
example : ([⟨1, 2, 3⟩, ⟨-4, 5, 0⟩, ⟨2, 2, 2⟩] : List (V3 ℤ)).foldl addPt (AABB.default 100 (-100)) =
    ⟨⟨-4, 2, 0⟩, ⟨2, 5, 3⟩⟩ := by decide

/-! ## C03 -/

private theorem gap_axis (r al ah bl bh p q : ℝ) (hp : al ≤ p ∧ p ≤ ah) (hq : bl ≤ q ∧ q ≤ bh) :
    distStep r al ah bl bh ≤ r + (p - q) ^ 2 := by
  unfold distStep
  split
  · rename_i h
    show r + (bh - al) * (bh - al) ≤ _
    nlinarith [hp.1, hq.2]
  · split
    · rename_i h
      show r + (ah - bl) * (ah - bl) ≤ _
      nlinarith [hp.2, hq.1]
    · nlinarith [sq_nonneg (p - q)]

private theorem distStep_add (r al ah bl bh : ℝ) :
    distStep r al ah bl bh = r + distStep 0 al ah bl bh := by
  unfold distStep
  split
  · show r + _ * _ = r + (0 + _ * _)
    ring
  · split
    · show r + _ * _ = r + (0 + _ * _)
      ring
    · ring

private theorem gap_attained (al ah bl bh : ℝ) (ha : al ≤ ah) (hb : bl ≤ bh) :
    ∃ p q, (al ≤ p ∧ p ≤ ah) ∧ (bl ≤ q ∧ q ≤ bh) ∧ distStep 0 al ah bl bh = (p - q) ^ 2 := by
  unfold distStep
  split
  · refine ⟨al, bh, ⟨le_rfl, ha⟩, ⟨hb, le_rfl⟩, ?_⟩
    show 0 + (bh - al) * (bh - al) = _
    ring
  · split
    · refine ⟨ah, bl, ⟨ha, le_rfl⟩, ⟨le_rfl, hb⟩, ?_⟩
      show 0 + (ah - bl) * (ah - bl) = _
      ring
    · rename_i h1 h2
      simp only [gt_iff_lt, not_lt] at h1 h2
      exact ⟨max al bl, max al bl, ⟨le_max_left _ _, max_le ha h2⟩,
        ⟨le_max_right _ _, max_le h1 hb⟩, by simp⟩

private theorem gap_zero (al ah bl bh : ℝ) :
    0 ≤ distStep 0 al ah bl bh ∧
    (distStep 0 al ah bl bh = 0 ↔ al ≤ bh ∧ bl ≤ ah) := by
  unfold distStep
  split
  · rename_i h
    constructor
    · show 0 ≤ 0 + (bh - al) * (bh - al)
      nlinarith
    · constructor
      · intro h'
        have h'' : 0 + (bh - al) * (bh - al) = 0 := h'
        nlinarith
      · rintro ⟨h1, -⟩; linarith
  · split
    · rename_i h
      constructor
      · show 0 ≤ 0 + (ah - bl) * (ah - bl)
        nlinarith
      · constructor
        · intro h'
          have h'' : 0 + (ah - bl) * (ah - bl) = 0 := h'
          nlinarith
        · rintro ⟨-, h1⟩; linarith
    · rename_i h1 h2
      simp only [gt_iff_lt, not_lt] at h1 h2
      simp [h1, h2]

private theorem distance_eq (a b : AABB ℝ) : a.distance b =
    Real.sqrt (distStep 0 a.lo.x a.hi.x b.lo.x b.hi.x + distStep 0 a.lo.y a.hi.y b.lo.y b.hi.y +
      distStep 0 a.lo.z a.hi.z b.lo.z b.hi.z) := by
  show Real.sqrt _ = _
  rw [distStep_add _ a.lo.z, distStep_add _ a.lo.y]
  rfl

/-- C03: `distance` is at most the distance of any two points of the boxes. -/
theorem C03_distance_lower_bound (a b : AABB ℝ) (p q : V3 ℝ) (hp : p ∈ a.pts) (hq : q ∈ b.pts) :
    a.distance b ≤ p.dist q := by
  obtain ⟨hp1, hp2, hp3⟩ := hp
  obtain ⟨hq1, hq2, hq3⟩ := hq
  rw [distance_eq]
  apply Real.sqrt_le_sqrt
  have h1 := gap_axis 0 _ _ _ _ _ _ hp1 hq1
  have h2 := gap_axis 0 _ _ _ _ _ _ hp2 hq2
  have h3 := gap_axis 0 _ _ _ _ _ _ hp3 hq3
  linarith

/-- C03: `distance` is attained by a pair of points of the boxes. -/
theorem C03_distance_attained (a b : AABB ℝ) (ha : a.Valid) (hb : b.Valid) :
    ∃ p q, p ∈ a.pts ∧ q ∈ b.pts ∧ a.distance b = p.dist q := by
  obtain ⟨p1, q1, hp1, hq1, h1⟩ := gap_attained _ _ _ _ ha.1 hb.1
  obtain ⟨p2, q2, hp2, hq2, h2⟩ := gap_attained _ _ _ _ ha.2.1 hb.2.1
  obtain ⟨p3, q3, hp3, hq3, h3⟩ := gap_attained _ _ _ _ ha.2.2 hb.2.2
  refine ⟨⟨p1, p2, p3⟩, ⟨q1, q2, q3⟩, ⟨hp1, hp2, hp3⟩, ⟨hq1, hq2, hq3⟩, ?_⟩
  rw [distance_eq, h1, h2, h3]
  rfl

/-- C03: `distance` is zero exactly when the boxes overlap. -/
theorem C03_distance_zero_iff (a b : AABB ℝ) : a.distance b = 0 ↔ a.overlap b = true := by
  rw [distance_eq, overlap_iff]
  have g1 := gap_zero a.lo.x a.hi.x b.lo.x b.hi.x
  have g2 := gap_zero a.lo.y a.hi.y b.lo.y b.hi.y
  have g3 := gap_zero a.lo.z a.hi.z b.lo.z b.hi.z
  rw [Real.sqrt_eq_zero (add_nonneg (add_nonneg g1.1 g2.1) g3.1)]
  constructor
  · intro h
    have e1 : distStep 0 a.lo.x a.hi.x b.lo.x b.hi.x = 0 := by linarith [g1.1, g2.1, g3.1]
    have e2 : distStep 0 a.lo.y a.hi.y b.lo.y b.hi.y = 0 := by linarith [g1.1, g2.1, g3.1]
    have e3 : distStep 0 a.lo.z a.hi.z b.lo.z b.hi.z = 0 := by linarith [g1.1, g2.1, g3.1]
    exact ⟨g1.2.1 e1, g2.2.1 e2, g3.2.1 e3⟩
  · rintro ⟨h1, h2, h3⟩
    rw [g1.2.2 h1, g2.2.2 h2, g3.2.2 h3]; simp

/-- C03: enlarging either box never increases `distance`. Holds for exact and for any monotone
rounded arithmetic. -/
theorem C03_distance_antitone {K : Type*} [LinearOrder K] [ArithOps K] [LawfulArith K]
    (a a' b b' : AABB K) (ha : a.Valid) (hb : b.Valid) (h : a.pts ⊆ a'.pts) (h' : b.pts ⊆ b'.pts) :
    a'.distance b' ≤ a.distance b :=
  distance_anti ((C01_contain_iff_subset _ _ ha).2 h) ((C01_contain_iff_subset _ _ hb).2 h') ha hb

/-- C03, the rounded instance spelled out: with every operation rounded by the same monotone
rounding, enlarging a box still never increases the computed distance. -/
theorem C03_distance_antitone_rounded (R : Rounding) (a a' b b' : AABB R.Num)
    (ha : a.Valid) (hb : b.Valid) (h : a.pts ⊆ a'.pts) (h' : b.pts ⊆ b'.pts) :
    a'.distance b' ≤ a.distance b := C03_distance_antitone a a' b b' ha hb h h'

/-- Non-vacuity: valid boxes at distance 5 (gap 3 in x, 4 in y). -/
example : (⟨⟨0, 0, 0⟩, ⟨1, 1, 1⟩⟩ : AABB ℝ).Valid ∧ (⟨⟨4, 5, 0⟩, ⟨6, 7, 1⟩⟩ : AABB ℝ).Valid ∧
    (⟨⟨0, 0, 0⟩, ⟨1, 1, 1⟩⟩ : AABB ℝ).distance ⟨⟨4, 5, 0⟩, ⟨6, 7, 1⟩⟩ = 5 := by
  refine ⟨by norm_num [Valid], by norm_num [Valid], ?_⟩
  have : distStep (K := ℝ) 0 0 1 4 6 = 9 ∧ distStep (K := ℝ) 0 0 1 5 7 = 16 ∧
      distStep (K := ℝ) 0 0 1 0 1 = 0 := by
    refine ⟨?_, ?_, ?_⟩ <;> norm_num [distStep, ArithOps.add, ArithOps.mul, ArithOps.sub]
  rw [distance_eq, this.1, this.2.1, this.2.2]
  rw [show (9 + 16 + 0 : ℝ) = 5 ^ 2 by norm_num]
  exact Real.sqrt_sq (by norm_num)

/-- Non-vacuity of the rounding assumption: rounding down to integers. -/
noncomputable example : Rounding where
  rnd x := (⌊x⌋ : ℝ)
  mono x y h := by
    show ((⌊x⌋ : ℤ) : ℝ) ≤ (⌊y⌋ : ℤ)
    exact_mod_cast Int.floor_le_floor h
  idem x := by simp
  zero := by simp

/-! ## C04 -/

/-- `0.5 * (a + b)`. -/
noncomputable def halfR (a b : ℝ) : ℝ := 0.5 * (a + b)

/-- C04 is false of the code: for `a = [0,10]×[0,1]²` and `b = [1,2]×[0,1]²` the point `Q` written
by `distance(b, &P, &Q)` has `x = 5.5`, outside `b`. -/
theorem C04_violated : ∃ a b : AABB ℝ, a.Valid ∧ b.Valid ∧
    (distanceNear halfR a b).2.2 ∉ b.pts := by
  refine ⟨⟨⟨0, 0, 0⟩, ⟨10, 1, 1⟩⟩, ⟨⟨1, 0, 0⟩, ⟨2, 1, 1⟩⟩, by norm_num [Valid],
    by norm_num [Valid], ?_⟩
  rintro ⟨⟨-, h⟩, -⟩
  norm_num [distanceNear, nearStep, halfR] at h

private theorem near_gap (al ah bl bh : ℝ) :
    distStep 0 al ah bl bh = ((nearStep halfR al ah bl bh).1 - (nearStep halfR al ah bl bh).2) ^ 2 := by
  unfold distStep nearStep
  split
  · show 0 + (bh - al) * (bh - al) = _
    ring
  · split
    · show 0 + (ah - bl) * (ah - bl) = _
      ring
    · split <;> simp

private theorem near_mem (al ah bl bh : ℝ) (ha : al ≤ ah) (hb : bl ≤ bh)
    (hn : (ah < bl ∨ bh < al) ∨ ((al ≤ bl → ah ≤ bh) ∧ (bl < al → bh ≤ ah))) :
    (al ≤ (nearStep halfR al ah bl bh).1 ∧ (nearStep halfR al ah bl bh).1 ≤ ah) ∧
    (bl ≤ (nearStep halfR al ah bl bh).2 ∧ (nearStep halfR al ah bl bh).2 ≤ bh) := by
  unfold nearStep halfR
  split
  · exact ⟨⟨le_rfl, ha⟩, hb, le_rfl⟩
  · split
    · exact ⟨⟨ha, le_rfl⟩, le_rfl, hb⟩
    · rename_i h1 h2
      simp only [gt_iff_lt, not_lt] at h1 h2
      have h3 : ¬ (ah < bl ∨ bh < al) := by rintro (h | h) <;> linarith
      obtain ⟨n1, n2⟩ := hn.resolve_left h3
      split
      · rename_i h4
        have := n1 h4
        refine ⟨⟨?_, ?_⟩, ?_, ?_⟩ <;> linarith
      · rename_i h4
        have h5 : bl < al := lt_of_not_ge h4
        have := n2 h5
        refine ⟨⟨?_, ?_⟩, ?_, ?_⟩ <;> linarith

/-- C04 (partial): the returned value is the distance of `P` and `Q` for all boxes; and `P`, `Q` lie
in their boxes whenever on each axis the boxes are separated or properly staggered (the one starting
first ends first). Missing: overlapping axes where one interval is nested in the other, for which
`C04_violated` shows the code is wrong. -/
theorem C04_nearest_points_partial (a b : AABB ℝ) (ha : a.Valid) (hb : b.Valid) :
    (distanceNear halfR a b).1 = a.distance b ∧
    (distanceNear halfR a b).1 = (distanceNear halfR a b).2.1.dist (distanceNear halfR a b).2.2 ∧
    ((∀ i : Fin 3, (a.hi.get i < b.lo.get i ∨ b.hi.get i < a.lo.get i) ∨
        ((a.lo.get i ≤ b.lo.get i → a.hi.get i ≤ b.hi.get i) ∧
         (b.lo.get i < a.lo.get i → b.hi.get i ≤ a.hi.get i))) →
      (distanceNear halfR a b).2.1 ∈ a.pts ∧ (distanceNear halfR a b).2.2 ∈ b.pts) := by
  refine ⟨rfl, ?_, ?_⟩
  · show a.distance b = V3.dist _ _
    rw [distance_eq, near_gap, near_gap a.lo.y, near_gap a.lo.z]
    rfl
  · intro h
    obtain ⟨x1, x2⟩ := near_mem _ _ _ _ ha.1 hb.1 (h 0)
    obtain ⟨y1, y2⟩ := near_mem _ _ _ _ ha.2.1 hb.2.1 (h 1)
    obtain ⟨z1, z2⟩ := near_mem _ _ _ _ ha.2.2 hb.2.2 (h 2)
    exact ⟨⟨x1, y1, z1⟩, x2, y2, z2⟩

/-- Non-vacuity: unit box and a unit box shifted by (3, 1/2, -1/2). -/
example : ∀ i : Fin 3, ((⟨1, 1, 1⟩ : V3 ℚ).get i < (⟨3, 1/2, -1/2⟩ : V3 ℚ).get i ∨
      (⟨4, 3/2, 1/2⟩ : V3 ℚ).get i < (⟨0, 0, 0⟩ : V3 ℚ).get i) ∨
    (((⟨0, 0, 0⟩ : V3 ℚ).get i ≤ (⟨3, 1/2, -1/2⟩ : V3 ℚ).get i →
        (⟨1, 1, 1⟩ : V3 ℚ).get i ≤ (⟨4, 3/2, 1/2⟩ : V3 ℚ).get i) ∧
     ((⟨3, 1/2, -1/2⟩ : V3 ℚ).get i < (⟨0, 0, 0⟩ : V3 ℚ).get i →
        (⟨4, 3/2, 1/2⟩ : V3 ℚ).get i ≤ (⟨1, 1, 1⟩ : V3 ℚ).get i)) := by
  intro i; fin_cases i <;> norm_num [V3.get]

/-! ## Translation and expansion (used by the shape boxes and C43) -/

/-- Translating a box translates its set of points. -/
theorem C01_translate_pts (a : AABB ℝ) (t p : V3 ℝ) :
    p ∈ (a.translate t).pts ↔ (⟨p.x - t.x, p.y - t.y, p.z - t.z⟩ : V3 ℝ) ∈ a.pts := by
  simp only [pts, translate, Set.mem_ofPred_eq, le_sub_iff_add_le, sub_le_iff_le_add]

/-- Expanding by a componentwise non-negative `delta` gives a box containing the old one, and every
point whose coordinates differ from a point of the box by at most `delta`. -/
theorem C02_expand_contains (a : AABB ℝ) (d p q : V3 ℝ) (hp : p ∈ a.pts)
    (hx : |q.x - p.x| ≤ d.x) (hy : |q.y - p.y| ≤ d.y) (hz : |q.z - p.z| ≤ d.z) :
    q ∈ (a.expand d).pts := by
  obtain ⟨⟨h1, h2⟩, ⟨h3, h4⟩, h5, h6⟩ := hp
  rw [abs_le] at hx hy hz
  simp only [pts, expand, Set.mem_ofPred_eq]
  refine ⟨⟨?_, ?_⟩, ⟨?_, ?_⟩, ?_, ?_⟩ <;> linarith [hx.1, hx.2, hy.1, hy.2, hz.1, hz.2]

end Fcl
