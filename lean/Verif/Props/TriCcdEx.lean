import Verif.Props.TriCcd
import Mathlib.Tactic.FinCases

/-!
# C113: examples, and what the polynomial solver gets wrong
-/

namespace Fcl
namespace TriCcd
open V3

noncomputable section

/-- A mesh of one triangle. -/
def one (S : Tri ℝ) : Geom ℝ := ⟨[S.a, S.b, S.c], none, [(0, 1, 2)]⟩

theorem one_wf (S : Tri ℝ) : (one S).WF := ⟨by simp [one], by simp [one]⟩

theorem one_tri (S : Tri ℝ) {i : ℕ} (hi : i < (one S).numPrims) : (one S).tri i = S := by
  have : i = 0 := by simpa [Geom.numPrims, Geom.isMesh, one] using hi
  subst this
  rfl

/-- The pose at `x` without rotation. -/
def at' (x : V3 ℝ) : Pose ℝ := ⟨M3.one, x⟩

theorem sub_zero' (u : V3 ℝ) : u - 0 = u := by v3

theorem touch_one {S T : Tri ℝ} {u w : V3 ℝ} {t : ℝ} (ht : t ≤ 1) :
    TouchAt (.translation (at' 0) (at' u)) (.translation (at' 0) (at' w)) (surface (one S)) (surface (one T)) t ↔
      Touch (S.moveBy (t • u)).pts (T.moveBy (t • w)).pts := by
  unfold TouchAt Touch
  have e : ∀ (S : Tri ℝ) (u p : V3 ℝ), p ∈ (Motion.translation (at' 0) (at' u)).bodyAt (surface (one S)) t ↔ p ∈ (S.moveBy (t • u)).pts := by
    intro S u p
    rw [bodyAt_surface (one_wf S) rfl rfl ht]
    simp only [at', sub_zero']
    constructor
    · rintro ⟨i, hi, h⟩
      rwa [one_tri S hi] at h
    · intro h
      exact ⟨0, by simp [Geom.numPrims, Geom.isMesh, one], by rwa [one_tri S (by simp [Geom.numPrims, Geom.isMesh, one])]⟩
  simp only [e]

/-- The continuous collision of meshes of one triangle that move by `u` and `w`, with bounding volumes of any kind, finds nothing. -/
def Missed (S T : Tri ℝ) (u w : V3 ℝ) : Prop :=
  ∀ (V : Type) (o : BVOps V ℝ) (pts : V → Set (V3 ℝ)), o.Sound pts → ∀ (larger : V → V → Bool) (v1 v2 : V) (r : CCResult),
    ∃ res g1 g2, polynomial o larger 1 (one S) (one T) (.leaf v1 0) (.leaf v2 0) (at' 0) (at' u) (at' 0) (at' w) r = some (res, g1, g2) ∧
      res.isCollide = false

theorem missed {S T : Tri ℝ} {u w : V3 ℝ} (h : leafTime S (S.moveBy u) T (T.moveBy w) = none) : Missed S T u w := by
  intro V o pts hs larger v1 v2 r
  obtain ⟨res, e, hyes, -⟩ := polynomial_run (t1 := .leaf v1 0) (t2 := .leaf v2 0) hs (one_wf S) (one_wf T) rfl rfl (by simp [BT.prims, Geom.numPrims, Geom.isMesh, one])
    (by simp [BT.prims, Geom.numPrims, Geom.isMesh, one]) larger (fuel := 1) (by simp [BT.depth]) (at' 0) (at' u) (at' 0) (at' w) r
  refine ⟨res, _, _, e, ?_⟩
  by_contra hc
  obtain ⟨⟨i, hi, j, hj, hl⟩, -⟩ := hyes (by simpa using hc)
  rw [one_tri S hi, one_tri T hj] at hl
  simp only [at', sub_zero'] at hl
  rw [h] at hl
  simp at hl

/-! ### When the leaf test finds nothing -/

theorem leafTime_none {S T : Tri ℝ} {u w : V3 ℝ} (h1 : ∀ q ∈ T.verts, intersectVF S q (S.moveBy u) (q + w) = none)
    (h2 : ∀ q ∈ S.verts, intersectVF T q (T.moveBy w) (q + u) = none)
    (h3 : ∀ e ∈ sides S, ∀ f ∈ sides T, intersectEE e.1 e.2 f.1 f.2 (e.1 + u) (e.2 + u) (f.1 + w) (f.2 + w) = none) :
    leafTime S (S.moveBy u) T (T.moveBy w) = none := by
  rcases h : leafTime S (S.moveBy u) T (T.moveBy w) with _ | τ
  · rfl
  · rcases leafTime_cases h with ⟨q, hq, x, hx⟩ | ⟨q, hq, x, hx⟩ | ⟨e, he, f, hf, x, hx⟩
    · rw [h1 q hq] at hx; simp at hx
    · rw [h2 q hq] at hx; simp at hx
    · rw [h3 e he f hf] at hx; simp at hx

theorem isZero_of {c : ℝ} (h : |c| < 1 / 10 ^ 7) : isZero c = true := by
  obtain ⟨a, b⟩ := abs_lt.1 h
  unfold isZero
  rw [nearZero_eq]
  simp only [Bool.and_eq_true, decide_eq_true_eq]
  exact ⟨b, a⟩

theorem VF_small {S : Tri ℝ} {u w q : V3 ℝ} (h0 : |(q - S.a).dot S.nor| < 1 / 10 ^ 7) (h1 : |S.nor.dot (w - u)| < 1 / 10 ^ 7) :
    intersectVF S q (S.moveBy u) (q + w) = none := by
  rw [intersectVF_eq, if_pos]
  simp [allZero, isZero_of h0, isZero_of h1, isZero_zero]

theorem EE_small {a b c d u w : V3 ℝ} (h0 : |(c - a).dot ((b - a).cross (d - c))| < 1 / 10 ^ 7)
    (h1 : |((b - a).cross (d - c)).dot (w - u)| < 1 / 10 ^ 7) : intersectEE a b c d (a + u) (b + u) (c + w) (d + w) = none := by
  rw [intersectEE_eq, if_pos]
  simp [allZero, isZero_of h0, isZero_of h1, isZero_zero]

theorem VF_root {S : Tri ℝ} {u w q x : V3 ℝ} {t : ℝ} (h : intersectVF S q (S.moveBy u) (q + w) = some (t, x)) :
    0 ≤ t ∧ t ≤ 1 ∧ S.nor.dot (w - u) ≠ 0 ∧ S.nor.dot (w - u) * t + (q - S.a).dot S.nor = 0 := by
  obtain ⟨a, b, c, d, -⟩ := VF_some h
  exact ⟨a, b, c, by rw [← plane_at]; exact d⟩

theorem EE_root {a b c d u w x : V3 ℝ} {t : ℝ} (h : intersectEE a b c d (a + u) (b + u) (c + w) (d + w) = some (t, x)) :
    0 ≤ t ∧ t ≤ 1 ∧ ((b - a).cross (d - c)).dot (w - u) ≠ 0 ∧
    ((b - a).cross (d - c)).dot (w - u) * t + (c - a).dot ((b - a).cross (d - c)) = 0 := by
  rw [intersectEE_eq] at h
  obtain ⟨h0, h1, h2, h3, -⟩ := (linear_test _ _ _ _).1 t x h
  exact ⟨h0, h1, h2, h3⟩

theorem EE_short {a b c d u w : V3 ℝ} (h : ((b - a).cross (d - c)).dot ((b - a).cross (d - c)) < 1 / 10 ^ 5) :
    intersectEE a b c d (a + u) (b + u) (c + w) (d + w) = none := by
  rcases hx : intersectEE a b c d (a + u) (b + u) (c + w) (d + w) with _ | ⟨t, x⟩
  · rfl
  · rw [intersectEE_eq] at hx
    obtain ⟨h0, h1, h2, h3, y, h4, h5⟩ := (linear_test _ _ _ _).1 t x hx
    unfold validEE at h4
    exfalso
    have hn : lineLine (a + t • u) (b + t • u) (c + t • w) (d + t • w) = none := by
      unfold lineLine
      simp only [diff_move]
      have hden : (b - a).dot (b - a) * (d - c).dot (d - c) - (d - c).dot (b - a) * (d - c).dot (b - a) =
          ((b - a).cross (d - c)).dot ((b - a).cross (d - c)) := by
        rw [lagrange]; simp only [dot]; ring
      split_ifs with g1 g2 g3 g4 g5
      any_goals rfl
      exfalso
      rw [hden, abs_of_nonneg (dot_self_nonneg _), eps_eq] at g3
      exact g3 h
    rw [hn] at h4
    simp at h4

/-! ### A case that meets the hypotheses -/

def exS : Tri ℝ := ⟨⟨0, 0, 0⟩, ⟨4, 0, 0⟩, ⟨0, 4, 0⟩⟩

def exT : Tri ℝ := ⟨⟨1, 1, 1⟩, ⟨2, 3, 3⟩, ⟨-1, 2, 4⟩⟩

def exW : V3 ℝ := ⟨0, 0, -2⟩

theorem ex_clear : Clear exS exT (0 - exW) := by
  constructor
  · intro h
    have := congrArg V3.z h
    norm_num [exS, Tri.nor, Tri.e1, Tri.e2, cross] at this
  · intro h
    have := congrArg V3.z h
    norm_num [exT, Tri.nor, Tri.e1, Tri.e2, cross] at this
  · simp only [exS, exT, sides, List.cons_append, List.nil_append, List.forall_mem_cons, List.not_mem_nil, false_imp_iff, implies_true, and_true, sub_x, sub_y, sub_z]
    norm_num [abs_of_pos, abs_of_neg]
  · simp only [exS, exT, sides, List.forall_mem_cons, List.not_mem_nil, false_imp_iff, implies_true, and_true, cross, dot, sub_x, sub_y, sub_z]
    norm_num
  · right; norm_num [exS, exW, Tri.nor, Tri.e1, Tri.e2, cross, dot]
  · right; norm_num [exT, exW, Tri.nor, Tri.e1, Tri.e2, cross, dot]
  · simp only [exS, exT, exW, sides, List.forall_mem_cons, List.not_mem_nil, false_imp_iff, implies_true, and_true, cross, dot, sub_x, sub_y, sub_z, zero_x, zero_y, zero_z]
    norm_num [abs_of_pos, abs_of_neg]
  · right; norm_num [exS, exW, Tri.nor, Tri.e1, Tri.e2, cross, dot]

theorem pts_z {S : Tri ℝ} {n : V3 ℝ} {c : ℝ} (h : ∀ x ∈ S.verts, c ≤ n.dot x) : ∀ x ∈ S.pts, c ≤ n.dot x := by
  intro x hx
  by_contra hc
  obtain ⟨α, β, γ, ha, hb, hg, hs, rfl⟩ := Tri.pts_comb hx
  apply hc
  have e : n.dot (α • S.a + β • S.b + γ • S.c) = α * n.dot S.a + β * n.dot S.b + γ * n.dot S.c := by
    simp only [dot, add_x, add_y, add_z, smul_x, smul_y, smul_z]; ring
  rw [e]
  have h1 := mul_le_mul_of_nonneg_left (h S.a (by simp [Tri.verts])) ha
  have h2 := mul_le_mul_of_nonneg_left (h S.b (by simp [Tri.verts])) hb
  have h3 := mul_le_mul_of_nonneg_left (h S.c (by simp [Tri.verts])) hg
  have : α * c + β * c + γ * c = c := by rw [← add_mul, ← add_mul, hs, one_mul]
  linarith

theorem ex_apart : ¬Touch exS.pts exT.pts := by
  rintro ⟨z, z1, z2⟩
  have h1 := pts_z (S := exS) (n := ⟨0, 0, -1⟩) (c := 0) (by simp [exS, Tri.verts, dot]) z z1
  have h2 := pts_z (S := exT) (n := ⟨0, 0, 1⟩) (c := 1) (by norm_num [exT, Tri.verts, dot]) z z2
  simp only [dot] at h1 h2
  linarith

theorem ex_touch : Touch (exS.moveBy ((1 / 2 : ℝ) • (0 : V3 ℝ))).pts (exT.moveBy ((1 / 2 : ℝ) • exW)).pts := by
  refine ⟨⟨1, 1, 0⟩, (hull_triangle _ _ _ _).2 ⟨1 / 2, 1 / 4, 1 / 4, by norm_num, by norm_num, by norm_num, by norm_num, ?_⟩, ?_⟩
  · apply V3.ext' <;> norm_num [exS, Tri.moveBy]
  · refine Tri.vert_mem ?_
    simp only [Tri.verts, Tri.moveBy, List.mem_cons]
    left
    apply V3.ext' <;> norm_num [exT, exW]

/-- See `C113_pair_found_partial`, `C113_mesh_found_partial` and `C113_mesh_true`: a triangle that comes down on another one. -/
theorem C113_found_instance {V : Type} {o : BVOps V ℝ} {pts : V → Set (V3 ℝ)} (hs : o.Sound pts) (larger : V → V → Bool) (v1 v2 : V) (r : CCResult) :
    ∃ res g1 g2, polynomial o larger 1 (one exS) (one exT) (.leaf v1 0) (.leaf v2 0) (at' 0) (at' 0) (at' 0) (at' exW) r = some (res, g1, g2) ∧
      res.isCollide = true :=
  C113_mesh_found_partial (t := 1 / 2) hs (one_wf _) (one_wf _) rfl rfl (by simp [BT.prims, Geom.numPrims, Geom.isMesh, one])
    (by simp [BT.prims, Geom.numPrims, Geom.isMesh, one]) larger (by simp [BT.depth]) r rfl rfl rfl
    (fun i hi j hj => by
      rw [one_tri _ hi, one_tri _ hj]
      convert ex_clear using 1
      simp only [at']
      v3)
    (by
      rw [touch_one zero_le_one]
      convert ex_apart using 2
      · ext x; rw [moveBy_pts]; constructor <;> intro h <;> convert h using 1 <;> v3
      · ext x; rw [moveBy_pts]; constructor <;> intro h <;> convert h using 1 <;> v3)
    (by norm_num) (by norm_num) ((touch_one (by norm_num)).2 ex_touch)

/-! ### Misses -/

/-- **C113, violated.** Two triangles in one plane that slide into each other are not found, whatever their size and speed. -/
theorem C113_violated_sliding {S T : Tri ℝ} {u w : V3 ℝ} (n : V3 ℝ) (hS : ∀ q ∈ S.verts, n.dot q = 0) (hT : ∀ q ∈ T.verts, n.dot q = 0)
    (hv : n.dot (w - u) = 0) (hn : n ≠ 0) : Missed S T u w := by
  have par : ∀ a b : V3 ℝ, n.dot a = 0 → n.dot b = 0 → ∃ k : ℝ, a.cross b = k • n := by
    intro a b ha hb
    refine ⟨n.dot (a.cross b) / n.dot n, ?_⟩
    have hnn : n.dot n ≠ 0 := fun h => hn (dot_self_eq_zero h)
    have hc : n.cross (a.cross b) = 0 := by
      have e : n.cross (a.cross b) = n.dot b • a - n.dot a • b := by
        apply V3.ext' <;> simp only [cross, dot, sub_x, sub_y, sub_z, smul_x, smul_y, smul_z] <;> ring
      rw [e, ha, hb]; v3
    generalize a.cross b = m at hc ⊢
    have x := congrArg V3.x hc
    have y := congrArg V3.y hc
    have z := congrArg V3.z hc
    simp only [cross, zero_x, zero_y, zero_z] at x y z
    apply V3.ext' <;> simp only [smul_x, smul_y, smul_z] <;> rw [div_mul_eq_mul_div, eq_div_iff hnn] <;> simp only [dot]
    · linear_combination n.z * y - n.y * z
    · linear_combination n.x * z - n.z * x
    · linear_combination n.y * x - n.x * y
  have sub : ∀ a b : V3 ℝ, n.dot (a - b) = n.dot a - n.dot b := fun a b => by simp only [dot, sub_x, sub_y, sub_z]; ring
  have zero : ∀ (k : ℝ) (x : V3 ℝ), n.dot x = 0 → (k • n).dot x = 0 ∧ x.dot (k • n) = 0 := by
    intro k x h
    constructor
    · have : (k • n).dot x = k * n.dot x := by simp only [dot, smul_x, smul_y, smul_z]; ring
      rw [this, h, mul_zero]
    · have : x.dot (k • n) = k * n.dot x := by simp only [dot, smul_x, smul_y, smul_z]; ring
      rw [this, h, mul_zero]
  have vf : ∀ (S T : Tri ℝ) (u w : V3 ℝ), (∀ q ∈ S.verts, n.dot q = 0) → (∀ q ∈ T.verts, n.dot q = 0) → n.dot (w - u) = 0 →
      ∀ q ∈ T.verts, intersectVF S q (S.moveBy u) (q + w) = none := by
    intro S T u w hS hT hv q hq
    obtain ⟨k, hk⟩ := par S.e1 S.e2 (by rw [Tri.e1, sub, hS _ (by simp [Tri.verts]), hS _ (by simp [Tri.verts]), _root_.sub_self])
      (by rw [Tri.e2, sub, hS _ (by simp [Tri.verts]), hS _ (by simp [Tri.verts]), _root_.sub_self])
    refine VF_small ?_ ?_
    · rw [Tri.nor, hk, (zero k _ (by rw [sub, hT q hq, hS _ (by simp [Tri.verts]), _root_.sub_self])).2]; norm_num
    · rw [Tri.nor, hk, (zero k _ hv).1]; norm_num
  have hv' : n.dot (u - w) = 0 := by rw [sub] at hv ⊢; linarith
  have ends : ∀ (S : Tri ℝ), (∀ q ∈ S.verts, n.dot q = 0) → ∀ e ∈ sides S, n.dot e.1 = 0 ∧ n.dot e.2 = 0 := by
    intro S hS
    simp only [Tri.verts, sides, List.forall_mem_cons, List.not_mem_nil, false_imp_iff, implies_true, and_true] at hS ⊢
    tauto
  refine missed (leafTime_none (vf S T u w hS hT hv) (vf T S w u hT hS hv') fun e he f hf => ?_)
  obtain ⟨e1, e2⟩ := ends S hS e he
  obtain ⟨f1, f2⟩ := ends T hT f hf
  obtain ⟨k, hk⟩ := par (e.2 - e.1) (f.2 - f.1) (by rw [sub, e1, e2, _root_.sub_self]) (by rw [sub, f1, f2, _root_.sub_self])
  refine EE_small ?_ ?_
  · rw [hk, (zero k _ (by rw [sub, e1, f1, _root_.sub_self])).2]; norm_num
  · rw [hk, (zero k _ hv).1]; norm_num

def slideS : Tri ℝ := ⟨⟨0, 0, 0⟩, ⟨1, 0, 0⟩, ⟨0, 1, 0⟩⟩
def slideT : Tri ℝ := ⟨⟨2, 0, 0⟩, ⟨3, 0, 0⟩, ⟨2, 1, 0⟩⟩

/-- See `C113_violated_sliding`: two triangles that start apart and end in the same place. -/
theorem C113_sliding_instance : Missed slideS slideT 0 ⟨-2, 0, 0⟩ ∧ ¬Touch slideS.pts slideT.pts ∧ slideT.moveBy ⟨-2, 0, 0⟩ = slideS := by
  refine ⟨C113_violated_sliding ⟨0, 0, 1⟩ ?_ ?_ ?_ ?_, ?_, ?_⟩
  · simp [slideS, Tri.verts, dot]
  · simp [slideT, Tri.verts, dot]
  · simp [dot]
  · intro h; have := congrArg V3.z h; simp at this
  · rintro ⟨z, z1, z2⟩
    have h1 := pts_z (S := slideS) (n := ⟨-1, 0, 0⟩) (c := -1) (by norm_num [slideS, Tri.verts, dot]) z z1
    have h2 := pts_z (S := slideT) (n := ⟨1, 0, 0⟩) (c := 2) (by norm_num [slideT, Tri.verts, dot]) z z2
    simp only [dot] at h1 h2
    linarith
  · simp only [slideT, slideS, Tri.moveBy, Tri.mk.injEq]
    refine ⟨?_, ?_, ?_⟩ <;> apply V3.ext' <;> norm_num

def smallS : Tri ℝ := ⟨⟨0, 0, 0⟩, ⟨1 / 1000, 0, 0⟩, ⟨0, 1 / 1000, 0⟩⟩
def smallT : Tri ℝ := ⟨⟨1 / 10000, 1 / 10000, 5 / 1000⟩, ⟨2 / 10000, 8 / 10000, 6 / 1000⟩, ⟨5 / 10000, 1 / 10000, 6 / 1000⟩⟩

/-- **C113, violated.** Triangles of a thousandth that move by a hundredth go through each other unseen: all the coefficients are below
the threshold. -/
theorem C113_violated_small : Missed smallS smallT 0 ⟨0, 0, -1 / 100⟩ ∧
    Touch (smallS.moveBy ((1 / 2 : ℝ) • (0 : V3 ℝ))).pts (smallT.moveBy ((1 / 2 : ℝ) • (⟨0, 0, -1 / 100⟩ : V3 ℝ))).pts := by
  refine ⟨missed (leafTime_none (fun q hq => VF_small ?_ ?_) (fun q hq => VF_small ?_ ?_) fun e he f hf => EE_small ?_ ?_), ?_⟩
  · simp only [smallT, Tri.verts, List.mem_cons, List.not_mem_nil, or_false] at hq
    rcases hq with rfl | rfl | rfl <;> norm_num [smallS, Tri.nor, Tri.e1, Tri.e2, cross, dot, abs_of_pos, abs_of_neg]
  · norm_num [smallS, Tri.nor, Tri.e1, Tri.e2, cross, dot, abs_of_pos, abs_of_neg]
  · simp only [smallS, Tri.verts, List.mem_cons, List.not_mem_nil, or_false] at hq
    rcases hq with rfl | rfl | rfl <;> norm_num [smallT, Tri.nor, Tri.e1, Tri.e2, cross, dot, abs_of_pos, abs_of_neg]
  · norm_num [smallT, Tri.nor, Tri.e1, Tri.e2, cross, dot, abs_of_pos, abs_of_neg]
  · simp only [smallS, smallT, sides, List.mem_cons, List.not_mem_nil, or_false] at he hf
    rcases he with rfl | rfl | rfl <;> rcases hf with rfl | rfl | rfl <;> norm_num [cross, dot, abs_of_pos, abs_of_neg]
  · simp only [smallS, smallT, sides, List.mem_cons, List.not_mem_nil, or_false] at he hf
    rcases he with rfl | rfl | rfl <;> rcases hf with rfl | rfl | rfl <;> norm_num [cross, dot, abs_of_pos, abs_of_neg]
  · refine ⟨⟨1 / 10000, 1 / 10000, 0⟩, (hull_triangle _ _ _ _).2 ⟨8 / 10, 1 / 10, 1 / 10, by norm_num, by norm_num, by norm_num, by norm_num, ?_⟩, ?_⟩
    · apply V3.ext' <;> norm_num [smallS, Tri.moveBy]
    · refine Tri.vert_mem ?_
      simp only [Tri.verts, Tri.moveBy, List.mem_cons]
      left
      apply V3.ext' <;> norm_num [smallT]

def edgeS : Tri ℝ := ⟨⟨-2 / 100, 0, 0⟩, ⟨2 / 100, 0, 0⟩, ⟨0, 0, -3 / 100⟩⟩
def edgeT : Tri ℝ := ⟨⟨0, -2 / 100, 1 / 100⟩, ⟨0, 2 / 100, 1 / 100⟩, ⟨0, 0, 4 / 100⟩⟩

/-- **C113, violated.** Triangles with edges of four hundredths that meet with two edges at right angles go into each other unseen: the edges
count as parallel. -/
theorem C113_violated_edges : Missed edgeS edgeT 0 ⟨0, 0, -2 / 100⟩ ∧ ¬Touch edgeS.pts edgeT.pts ∧
    Touch (edgeS.moveBy ((1 : ℝ) • (0 : V3 ℝ))).pts (edgeT.moveBy ((1 : ℝ) • (⟨0, 0, -2 / 100⟩ : V3 ℝ))).pts := by
  refine ⟨missed (leafTime_none (fun q hq => ?_) (fun q hq => ?_) fun e he f hf => EE_short ?_), ?_, ?_⟩
  · rcases h : intersectVF edgeS q (edgeS.moveBy 0) (q + ⟨0, 0, -2 / 100⟩) with _ | ⟨t, x⟩
    · exact h
    · exact absurd (by norm_num [edgeS, Tri.nor, Tri.e1, Tri.e2, cross, dot]) (VF_root h).2.2.1
  · rcases h : intersectVF edgeT q (edgeT.moveBy ⟨0, 0, -2 / 100⟩) (q + 0) with _ | ⟨t, x⟩
    · rfl
    · exact absurd (by norm_num [edgeT, Tri.nor, Tri.e1, Tri.e2, cross, dot]) (VF_root h).2.2.1
  · simp only [edgeS, edgeT, sides, List.mem_cons, List.not_mem_nil, or_false] at he hf
    rcases he with rfl | rfl | rfl <;> rcases hf with rfl | rfl | rfl <;> norm_num [cross, dot]
  · rintro ⟨z, z1, z2⟩
    have h1 := pts_z (S := edgeS) (n := ⟨0, 0, -1⟩) (c := 0) (by norm_num [edgeS, Tri.verts, dot]) z z1
    have h2 := pts_z (S := edgeT) (n := ⟨0, 0, 1⟩) (c := 1 / 100) (by norm_num [edgeT, Tri.verts, dot]) z z2
    simp only [dot] at h1 h2
    linarith
  · refine ⟨⟨0, 0, -1 / 100⟩, (hull_triangle _ _ _ _).2 ⟨1 / 3, 1 / 3, 1 / 3, by norm_num, by norm_num, by norm_num, by norm_num, ?_⟩,
      (hull_triangle _ _ _ _).2 ⟨1 / 2, 1 / 2, 0, by norm_num, by norm_num, by norm_num, by norm_num, ?_⟩⟩
    · apply V3.ext' <;> norm_num [edgeS, Tri.moveBy]
    · apply V3.ext' <;> norm_num [edgeT, Tri.moveBy]

def bigS : Tri ℝ := ⟨⟨-10, -10, 0⟩, ⟨10, -10, 0⟩, ⟨0, 10, 0⟩⟩
def pinT : Tri ℝ := ⟨⟨0, 0, -5⟩, ⟨1, 0, 5⟩, ⟨-1, 0, 5⟩⟩

/-- **C113, violated.** A triangle that is stuck through another one from the start is not found. -/
theorem C113_violated_overlap : Missed bigS pinT 0 ⟨0, 0, 1⟩ ∧
    ∀ t : ℝ, 0 ≤ t → t ≤ 1 → Touch (bigS.moveBy (t • (0 : V3 ℝ))).pts (pinT.moveBy (t • (⟨0, 0, 1⟩ : V3 ℝ))).pts := by
  refine ⟨missed ?_, ?_⟩
  · rcases h : leafTime bigS (bigS.moveBy 0) pinT (pinT.moveBy ⟨0, 0, 1⟩) with _ | τ
    · rfl
    · exfalso
      rcases leafTime_cases h with ⟨q, hq, x, hx⟩ | ⟨q, hq, x, hx⟩ | ⟨e, he, f, hf, x, hx⟩
      · obtain ⟨a, b, -, d⟩ := VF_root hx
        simp only [pinT, Tri.verts, List.mem_cons, List.not_mem_nil, or_false] at hq
        rcases hq with rfl | rfl | rfl <;> norm_num [bigS, Tri.nor, Tri.e1, Tri.e2, cross, dot] at d <;> linarith
      · exact absurd (by norm_num [pinT, Tri.nor, Tri.e1, Tri.e2, cross, dot]) (VF_root hx).2.2.1
      · obtain ⟨a, b, c, d⟩ := EE_root hx
        simp only [bigS, pinT, sides, List.mem_cons, List.not_mem_nil, or_false] at he hf
        rcases he with rfl | rfl | rfl <;> rcases hf with rfl | rfl | rfl <;> (try norm_num [cross, dot] at c) <;> (try norm_num [cross, dot] at d) <;> linarith
  · intro t t0 t1
    refine ⟨⟨0, 0, 0⟩, (hull_triangle _ _ _ _).2 ⟨1 / 4, 1 / 4, 1 / 2, by norm_num, by norm_num, by norm_num, by norm_num, ?_⟩,
      (hull_triangle _ _ _ _).2 ⟨(5 + t) / 10, (5 - t) / 20, (5 - t) / 20, by linarith, by linarith, by linarith, by ring, ?_⟩⟩
    · apply V3.ext' <;> norm_num [bigS, Tri.moveBy]
    · apply V3.ext' <;> simp only [pinT, Tri.moveBy, add_x, add_y, add_z, smul_x, smul_y, smul_z] <;> ring

/-! ### Wrong reports -/

def gridS : Tri ℝ := ⟨⟨0, 0, 0⟩, ⟨1 / 100, 0, 0⟩, ⟨0, 1 / 100, 0⟩⟩
def longT : Tri ℝ := ⟨⟨-2, 1, 1⟩, ⟨1, -2, 1⟩, ⟨-2, -2, 5⟩⟩

/-- **C113, violated.** A triangle of a hundredth and another one that goes past it at a distance of more than a half are reported: the
tolerance of the test whether a point is in a triangle is not relative to the size of the triangle. -/
theorem C113_violated_far : (∃ τ, leafTime gridS (gridS.moveBy 0) longT (longT.moveBy ⟨0, 0, -2⟩) = some τ) ∧
    ∀ t : ℝ, ∀ x ∈ (gridS.moveBy (t • (0 : V3 ℝ))).pts, ∀ y ∈ (longT.moveBy (t • (⟨0, 0, -2⟩ : V3 ℝ))).pts, 1 / 2 ≤ x.dist y := by
  constructor
  · have h : intersectVF gridS ⟨-2, 1, 1⟩ (gridS.moveBy 0) (⟨-2, 1, 1⟩ + ⟨0, 0, -2⟩) =
        some (1 / 2, (1 / 2 : ℝ) • (⟨0, 0, -2⟩ : V3 ℝ) + ⟨-2, 1, 1⟩) := by
      rw [intersectVF_eq]
      refine (linear_test _ (fun t _ => t • (⟨0, 0, -2⟩ : V3 ℝ) + ⟨-2, 1, 1⟩) _ _).2 (1 / 2) () (by norm_num) (by norm_num) ?_ ?_ ?_
      · rw [nearZero_eq]; norm_num [gridS, Tri.nor, Tri.e1, Tri.e2, cross, dot, abs_of_pos, abs_of_neg]
      · norm_num [gridS, Tri.nor, Tri.e1, Tri.e2, cross, dot]
      · unfold validVF
        rw [if_pos]
        unfold insideTriangle
        rw [eps_eq]
        norm_num [gridS, cross, dot]
    obtain ⟨τ, e, -⟩ := leafTime_le (mem_tests.2 (.inl ⟨(⟨-2, 1, 1⟩ : V3 ℝ), (by simp [longT, Tri.verts] : _ ∈ longT.verts), h.symm⟩)) (by norm_num)
    exact ⟨τ, e⟩
  · intro t x hx y hy
    have h1 := pts_z (S := gridS.moveBy (t • (0 : V3 ℝ))) (n := ⟨1, 1, 0⟩) (c := 0) (by norm_num [gridS, Tri.verts, Tri.moveBy, dot]) x hx
    have h2 := pts_z (S := longT.moveBy (t • (⟨0, 0, -2⟩ : V3 ℝ))) (n := ⟨-1, -1, 0⟩) (c := 1) (by norm_num [longT, Tri.verts, Tri.moveBy, dot]) y hy
    simp only [dot] at h1 h2
    by_contra hc
    rw [not_le, dist_eq] at hc
    have h3 : (x - y).nrm ≤ 1 / 2 := hc.le
    rw [nrm_le_iff (by norm_num)] at h3
    simp only [dot, sub_x, sub_y, sub_z] at h3
    nlinarith [sq_nonneg (x.x - y.x - (x.y - y.y)), sq_nonneg (x.z - y.z)]

def bendS0 : Tri ℝ := ⟨⟨0, 0, 0⟩, ⟨1, 0, 0⟩, ⟨0, 1, 0⟩⟩
def bendS1 : Tri ℝ := ⟨⟨0, 0, 0⟩, ⟨1, 0, 4⟩, ⟨0, 1, 0⟩⟩

/-- **C113, violated.** A vertex above a triangle that turns, with a volume that is positive all the time, is reported at once: the step of
Newton's method can end at a border of the interval where there is no root. -/
theorem C113_violated_spurious : intersectVF bendS0 ⟨1 / 4, 1 / 4, 1⟩ bendS1 ⟨5 / 4, 1 / 4, 11⟩ = some (0, ⟨1 / 4, 1 / 4, 1⟩) ∧
    ∀ t, 0 ≤ t → t ≤ 1 → along ⟨1 / 4, 1 / 4, 1⟩ ⟨5 / 4, 1 / 4, 11⟩ t ∉ (during bendS0 bendS1 t).pts := by
  constructor
  · have hco : coeffVF bendS0 ⟨bendS1.a - bendS0.a, bendS1.b - bendS0.b, bendS1.c - bendS0.c⟩ ⟨1 / 4, 1 / 4, 1⟩
        (⟨5 / 4, 1 / 4, 11⟩ - ⟨1 / 4, 1 / 4, 1⟩) = ⟨1, 9, -4, 0⟩ := by
      simp only [coeffVF, bendS0, bendS1, Cubic.mk.injEq]
      norm_num [cross, dot]
    unfold intersectVF
    simp only [hco]
    rw [if_neg (by norm_num [allZero, isZero, nearZero])]
    have hct : contract (⟨1, 9, -4, 0⟩ : Cubic ℝ) 0 1 = some (0, 0) := by
      norm_num [contract, dminor, dmajor, sel, signBit]
    have hs : solve (validVF bendS0 ⟨bendS1.a - bendS0.a, bendS1.b - bendS0.b, bendS1.c - bendS0.c⟩ ⟨1 / 4, 1 / 4, 1⟩
        (⟨5 / 4, 1 / 4, 11⟩ - ⟨1 / 4, 1 / 4, 1⟩)) ⟨1, 9, -4, 0⟩ = some (0, 0, ()) := by
      unfold solve
      rw [show (25 : ℕ) = 24 + 1 from rfl, newton_succ, hct]
      rw [if_neg (by norm_num [major, sel, signBit]), if_neg (by norm_num [minor, sel, signBit])]
      simp only
      rw [if_pos (by norm_num [resolution])]
      have : validVF bendS0 ⟨bendS1.a - bendS0.a, bendS1.b - bendS0.b, bendS1.c - bendS0.c⟩ ⟨1 / 4, 1 / 4, 1⟩
        (⟨5 / 4, 1 / 4, 11⟩ - ⟨1 / 4, 1 / 4, 1⟩) 0 = some () := by
        unfold validVF
        rw [if_pos]
        unfold insideTriangle
        rw [eps_eq]
        norm_num [bendS0, bendS1, cross, dot]
      rw [this]
      rfl
    rw [hs]
    norm_num [finish]
    v3
  · intro t t0 t1 h
    obtain ⟨α, β, γ, -, -, -, hs, e⟩ := Tri.pts_comb h
    have x := congrArg V3.x e
    have z := congrArg V3.z e
    simp only [along, during, bendS0, bendS1, add_x, add_z, sub_x, sub_z, smul_x, smul_z] at x z
    nlinarith

/-! ### The poses, the meshes and the time -/

section
variable {V : Type*} {o : BVOps V ℝ} {larger : V → V → Bool} {fuel : ℕ} {g1 g2 g1' g2' : Geom ℝ} {t1 t2 : BT V ℕ} {r res : CCResult}

/-- **C113, violated.** The answer does not depend on where the objects are: with any other poses at the start, and the same
translations, the same collision is reported at the same time. -/
theorem C113_violated_poses {tf1b tf1e tf2b tf2e : Pose ℝ} (h : polynomial o larger fuel g1 g2 t1 t2 tf1b tf1e tf2b tf2e r = some (res, g1', g2'))
    {tf1b' tf1e' tf2b' tf2e' : Pose ℝ} (e1 : tf1e'.t - tf1b'.t = tf1e.t - tf1b.t) (e2 : tf2e'.t - tf2b'.t = tf2e.t - tf2b.t) :
    ∃ res', polynomial o larger fuel g1 g2 t1 t2 tf1b' tf1e' tf2b' tf2e' r = some (res', g1', g2') ∧ res'.isCollide = res.isCollide ∧
      res'.toc = res.toc := by
  unfold polynomial at h ⊢
  simp only [e1, e2] at h ⊢
  split at h
  · simp at h
  · rename_i f F hf
    split_ifs at h ⊢ with hp
    · simp only [Option.some.injEq, Prod.mk.injEq] at h
      obtain ⟨rfl, rfl, rfl⟩ := h
      exact ⟨_, rfl, rfl, rfl⟩
    · simp only [Option.some.injEq, Prod.mk.injEq] at h
      obtain ⟨rfl, rfl, rfl⟩ := h
      exact ⟨_, rfl, rfl, rfl⟩

/-- **C113, violated.** The meshes of the caller, which are passed as constant, are not what they were: the vertices stay where the motion
ends. -/
theorem C113_violated_changes {tf1b tf1e tf2b tf2e : Pose ℝ} (h : polynomial o larger fuel g1 g2 t1 t2 tf1b tf1e tf2b tf2e r = some (res, g1', g2')) :
    g1'.verts = g1.verts.map (· + (tf1e.t - tf1b.t)) ∧ g2'.verts = g2.verts.map (· + (tf2e.t - tf2b.t)) := by
  unfold polynomial at h
  simp only at h
  split at h
  · simp at h
  · split_ifs at h <;> simp only [Option.some.injEq, Prod.mk.injEq] at h <;> obtain ⟨-, rfl, rfl⟩ := h <;> exact ⟨rfl, rfl⟩

end

/-- See `C113_violated_poses` and `C113_violated_changes`: a triangle a hundred away from the other one is reported, and is somewhere else
afterwards. -/
theorem C113_poses_instance {V : Type} {o : BVOps V ℝ} {pts : V → Set (V3 ℝ)} (hs : o.Sound pts) (larger : V → V → Bool) (v1 v2 : V) (r : CCResult) :
    (∃ res g1 g2, polynomial o larger 1 (one exS) (one exT) (.leaf v1 0) (.leaf v2 0) (at' 0) (at' 0) (at' ⟨100, 0, 0⟩) (at' ⟨100, 0, -2⟩) r =
        some (res, g1, g2) ∧ res.isCollide = true ∧ g2 ≠ one exT ∧ (g2.tri 0).a = ⟨1, 1, -1⟩) ∧
    ∀ t : ℝ, 0 ≤ t → t ≤ 1 → ∀ x ∈ exS.pts, ∀ y ∈ (exT.moveBy (⟨100, 0, 0⟩ + t • (⟨0, 0, -2⟩ : V3 ℝ))).pts, 90 ≤ x.dist y := by
  constructor
  · obtain ⟨res, g1, g2, e, hc⟩ := C113_found_instance hs larger v1 v2 r
    obtain ⟨res', e', hc', -⟩ := C113_violated_poses e (tf1b' := at' 0) (tf1e' := at' 0) (tf2b' := at' ⟨100, 0, 0⟩) (tf2e' := at' ⟨100, 0, -2⟩) rfl
      (by simp only [at', exW]; apply V3.ext' <;> norm_num)
    have hg : g2 = moved (one exT) exW := by
      obtain ⟨res'', e'', -⟩ := polynomial_run (t1 := .leaf v1 0) (t2 := .leaf v2 0) hs (one_wf exS) (one_wf exT) rfl rfl
        (by simp [BT.prims, Geom.numPrims, Geom.isMesh, one]) (by simp [BT.prims, Geom.numPrims, Geom.isMesh, one]) larger (fuel := 1)
        (by simp [BT.depth]) (at' 0) (at' 0) (at' 0) (at' exW) r
      rw [e] at e''
      simp only [Option.some.injEq, Prod.mk.injEq, at', sub_zero'] at e''
      exact e''.2.2
    refine ⟨res', g1, g2, e', by rw [hc', hc], ?_, ?_⟩
    · rw [hg]
      intro h
      have := congrArg Geom.prev h
      simp [moved, one] at this
    · rw [hg]
      simp only [moved, one, Geom.tri, exT, exW]
      apply V3.ext' <;> norm_num
  · intro t t0 t1 x hx y hy
    have h1 := pts_z (S := exS) (n := ⟨-1, 0, 0⟩) (c := -4) (by norm_num [exS, Tri.verts, dot]) x hx
    have h2 := pts_z (S := exT.moveBy (⟨100, 0, 0⟩ + t • (⟨0, 0, -2⟩ : V3 ℝ))) (n := ⟨1, 0, 0⟩) (c := 99) (by norm_num [exT, Tri.verts, Tri.moveBy, dot]) y hy
    simp only [dot] at h1 h2
    rw [dist_eq]
    by_contra hc
    have h3 : (x - y).nrm ≤ 90 := (not_le.1 hc).le
    rw [nrm_le_iff (by norm_num)] at h3
    simp only [dot, sub_x, sub_y, sub_z] at h3
    nlinarith [sq_nonneg (x.y - y.y), sq_nonneg (x.z - y.z)]

/-- Two triangles over each other. -/
def twoG : Geom ℝ := ⟨[⟨0, 0, 0⟩, ⟨4, 0, 0⟩, ⟨0, 4, 0⟩, ⟨0, 0, 1 / 2⟩, ⟨4, 0, 1 / 2⟩, ⟨0, 4, 1 / 2⟩], none, [(0, 1, 2), (3, 4, 5)]⟩
/-- A triangle above them. -/
def topT : Tri ℝ := ⟨⟨1, 1, 3 / 4⟩, ⟨2, 3, 19 / 20⟩, ⟨-1, 2, 3 / 5⟩⟩

theorem two_wf : twoG.WF := ⟨by simp [twoG], by simp [twoG]⟩

theorem top_bound {τ : ℝ} (h : leafTime exS (exS.moveBy 0) topT (topT.moveBy ⟨0, 0, -1⟩) = some τ) : 3 / 5 ≤ τ := by
  rcases leafTime_cases h with ⟨q, hq, x, hx⟩ | ⟨q, hq, x, hx⟩ | ⟨e, he, f, hf, x, hx⟩
  · obtain ⟨a, b, -, d⟩ := VF_root hx
    simp only [topT, Tri.verts, List.mem_cons, List.not_mem_nil, or_false] at hq
    rcases hq with rfl | rfl | rfl <;> norm_num [exS, Tri.nor, Tri.e1, Tri.e2, cross, dot] at d <;> linarith
  · obtain ⟨a, b, -, d⟩ := VF_root hx
    simp only [exS, Tri.verts, List.mem_cons, List.not_mem_nil, or_false] at hq
    rcases hq with rfl | rfl | rfl <;> norm_num [topT, Tri.nor, Tri.e1, Tri.e2, cross, dot] at d <;> linarith
  · obtain ⟨a, b, o1, o2⟩ := EE_some hx
    have m1 : x ∈ (exS.moveBy (τ • (0 : V3 ℝ))).pts := side_pts (by rw [moveBy_sides]; exact List.mem_map_of_mem he) o1
    have m2 : x ∈ (topT.moveBy (τ • (⟨0, 0, -1⟩ : V3 ℝ))).pts := side_pts (by rw [moveBy_sides]; exact List.mem_map_of_mem hf) o2
    have h1 := pts_z (n := ⟨0, 0, -1⟩) (c := 0) (by norm_num [exS, Tri.verts, Tri.moveBy, dot]) x m1
    have h2 := pts_z (n := ⟨0, 0, 1⟩) (c := 3 / 5 - τ) (by
      simp only [topT, Tri.verts, Tri.moveBy, dot, List.forall_mem_cons, List.not_mem_nil, false_imp_iff, implies_true, and_true, add_x, add_y, add_z,
        smul_x, smul_y, smul_z]
      refine ⟨by linarith, by linarith, by linarith⟩) x m2
    simp only [dot] at h1 h2
    linarith

theorem top_found : ∃ τ, leafTime exS (exS.moveBy 0) topT (topT.moveBy ⟨0, 0, -1⟩) = some τ := by
  obtain ⟨x, hx⟩ := VF_hit (S := exS) (u := 0) (w := ⟨0, 0, -1⟩) (q := ⟨1, 1, 3 / 4⟩) (t := 3 / 4) (by norm_num) (by norm_num)
    (by rw [nearZero_eq]; norm_num [exS, Tri.nor, Tri.e1, Tri.e2, cross, dot, abs_of_pos, abs_of_neg])
    ((hull_triangle _ _ _ _).2 ⟨1 / 2, 1 / 4, 1 / 4, by norm_num, by norm_num, by norm_num, by norm_num, by
      apply V3.ext' <;> norm_num [exS, Tri.moveBy]⟩)
  obtain ⟨τ, e, -⟩ := leafTime_le (mem_tests.2 (.inl ⟨(⟨1, 1, 3 / 4⟩ : V3 ℝ), (by simp [topT, Tri.verts] : _ ∈ topT.verts), hx.symm⟩)) (by norm_num)
  exact ⟨τ, e⟩

/-- **C113, violated.** The time reported is not that of the first contact: the search stops at the first pair of triangles it finds. Here the
meshes touch at a quarter of the motion, and a time of at least three fifths is reported, whatever the kind of bounding volumes. -/
theorem C113_violated_time {V : Type} {o : BVOps V ℝ} {pts : V → Set (V3 ℝ)} (hs : o.Sound pts) (larger : V → V → Bool) (v v0 v1 v2 : V) (r : CCResult) :
    (∃ res g1 g2, polynomial o larger 2 twoG (one topT) (.node v (.leaf v0 0) (.leaf v1 1)) (.leaf v2 0) (at' 0) (at' 0) (at' 0) (at' ⟨0, 0, -1⟩) r =
        some (res, g1, g2) ∧ res.isCollide = true ∧ 3 / 5 ≤ res.toc) ∧
    TouchAt (.translation (at' 0) (at' 0)) (.translation (at' 0) (at' ⟨0, 0, -1⟩)) (surface twoG) (surface (one topT)) (1 / 4) := by
  have n2 : twoG.numPrims = 2 := by simp [Geom.numPrims, Geom.isMesh, twoG]
  have n1 : (one topT).numPrims = 1 := by simp [Geom.numPrims, Geom.isMesh, one]
  have tt : twoG.tri 0 = exS := rfl
  have tu : twoG.tri 1 = exS.moveBy ⟨0, 0, 1 / 2⟩ := by
    simp only [twoG, Geom.tri, exS, Tri.moveBy, List.getElem?_cons_succ, List.getElem?_cons_zero, Option.getD_some, Tri.mk.injEq]
    refine ⟨?_, ?_, ?_⟩ <;> apply V3.ext' <;> norm_num
  constructor
  · obtain ⟨τ, hτ⟩ := top_found
    have hpair : pairTime (moved twoG 0) (moved (one topT) ⟨0, 0, -1⟩) 0 0 = some τ := by
      rw [moved_pair two_wf (one_wf _) rfl rfl (by rw [n2]; norm_num) (by rw [n1]; norm_num), tt, one_tri _ (by rw [n1]; norm_num)]
      exact hτ
    -- the first pair of leaves overlaps at three quarters of the motion
    have hz1 : (⟨1, 1, 0⟩ : V3 ℝ) ∈ (moved twoG 0).solidAt (3 / 4) 0 := by
      rw [moved_at two_wf rfl (by rw [n2]; norm_num), tt]
      exact (hull_triangle _ _ _ _).2 ⟨1 / 2, 1 / 4, 1 / 4, by norm_num, by norm_num, by norm_num, by norm_num, by
        apply V3.ext' <;> norm_num [exS, Tri.moveBy]⟩
    have hz2 : (⟨1, 1, 0⟩ : V3 ℝ) ∈ (moved (one topT) ⟨0, 0, -1⟩).solidAt (3 / 4) 0 := by
      rw [moved_at (one_wf _) rfl (by rw [n1]; norm_num), one_tri _ (by rw [n1]; norm_num)]
      refine Tri.vert_mem ?_
      simp only [Tri.verts, Tri.moveBy, List.mem_cons]
      left
      apply V3.ext' <;> norm_num [topT]
    have q1 := leafFit_encloses hs (g := moved twoG 0) 0 (3 / 4) (by norm_num) (by norm_num) hz1
    have q2 := leafFit_encloses hs (g := moved (one topT) ⟨0, 0, -1⟩) 0 (3 / 4) (by norm_num) (by norm_num) hz2
    have o1 := hs.overlap _ _ _ q1 q2
    have o2 := hs.overlap _ _ _ (hs.merge_left (o.leafFit (moved twoG 0) 0) (o.leafFit (moved twoG 0) 1) q1) q2
    refine ⟨⟨true, min 1 τ, ((Motion.translation (at' 0) (at' 0)).integrate (min 1 τ)).tf, ((Motion.translation (at' 0) (at' ⟨0, 0, -1⟩)).integrate (min 1 τ)).tf⟩,
      moved twoG 0, moved (one topT) ⟨0, 0, -1⟩, ?_, rfl, ?_⟩
    rotate_left
    · exact le_min (by norm_num) (top_bound hτ)
    · have hl : leafTime (prevTri (moved twoG 0) 0) ((moved twoG 0).tri 0) (prevTri (moved (one topT) ⟨0, 0, -1⟩) 0)
          ((moved (one topT) ⟨0, 0, -1⟩).tri 0) = some τ := hpair
      unfold polynomial
      simp only [at', sub_zero', refitted, BT.refit, collisionRecurse, Trav.bvh, node, BT.bv, o1, o2, BT.isLeaf, BT.left, BT.right, leaf, hl, Found.start, Found.add]
      simp [Front.push]
  · refine ⟨⟨1, 1, 1 / 2⟩, (bodyAt_surface two_wf rfl rfl (by norm_num)).2 ⟨1, by rw [n2]; norm_num, ?_⟩,
      (bodyAt_surface (one_wf _) rfl rfl (by norm_num)).2 ⟨0, by rw [n1]; norm_num, ?_⟩⟩
    · rw [tu]
      exact (hull_triangle _ _ _ _).2 ⟨1 / 2, 1 / 4, 1 / 4, by norm_num, by norm_num, by norm_num, by norm_num, by
        apply V3.ext' <;> norm_num [exS, Tri.moveBy, at']⟩
    · rw [one_tri _ (by rw [n1]; norm_num)]
      refine Tri.vert_mem ?_
      simp only [Tri.verts, Tri.moveBy, List.mem_cons]
      left
      apply V3.ext' <;> norm_num [topT, at']

end

end TriCcd
end Fcl
