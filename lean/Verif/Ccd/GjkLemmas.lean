import Verif.Ccd.Gjk
import Verif.Geom.Convexity
import Verif.Props.Support
import Verif.BVH.MeshSpec

/-!
# Facts about the GJK of the default solver
-/

namespace Fcl
open V3

namespace Ccd

/-- What is assumed of the functions of libccd: the point is one of the triangle or segment, the value is its squared
distance, and no point of the triangle or segment is nearer. -/
structure Lib.Exact (l : Lib) : Prop where
  tri_mem : ∀ P a b c, HullOf [a, b, c] (l.tri P a b c).2
  tri_val : ∀ P a b c, (l.tri P a b c).1 = ((l.tri P a b c).2 - P).dot ((l.tri P a b c).2 - P)
  tri_min : ∀ P a b c x, HullOf [a, b, c] x → (l.tri P a b c).1 ≤ (x - P).dot (x - P)
  seg_mem : ∀ P a b, HullOf [a, b] (l.seg P a b).2
  seg_val : ∀ P a b, (l.seg P a b).1 = ((l.seg P a b).2 - P).dot ((l.seg P a b).2 - P)
  seg_min : ∀ P a b x, HullOf [a, b] x → (l.seg P a b).1 ≤ (x - P).dot (x - P)

/-- The differences of the points of two sets. -/
def Diff (A B : Set (V3 ℝ)) : Set (V3 ℝ) := {x | ∃ a ∈ A, ∃ b ∈ B, x = a - b}

/-- A support point that was made from points of the two sets. -/
def Made (A B : Set (V3 ℝ)) (p : SP) : Prop := p.v1 ∈ A ∧ p.v2 ∈ B ∧ p.v = p.v1 - p.v2

theorem Made.diff {A B : Set (V3 ℝ)} {p : SP} (h : Made A B p) : p.v ∈ Diff A B := ⟨_, h.1, _, h.2.1, h.2.2⟩

theorem diff_isConvex {A B : Set (V3 ℝ)} (hA : ConvexSet A) (hB : ConvexSet B) : ConvexSet (Diff A B) := by
  rintro x ⟨a, ha, b, hb, rfl⟩ y ⟨c, hc, d, hd, rfl⟩ t h0 h1
  refine ⟨_, hA a ha c hc t h0 h1, _, hB b hb d hd t h0 h1, ?_⟩
  v3

theorem hull_sub {M : Set (V3 ℝ)} (hM : ConvexSet M) {l : List (V3 ℝ)} (h : ∀ p ∈ l, p ∈ M) {x : V3 ℝ} (hx : HullOf l x) : x ∈ M := by
  induction hx with
  | pt hp => exact h _ hp
  | seg t h0 h1 _ _ ih1 ih2 => exact hM _ ih1 _ ih2 t h0 h1

/-- Six times the volume of a tetrahedron. -/
noncomputable def vol (D C B A : V3 ℝ) : ℝ := ((B - A).cross (C - A)).dot (D - A)

theorem tiny_lt {c : Cfg} (he : 0 < c.eps) {l : Lib} (hl : l.Exact) {P x y z : V3 ℝ} (h : tiny c (l.tri P x y z).1 = true) :
    ∃ w, HullOf [x, y, z] w ∧ (w - P).nrm < c.eps := by
  refine ⟨_, hl.tri_mem P x y z, ?_⟩
  have h1 : |(l.tri P x y z).1| < c.eps * c.eps := by simpa [tiny] using h
  rw [hl.tri_val, ← nrm_mul_self, abs_of_nonneg (mul_self_nonneg _)] at h1
  exact lt_of_mul_self_lt_mul_self₀ he.le h1

/-- The nearest point to the origin of a segment whose line passes near it (`doSimplex2`). -/
theorem segment_near {A B : V3 ℝ} {e : ℝ} (he : 0 < e) (h : A.dot B ≤ 0)
    (hn : (B.cross (B - A)).dot (B.cross (B - A)) < (B - A).dot (B - A) * B.dot B * e * e) :
    ∃ t : ℝ, 0 ≤ t ∧ t ≤ 1 ∧ ((1 - t) • B + t • A).nrm ≤ e * B.nrm := by
  have hn0 : 0 ≤ (B.cross (B - A)).dot (B.cross (B - A)) := dot_self_nonneg _
  have hB : 0 ≤ B.dot B := dot_self_nonneg _
  have hA : 0 ≤ A.dot A := dot_self_nonneg _
  have hL : 0 < (B - A).dot (B - A) := by
    rcases (dot_self_nonneg (B - A)).lt_or_eq with h0 | h0
    · exact h0
    · rw [← h0] at hn; simp at hn; linarith
  set L := (B - A).dot (B - A) with hLd
  have eL : L = B.dot B - 2 * A.dot B + A.dot A := by simp [hLd, dot]; ring
  have hs : A.dot B = B.dot A := dot_comm _ _
  refine ⟨B.dot (B - A) / L, ?_, ?_, ?_⟩
  · apply div_nonneg _ hL.le
    have : B.dot (B - A) = B.dot B - A.dot B := by simp [dot]; ring
    rw [this]; linarith
  · rw [div_le_one hL]
    have : B.dot (B - A) = B.dot B - A.dot B := by simp [dot]; ring
    rw [this, eL]; linarith
  · have hx : (((1 - B.dot (B - A) / L) • B + (B.dot (B - A) / L) • A).dot ((1 - B.dot (B - A) / L) • B + (B.dot (B - A) / L) • A)) * L
        = (B.cross (B - A)).dot (B.cross (B - A)) := by
      have e1 : ((1 - B.dot (B - A) / L) • B + (B.dot (B - A) / L) • A) = B - (B.dot (B - A) / L) • (B - A) := by v3
      rw [e1]
      have e2 : ∀ k : ℝ, (B - k • (B - A)).dot (B - k • (B - A)) = B.dot B - 2 * k * B.dot (B - A) + k * k * L := by
        intro k; simp [hLd, dot]; ring
      rw [e2]
      have e3 : (B.cross (B - A)).dot (B.cross (B - A)) = B.dot B * L - B.dot (B - A) * B.dot (B - A) := by
        simp [hLd, dot, cross]; ring
      rw [e3]; field_simp; ring
    apply (nrm_le_iff (mul_nonneg he.le (nrm_nonneg _))).2
    have h2 := nrm_mul_self B
    have : e * B.nrm * (e * B.nrm) = B.dot B * e * e := by rw [← h2]; ring
    rw [this]
    by_contra hc
    push Not at hc
    have := mul_lt_mul_of_pos_right hc hL
    rw [hx] at this
    nlinarith

theorem comb2 {M : Set (V3 ℝ)} (hM : ConvexSet M) {a b : V3 ℝ} (ha : a ∈ M) (hb : b ∈ M) {u w : ℝ} (hu : 0 ≤ u) (hw : 0 ≤ w)
    (h : u + w = 1) : u • a + w • b ∈ M := by
  have := hM a ha b hb w hw (by linarith)
  rwa [show 1 - w = u by linarith] at this

theorem comb3 {M : Set (V3 ℝ)} (hM : ConvexSet M) {a b d : V3 ℝ} (ha : a ∈ M) (hb : b ∈ M) (hd : d ∈ M) {u w z : ℝ}
    (hu : 0 ≤ u) (hw : 0 ≤ w) (hz : 0 ≤ z) (h : u + w + z = 1) : u • a + w • b + z • d ∈ M := by
  rcases (add_nonneg hu hw).lt_or_eq with h0 | h0
  · have h1 := comb2 hM ha hb (div_nonneg hu h0.le) (div_nonneg hw h0.le) (by field_simp)
    have h2 := comb2 hM h1 hd h0.le hz h
    convert h2 using 1
    apply V3.ext' <;> simp only [add_x, add_y, add_z, smul_x, smul_y, smul_z] <;> field_simp
  · have hu0 : u = 0 := by linarith
    have hw0 : w = 0 := by linarith
    have hz1 : z = 1 := by linarith
    subst hu0 hw0 hz1
    convert hd using 1
    v3

theorem comb4 {M : Set (V3 ℝ)} (hM : ConvexSet M) {a b d e : V3 ℝ} (ha : a ∈ M) (hb : b ∈ M) (hd : d ∈ M) (he : e ∈ M) {u w z y : ℝ}
    (hu : 0 ≤ u) (hw : 0 ≤ w) (hz : 0 ≤ z) (hy : 0 ≤ y) (h : u + w + z + y = 1) : u • a + w • b + z • d + y • e ∈ M := by
  rcases (add_nonneg (add_nonneg hu hw) hz).lt_or_eq with h0 | h0
  · have h1 := comb3 hM ha hb hd (div_nonneg hu h0.le) (div_nonneg hw h0.le) (div_nonneg hz h0.le) (by field_simp)
    have h2 := comb2 hM h1 he h0.le hy h
    convert h2 using 1
    apply V3.ext' <;> simp only [add_x, add_y, add_z, smul_x, smul_y, smul_z] <;> field_simp
  · have hu0 : u = 0 := by linarith
    have hw0 : w = 0 := by linarith
    have hz0 : z = 0 := by linarith
    have hy1 : y = 1 := by linarith
    subst hu0 hw0 hz0 hy1
    convert he using 1
    v3

theorem sign_eq {e x y : ℝ} (he : 0 < e) (h : sign e x = sign e y) (hy : e ≤ |y|) : 0 < x * y := by
  have hyz : ¬ |y| < e := not_lt.2 hy
  have hx : ¬ |x| < e := by
    intro hx
    simp only [sign, isZero, hx, hyz, decide_true, decide_false, if_true, if_false, Bool.false_eq_true] at h
    split_ifs at h <;> norm_num at h
  simp only [sign, isZero, hx, hyz, decide_false, if_false, Bool.false_eq_true] at h
  push Not at hx
  by_cases h1 : x < 0 <;> by_cases h2 : y < 0
  · exact mul_pos_of_neg_of_neg h1 h2
  · simp [h1, h2] at h; norm_num at h
  · simp [h1, h2] at h; norm_num at h
  · push Not at h1 h2
    rw [abs_of_nonneg h1] at hx
    rw [abs_of_nonneg h2] at hy
    exact mul_pos (by linarith) (by linarith)

/-- The origin in a tetrahedron as `doSimplex4` finds it, given how the last point was found. -/
theorem tetra_near {M : Set (V3 ℝ)} (hM : ConvexSet M) {A B C D : V3 ℝ} {e : ℝ} (he : 0 < e)
    (hA : A ∈ M) (hB : B ∈ M) (hC : C ∈ M) (hD : D ∈ M)
    (hlast : 0 ≤ A.dot ((C - B).cross (D - B))) (hdir : B.dot ((C - B).cross (D - B)) < e)
    (h1 : sign e (((C - A).cross (D - A)).dot (-A)) = sign e (((C - A).cross (D - A)).dot (B - A)))
    (h2 : sign e (((D - A).cross (B - A)).dot (-A)) = sign e (((D - A).cross (B - A)).dot (C - A)))
    (h3 : sign e (((B - A).cross (C - A)).dot (-A)) = sign e (((B - A).cross (C - A)).dot (D - A))) :
    |vol D C B A| < e ∨ ∃ x ∈ M, x.nrm * |vol D C B A| ≤ e * A.nrm := by
  by_cases hV : |vol D C B A| < e
  · exact Or.inl hV
  right
  push Not at hV
  have e1 : ((C - A).cross (D - A)).dot (B - A) = vol D C B A := by simp [vol, dot, cross]; ring
  have e2 : ((D - A).cross (B - A)).dot (C - A) = vol D C B A := by simp [vol, dot, cross]; ring
  have e3 : ((B - A).cross (C - A)).dot (D - A) = vol D C B A := rfl
  rw [e1] at h1; rw [e2] at h2; rw [e3] at h3
  have p1 := sign_eq he h1 hV
  have p2 := sign_eq he h2 hV
  have p3 := sign_eq he h3 hV
  obtain ⟨b, hb⟩ : ∃ b, b = ((C - A).cross (D - A)).dot (-A) := ⟨_, rfl⟩
  obtain ⟨c, hc⟩ : ∃ c, c = ((D - A).cross (B - A)).dot (-A) := ⟨_, rfl⟩
  obtain ⟨d, hd⟩ : ∃ d, d = ((B - A).cross (C - A)).dot (-A) := ⟨_, rfl⟩
  obtain ⟨V, hVd⟩ : ∃ V, V = vol D C B A := ⟨_, rfl⟩
  rw [← hb, ← hVd] at p1; rw [← hc, ← hVd] at p2; rw [← hd, ← hVd] at p3; rw [← hVd] at hV ⊢
  have hV0 : V ≠ 0 := by rintro rfl; simp at hV; linarith
  -- the origin in terms of the corners
  have hO : V • (-A) = b • (B - A) + c • (C - A) + d • (D - A) := by
    apply V3.ext' <;> simp [hVd, hb, hc, hd, vol, dot, cross] <;> ring
  have hh : A.dot ((C - B).cross (D - B)) - B.dot ((C - B).cross (D - B)) = -V := by
    simp [hVd, vol, dot, cross]; ring
  have hg : -(B.dot ((C - B).cross (D - B))) = -(V - b - c - d) := by
    simp [hVd, hb, hc, hd, vol, dot, cross]; ring
  have hVn : V < 0 := by
    rcases lt_or_gt_of_ne hV0 with h | h
    · exact h
    · rw [abs_of_pos h] at hV; linarith
  have habs : |V| = -V := abs_of_neg hVn
  have hb0 : b < 0 := by nlinarith
  have hc0 : c < 0 := by nlinarith
  have hd0 : d < 0 := by nlinarith
  rw [habs]
  obtain ⟨a, ha⟩ : ∃ a, a = V - b - c - d := ⟨_, rfl⟩
  have hO' : a • A + b • B + c • C + d • D = 0 := by
    have hx := congrArg V3.x hO
    have hy := congrArg V3.y hO
    have hz := congrArg V3.z hO
    simp only [add_x, add_y, add_z, smul_x, smul_y, smul_z, sub_x, sub_y, sub_z, neg_x, neg_y, neg_z] at hx hy hz
    apply V3.ext' <;> simp only [add_x, add_y, add_z, smul_x, smul_y, smul_z, zero_x, zero_y, zero_z, ha] <;> linarith
  by_cases ha0 : a ≤ 0
  · refine ⟨0, ?_, by rw [nrm_zero, zero_mul]; exact mul_nonneg he.le (nrm_nonneg _)⟩
    have hm := comb4 hM hA hB hC hD (u := a / V) (w := b / V) (z := c / V) (y := d / V)
      (div_nonneg_of_nonpos ha0 hVn.le) (div_nonneg_of_nonpos hb0.le hVn.le) (div_nonneg_of_nonpos hc0.le hVn.le)
      (div_nonneg_of_nonpos hd0.le hVn.le) (by rw [ha]; field_simp; ring)
    convert hm using 1
    have : (a / V) • A + (b / V) • B + (c / V) • C + (d / V) • D = (1 / V) • (a • A + b • B + c • C + d • D) := by
      apply V3.ext' <;> simp only [add_x, add_y, add_z, smul_x, smul_y, smul_z] <;> field_simp
    rw [this, hO']; v3
  · push Not at ha0
    have hga : a < e := by rw [ha]; linarith
    have hW : b + c + d < 0 := by linarith
    have hW0 : b + c + d ≠ 0 := hW.ne
    have hm := comb3 hM hB hC hD (u := b / (b + c + d)) (w := c / (b + c + d)) (z := d / (b + c + d))
      (div_nonneg_of_nonpos hb0.le hW.le) (div_nonneg_of_nonpos hc0.le hW.le) (div_nonneg_of_nonpos hd0.le hW.le)
      (by rw [← add_div, ← add_div, div_self hW0])
    have ex : (b / (b + c + d)) • B + (c / (b + c + d)) • C + (d / (b + c + d)) • D = (-(a / (b + c + d))) • A := by
      have hx := congrArg V3.x hO'
      have hy := congrArg V3.y hO'
      have hz := congrArg V3.z hO'
      simp only [add_x, add_y, add_z, smul_x, smul_y, smul_z, zero_x, zero_y, zero_z] at hx hy hz
      apply V3.ext' <;> simp only [add_x, add_y, add_z, smul_x, smul_y, smul_z] <;> field_simp <;> linarith
    refine ⟨_, hm, ?_⟩
    rw [ex, nrm_smul]
    have hk : |(-(a / (b + c + d)))| = a / (-(b + c + d)) := by
      rw [abs_of_nonneg]
      · rw [div_neg]
      · rw [← div_neg]; exact div_nonneg ha0.le (by linarith)
    rw [hk]
    have hVle : -V ≤ -(b + c + d) := by linarith
    have h0 : 0 < -(b + c + d) := by linarith
    have : a / (-(b + c + d)) * -V ≤ e := by
      rw [div_mul_eq_mul_div, div_le_iff₀ h0]
      nlinarith
    have hAn := nrm_nonneg A
    nlinarith

/-- How the direction follows from the simplex between two iterations of `__ccdGJK`. -/
def Hist (c : Cfg) : List SP → V3 ℝ → Prop
  | [B], dir => dir = -B.v
  | [_, _], _ => True
  | [X, Y, Z], dir => dir = (Y.v - Z.v).cross (X.v - Z.v) ∧ Z.v.dot dir < c.ceps
  | _, _ => False

/-- The simplices that are met. -/
def Ok (A B : Set (V3 ℝ)) (s : List SP) : Prop := (∀ p ∈ s, Made A B p) ∧ s ≠ [] ∧ s.length ≤ 4

/-- What is known when the origin is found in the simplex `s`: a point of the set is very near to it, or `s` is a
tetrahedron, and very thin. -/
def Caught (c : Cfg) (M : Set (V3 ℝ)) (s : List SP) : Prop :=
  (∃ x ∈ M, x.nrm ≤ c.eps) ∨ (∃ x ∈ M, ∃ b ∈ M, x.nrm ≤ c.eps * b.nrm) ∨
  ∃ p q r a : SP, s = [p, q, r, a] ∧
    (|vol p.v q.v r.v a.v| < c.ceps ∨ ∃ x ∈ M, x.nrm * |vol p.v q.v r.v a.v| ≤ c.ceps * a.v.nrm)

/-- What is known of the outcome of `doSimplex`. -/
def StepOk (c : Cfg) (A B : Set (V3 ℝ)) : Step → Prop
  | .inside s => Ok A B s ∧ Caught c (Diff A B) s
  | .stuck s => Ok A B s
  | .go s d => Ok A B s ∧ Hist c s d

theorem made_of {A B : Set (V3 ℝ)} {s : List SP} (h : s.Forall (Made A B)) (h1 : s ≠ []) (h2 : s.length ≤ 4) : Ok A B s :=
  ⟨List.forall_iff_forall_mem.1 h, h1, h2⟩

theorem tiny_caught {c : Cfg} (he : 0 < c.eps) {l : Lib} (hl : l.Exact) {M : Set (V3 ℝ)} (hM : ConvexSet M) {x y z : V3 ℝ}
    (hx : x ∈ M) (hy : y ∈ M) (hz : z ∈ M) (h : tiny c (l.tri 0 x y z).1 = true) (s : List SP) : Caught c M s := by
  obtain ⟨w, hw, hn⟩ := tiny_lt he hl h
  refine Or.inl ⟨w, hull_sub hM (by simp [hx, hy, hz]) hw, ?_⟩
  rw [show w - 0 = w by v3] at hn
  exact hn.le

theorem edge_ok {c : Cfg} {A B : Set (V3 ℝ)} {b a : SP} (hb : Made A B b) (ha : Made A B a) : StepOk c A B (simplex3Edge c b a) := by
  unfold simplex3Edge
  simp only
  split
  · exact ⟨made_of ⟨hb, ha⟩ (by simp) (by simp), trivial⟩
  · exact ⟨made_of ha (by simp) (by simp), rfl⟩

theorem simplex3_ok {l : Lib} (hl : l.Exact) {c : Cfg} (he : 0 < c.eps) (hc : 0 < c.ceps) {A B : Set (V3 ℝ)} (hA : ConvexSet A)
    (hB : ConvexSet B) {p q r : SP} (hp : Made A B p) (hq : Made A B q) (hr : Made A B r) :
    StepOk c A B (doSimplex3 l c p q r) := by
  have hM := diff_isConvex hA hB
  have h3 : Ok A B [p, q, r] := made_of ⟨hp, hq, hr⟩ (by simp) (by simp)
  unfold doSimplex3
  split
  · rename_i h
    exact ⟨h3, tiny_caught he hl hM hr.diff hq.diff hp.diff h _⟩
  split
  · exact h3
  simp only
  split
  · split
    · exact ⟨made_of ⟨hp, hr⟩ (by simp) (by simp), trivial⟩
    · exact edge_ok hq hr
  split
  · exact edge_ok hq hr
  split
  · rename_i h
    refine ⟨h3, rfl, ?_⟩
    have h' : -c.ceps < ((q.v - r.v).cross (p.v - r.v)).dot (-r.v) := by
      simp only [upZero, isZero, Bool.or_eq_true, decide_eq_true_eq] at h
      rcases h with h | h
      · exact (abs_lt.1 h).1
      · linarith
    rw [dot_comm]
    have : ((q.v - r.v).cross (p.v - r.v)).dot (-r.v) = -(((q.v - r.v).cross (p.v - r.v)).dot r.v) := by simp [dot]; ring
    linarith
  · rename_i h
    refine ⟨made_of ⟨hq, hp, hr⟩ (by simp) (by simp), ?_, ?_⟩
    · apply V3.ext' <;> simp [cross] <;> ring
    · have h' : ((q.v - r.v).cross (p.v - r.v)).dot (-r.v) ≤ 0 := by
        by_contra hc'
        push Not at hc'
        apply h
        simp only [upZero, isZero, Bool.or_eq_true, decide_eq_true_eq]
        exact Or.inr hc'
      have : r.v.dot (-(q.v - r.v).cross (p.v - r.v)) = ((q.v - r.v).cross (p.v - r.v)).dot (-r.v) := by simp [dot]; ring
      rw [this]; linarith

theorem simplex_ok {l : Lib} (hl : l.Exact) {c : Cfg} (he : 0 < c.eps) (hc : 0 < c.ceps) {A B : Set (V3 ℝ)} (hA : ConvexSet A)
    (hB : ConvexSet B) {s : List SP} {dir : V3 ℝ} {last : SP} (hs : Ok A B s) (hh : Hist c s dir) (hm : Made A B last)
    (hd : 0 ≤ last.v.dot dir) : StepOk c A B (doSimplex l c (s ++ [last])) := by
  have hM := diff_isConvex hA hB
  match s, hs, hh with
  | [b], hs, hh =>
    have hb : Made A B b := hs.1 b (by simp)
    have hdir : dir = -b.v := hh
    have h2 : Ok A B [b, last] := made_of ⟨hb, hm⟩ (by simp) (by simp)
    show StepOk c A B (doSimplex2 c b last)
    unfold doSimplex2
    simp only
    split
    · rename_i h
      refine ⟨h2, Or.inr (Or.inl ?_)⟩
      obtain ⟨t, t0, t1, ht⟩ := segment_near he (A := last.v) (B := b.v) (by rw [hdir] at hd; simp [dot] at hd ⊢; linarith) h
      exact ⟨_, hM _ hb.diff _ hm.diff t t0 t1, _, hb.diff, ht⟩
    · exact ⟨h2, trivial⟩
  | [p, q], hs, hh =>
    exact simplex3_ok hl he hc hA hB (hs.1 p (by simp)) (hs.1 q (by simp)) hm
  | [p, q, r], hs, hh =>
    have hp : Made A B p := hs.1 p (by simp)
    have hq : Made A B q := hs.1 q (by simp)
    have hr : Made A B r := hs.1 r (by simp)
    have h4 : Ok A B [p, q, r, last] := made_of ⟨hp, hq, hr, hm⟩ (by simp) (by simp)
    obtain ⟨hdir, hz⟩ := hh
    show StepOk c A B (doSimplex4 l c p q r last)
    unfold doSimplex4
    split
    · exact h4
    split
    · rename_i h; exact ⟨h4, tiny_caught he hl hM hm.diff hr.diff hq.diff h _⟩
    split
    · rename_i h; exact ⟨h4, tiny_caught he hl hM hm.diff hq.diff hp.diff h _⟩
    split
    · rename_i h; exact ⟨h4, tiny_caught he hl hM hm.diff hr.diff hp.diff h _⟩
    split
    · rename_i h; exact ⟨h4, tiny_caught he hl hM hr.diff hq.diff hp.diff h _⟩
    simp only
    split
    · rename_i h
      simp only [Bool.and_eq_true, decide_eq_true_eq] at h
      refine ⟨h4, Or.inr (Or.inr ⟨_, _, _, _, rfl, ?_⟩)⟩
      rw [hdir] at hd hz
      exact tetra_near hM hc hm.diff hr.diff hq.diff hp.diff hd hz h.1.1 h.1.2 h.2
    split
    · exact simplex3_ok hl he hc hA hB hp hq hm
    split
    · exact simplex3_ok hl he hc hA hB hr hp hm
    · exact simplex3_ok hl he hc hA hB hq hr hm

/-- What is known of the support function of a pair of shapes: its points are points of the shapes, and extreme up to
`slack` in the directions that are not zero. -/
structure Supports (sup : V3 ℝ → Option SP) (A B : Set (V3 ℝ)) (slack : ℝ) : Prop where
  made : ∀ d p, sup d = some p → Made A B p
  far : ∀ d p, d ≠ 0 → sup d = some p → ∀ x ∈ Diff A B, x.dot d ≤ p.v.dot d + slack

/-- What is known of the outcome of `__ccdGJK`. -/
def OutOk (c : Cfg) (A B : Set (V3 ℝ)) (slack : ℝ) : Out → Prop
  | .hit s => Ok A B s ∧ Caught c (Diff A B) s
  | .apart s d => Ok A B s ∧ d ≠ 0 ∧ ∀ x ∈ Diff A B, x.dot d < slack
  | .stuck s => Ok A B s
  | .undef => True

theorem hist_length {c : Cfg} {s : List SP} {d : V3 ℝ} (h : Hist c s d) : s.length ≤ 3 := by
  match s, h with
  | [_], _ => simp
  | [_, _], _ => simp
  | [_, _, _], _ => simp

theorem gjkLoop_ok {l : Lib} (hl : l.Exact) {c : Cfg} (he : 0 < c.eps) (hc : 0 < c.ceps) {A B : Set (V3 ℝ)} (hA : ConvexSet A)
    (hB : ConvexSet B) {sup : V3 ℝ → Option SP} {slack : ℝ} (hs : Supports sup A B slack) (n : ℕ) (s : List SP) (dir : V3 ℝ)
    (ho : Ok A B s) (hh : Hist c s dir) : OutOk c A B slack (gjkLoop l c sup n s dir) := by
  induction n generalizing s dir with
  | zero => exact ho
  | succ n ih =>
    unfold gjkLoop
    rcases hp : sup dir with _ | last
    · trivial
    simp only
    split
    · rename_i h
      have hd : dir ≠ 0 := by
        rintro rfl
        simp [dot] at h
      exact ⟨ho, hd, fun x hx => by linarith [hs.far dir last hd hp x hx]⟩
    rename_i h
    push Not at h
    have key := simplex_ok hl he hc hA hB ho hh (hs.made _ _ hp) h
    rcases e : doSimplex l c (s ++ [last]) with s' | s' | ⟨s', d'⟩
    · rw [e] at key; exact key
    · rw [e] at key; exact key
    · rw [e] at key
      simp only
      split
      · exact key.1
      · exact ih s' d' key.1 key.2

theorem gjk_ok {l : Lib} (hl : l.Exact) {c : Cfg} (he : 0 < c.eps) (hc : 0 < c.ceps) {A B : Set (V3 ℝ)} (hA : ConvexSet A)
    (hB : ConvexSet B) {sup : V3 ℝ → Option SP} {slack : ℝ} (hs : Supports sup A B slack) : OutOk c A B slack (gjk l c sup) := by
  unfold gjk
  rcases hp : sup ⟨1, 0, 0⟩ with _ | last
  · trivial
  · exact gjkLoop_ok hl he hc hA hB hs _ _ _ (made_of (hs.made _ _ hp) (by simp) (by simp)) rfl

end Ccd
end Fcl
