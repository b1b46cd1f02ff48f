import Verif.Ccd.PolytopeFace
import Verif.Ccd.PolytopeConvex

/-!
# The normal of a face points outward
-/

namespace Fcl
namespace Pt

open V3

variable {P : Poly (V3 ℝ)}

theorem dot_self_pos {c : V3 ℝ} (hc : c ≠ 0) : 0 < c.dot c := by
  rcases lt_or_eq_of_le (show 0 ≤ c.dot c by simp only [dot]; nlinarith [mul_self_nonneg c.x, mul_self_nonneg c.y, mul_self_nonneg c.z]) with h | h
  · exact h
  · exfalso
    apply hc
    simp only [dot] at h
    apply V3.ext' <;> simp <;> nlinarith [mul_self_nonneg c.x, mul_self_nonneg c.y, mul_self_nonneg c.z]

theorem dot_sub (a b c : V3 ℝ) : a.dot (b - c) = a.dot b - a.dot c := by
  simp only [dot, sub_x, sub_y, sub_z]; ring

theorem Poly.Joins.symm {V : Type*} {P : Poly V} {e a b : ℕ} (h : P.Joins e a b) : P.Joins e b a := by
  obtain ⟨ed, h1, h2⟩ := h
  exact ⟨ed, h1, h2.symm⟩

theorem Poly.Joins.left {V : Type*} {P : Poly V} {e a b : ℕ} (h : P.Joins e a b) : P.End a e := by
  obtain ⟨ed, h1, h2⟩ := h
  exact ⟨ed, h1, h2.elim (fun h => Or.inl h.1) fun h => Or.inr h.2⟩

theorem Poly.Joins.ends {V : Type*} {P : Poly V} {e a b w : ℕ} (h : P.Joins e a b) : P.End w e ↔ w = a ∨ w = b := by
  obtain ⟨ed, h1, h2⟩ := h
  constructor
  · rintro ⟨ed', h3, h4⟩
    rw [h1] at h3
    cases h3
    rcases h2 with ⟨rfl, rfl⟩ | ⟨rfl, rfl⟩ <;> rcases h4 with rfl | rfl <;> simp
  · rintro (rfl | rfl)
    · exact Poly.Joins.left ⟨ed, h1, h2⟩
    · exact Poly.Joins.left (Poly.Joins.symm ⟨ed, h1, h2⟩)

theorem Closed.end_lt {V : Type*} {P : Poly V} (hc : Closed P) {w e : ℕ} (h : P.End w e) : w < P.verts.length := by
  obtain ⟨ed, h1, h2⟩ := h
  have := hc.ends e ed h1
  rcases h2 with rfl | rfl
  · exact this.1
  · exact this.2

/-- The three corners of a face, with the first two edges between them. -/
theorem Closed.corners {V : Type*} {P : Poly V} (hc : Closed P) {f : ℕ} {fc : Face} (hf : P.faces f = some fc) :
    ∃ a b c, a ≠ b ∧ b ≠ c ∧ c ≠ a ∧ P.Joins fc.e0 a b ∧ P.Joins fc.e1 b c ∧ P.Joins fc.e2 c a ∧ fc.e0 ≠ fc.e1 ∧ fc.e0 ≠ fc.e2 ∧ fc.e1 ≠ fc.e2 ∧
      ∀ w, P.Corner w f ↔ w = a ∨ w = b ∨ w = c := by
  obtain ⟨nd, a, b, c, h1, h2, h3, j0, j12⟩ := hc.tri f fc hf
  simp only [Face.edges, List.nodup_cons, List.mem_cons, List.not_mem_nil, or_false, not_or, not_false_eq_true, List.nodup_nil,
    and_true] at nd
  obtain ⟨⟨n01, n02⟩, n12⟩ := nd
  have cor : ∀ w, P.Corner w f ↔ P.End w fc.e0 ∨ P.End w fc.e1 ∨ P.End w fc.e2 := by
    intro w
    constructor
    · rintro ⟨e, ⟨fc', h4, h5⟩, h6⟩
      rw [hf] at h4
      cases h4
      simp only [Face.edges, List.mem_cons, List.not_mem_nil, or_false] at h5
      rcases h5 with rfl | rfl | rfl <;> simp [h6]
    · rintro (h | h | h)
      · exact ⟨_, ⟨fc, hf, by simp [Face.edges]⟩, h⟩
      · exact ⟨_, ⟨fc, hf, by simp [Face.edges]⟩, h⟩
      · exact ⟨_, ⟨fc, hf, by simp [Face.edges]⟩, h⟩
  rcases j12 with ⟨j1, j2⟩ | ⟨j1, j2⟩
  · refine ⟨a, b, c, h1, h2, h3, j0, j1, j2, n01, n02, n12, fun w => ?_⟩
    rw [cor, j0.ends, j1.ends, j2.ends]; tauto
  · refine ⟨b, a, c, h1.symm, h3.symm, h2.symm, j0.symm, j1, j2, n01, n02, n12, fun w => ?_⟩
    rw [cor, j0.ends, j1.ends, j2.ends]; tauto

theorem parallel_of_cross {u v : V3 ℝ} (hu : u ≠ 0) (h : u.cross v = 0) : v = (v.dot u / u.dot u) • u := by
  have uu := dot_self_pos hu
  have hx := congrArg V3.x h
  have hy := congrArg V3.y h
  have hz := congrArg V3.z h
  simp only [cross, zero_x, zero_y, zero_z] at hx hy hz
  apply V3.ext' <;> simp only [smul_x, smul_y, smul_z, div_mul_eq_mul_div] <;> rw [eq_div_iff uu.ne'] <;> simp only [dot]
  · linear_combination u.z * hy - u.y * hz
  · linear_combination u.x * hz - u.z * hx
  · linear_combination u.y * hx - u.x * hy

/-- The corners of a face are not in line. -/
theorem Convex.area (hc : Convex P) {a b c e e' e'' : ℕ} (hab : a ≠ b) (hca : c ≠ a) (j0 : P.Joins e a b) (j1 : P.Joins e' b c)
    (j2 : P.Joins e'' c a) (n01 : e ≠ e') (n02 : e ≠ e'') : (P.pos b - P.pos a).cross (P.pos c - P.pos a) ≠ 0 := by
  intro h0
  have u0 : P.pos b - P.pos a ≠ 0 := fun h => hab (hc.apart _ _ _ _ j0.left j0.symm.left (by
    have hx := congrArg V3.x h
    have hy := congrArg V3.y h
    have hz := congrArg V3.z h
    simp only [sub_x, sub_y, sub_z, zero_x, zero_y, zero_z] at hx hy hz
    apply V3.ext' <;> linarith))
  have v0 : P.pos c - P.pos a ≠ 0 := fun h => hca (hc.apart _ _ _ _ j2.left j0.left (by
    have hx := congrArg V3.x h
    have hy := congrArg V3.y h
    have hz := congrArg V3.z h
    simp only [sub_x, sub_y, sub_z, zero_x, zero_y, zero_z] at hx hy hz
    apply V3.ext' <;> linarith))
  have par := parallel_of_cross u0 h0
  set t := (P.pos c - P.pos a).dot (P.pos b - P.pos a) / (P.pos b - P.pos a).dot (P.pos b - P.pos a) with ht
  rcases lt_trichotomy t 0 with h | h | h
  · refine n01 (hc.strict e e' b a c j0.symm j1 (1 - t) (by linarith) ?_)
    have hx := congrArg V3.x par
    have hy := congrArg V3.y par
    have hz := congrArg V3.z par
    simp only [sub_x, sub_y, sub_z, smul_x, smul_y, smul_z] at hx hy hz
    apply V3.ext' <;> simp only [sub_x, sub_y, sub_z, smul_x, smul_y, smul_z]
    · linear_combination hx
    · linear_combination hy
    · linear_combination hz
  · rw [h] at par
    exact v0 (by rw [par]; apply V3.ext' <;> simp)
  · exact n02 (hc.strict e e'' a b c j0 j2.symm t h par)

theorem span_cross {u v n : V3 ℝ} (hu : n.dot u = 0) (hv : n.dot v = 0) (x : V3 ℝ) :
    (u.cross v).dot (u.cross v) * n.dot x = n.dot (u.cross v) * (u.cross v).dot x := by
  have e : (u.cross v).dot (u.cross v) * n.dot x - n.dot (u.cross v) * (u.cross v).dot x =
      (x.dot u * v.dot v - x.dot v * u.dot v) * n.dot u + (x.dot v * u.dot u - x.dot u * u.dot v) * n.dot v := by
    simp only [dot, cross]; ring
  rw [hu, hv] at e
  linarith

/-- The corners of a face are in one plane. -/
theorem Outward.flat (hc : Closed P) {f : ℕ} {n : V3 ℝ} (h : Outward P f n) {w w' : ℕ} (hw : P.Corner w f) (hw' : P.Corner w' f) :
    n.dot (P.pos w' - P.pos w) = 0 := by
  obtain ⟨e, -, he⟩ := id hw
  obtain ⟨e', -, he'⟩ := id hw'
  have h1 := h.2 w hw w' (hc.end_lt he')
  have h2 := h.2 w' hw' w (hc.end_lt he)
  rw [dot_sub] at *
  linarith

/-- The vector from the cross product of two sides, up to its sign. -/
theorem Convex.dir (hc : Convex P) {f : ℕ} {fc : Face} (hf : P.faces f = some fc) :
    ∃ e e', P.firstEdges f = some (e, e') ∧ P.Corner e.a f ∧ (P.pos e.b - P.pos e.a).cross (P.pos e'.b - P.pos e'.a) ≠ 0 ∧
      ∀ n, Outward P f n → ∃ s : ℝ, s ≠ 0 ∧ ∀ x : V3 ℝ, n.dot x = s * ((P.pos e.b - P.pos e.a).cross (P.pos e'.b - P.pos e'.a)).dot x := by
  obtain ⟨a, b, c, h1, h2, h3, j0, j1, j2, n01, n02, n12, cor⟩ := hc.closed.corners hf
  have ar := hc.area h1 h3 j0 j1 j2 n01 n02
  obtain ⟨e, he, hab⟩ := id j0
  obtain ⟨e', he', hbc⟩ := id j1
  refine ⟨e, e', by simp [Poly.firstEdges, hf, he, he'], ?_, ?_⟩
  · rw [cor]; rcases hab with ⟨h, -⟩ | ⟨h, -⟩ <;> simp [h]
  set k := (P.pos b - P.pos a).cross (P.pos c - P.pos a) with hk
  set d := (P.pos e.b - P.pos e.a).cross (P.pos e'.b - P.pos e'.a) with hd
  have : ∃ z : ℝ, z * z = 1 ∧ d = z • k := by
    rcases hab with ⟨q1, q2⟩ | ⟨q1, q2⟩ <;> rcases hbc with ⟨q3, q4⟩ | ⟨q3, q4⟩ <;> rw [hd, hk, q1, q2, q3, q4]
    · exact ⟨1, by norm_num, by apply V3.ext' <;> simp only [cross, sub_x, sub_y, sub_z, smul_x, smul_y, smul_z] <;> ring⟩
    · exact ⟨-1, by norm_num, by apply V3.ext' <;> simp only [cross, sub_x, sub_y, sub_z, smul_x, smul_y, smul_z] <;> ring⟩
    · exact ⟨-1, by norm_num, by apply V3.ext' <;> simp only [cross, sub_x, sub_y, sub_z, smul_x, smul_y, smul_z] <;> ring⟩
    · exact ⟨1, by norm_num, by apply V3.ext' <;> simp only [cross, sub_x, sub_y, sub_z, smul_x, smul_y, smul_z] <;> ring⟩
  obtain ⟨z, hz, hdz⟩ := this
  have z0 : z ≠ 0 := fun h => by rw [h] at hz; norm_num at hz
  have kd : ∀ x : V3 ℝ, k.dot x = z * d.dot x := fun x => by
    rw [hdz]; simp only [dot, smul_x, smul_y, smul_z]; linear_combination (-(k.x * x.x + k.y * x.y + k.z * x.z)) * hz
  refine ⟨fun h0 => ar ?_, fun n hn => ?_⟩
  · rw [h0] at hdz
    have hx := congrArg V3.x hdz
    have hy := congrArg V3.y hdz
    have hz := congrArg V3.z hdz
    simp only [smul_x, smul_y, smul_z, zero_x, zero_y, zero_z, eq_comm (a := (0 : ℝ)), mul_eq_zero, z0, false_or] at hx hy hz
    apply V3.ext' <;> assumption
  · have ca := (cor a).2 (Or.inl rfl)
    have cb := (cor b).2 (Or.inr (Or.inl rfl))
    have cc := (cor c).2 (Or.inr (Or.inr rfl))
    have kk := dot_self_pos ar
    have sp := span_cross (hn.flat hc.closed ca cb) (hn.flat hc.closed ca cc)
    rw [← hk] at sp
    have nk : n.dot k ≠ 0 := fun h => by
      have := sp n
      rw [h, zero_mul] at this
      exact (mul_pos kk (dot_self_pos hn.1)).ne' this
    refine ⟨n.dot k / k.dot k * z, mul_ne_zero (div_ne_zero nk kk.ne') z0, fun x => ?_⟩
    rw [mul_assoc, ← kd, div_mul_eq_mul_div, eq_div_iff kk.ne', ← sp x]
    ring

/-! ### The loop -/

theorem scan_eq {dir unit : V3 ℝ} {od : ℝ} (vs : List (V3 ℝ)) (mx mn : ℝ) (h : ∀ v ∈ vs, unit.dot v - od ≤ 0) (hmx : mx ≤ 0) :
    scan dir unit od vs mx mn = dir := by
  induction vs generalizing mx mn with
  | nil =>
    rw [scan, if_neg]
    exact not_lt.2 (hmx.trans (abs_nonneg _))
  | cons v vs ih =>
    have hv := h v (by simp)
    rw [scan]
    have tol : (0 : ℝ) < distTol := by unfold distTol; norm_num
    rw [if_neg (by linarith)]
    split
    · rfl
    · exact ih _ _ (fun v' hv' => h v' (by simp [hv'])) (max_le hmx hv)

theorem scan_neg {dir unit : V3 ℝ} {od : ℝ} (vs : List (V3 ℝ)) (mx mn : ℝ) (h : ∀ v ∈ vs, 0 ≤ unit.dot v - od) (hmn : 0 ≤ mn)
    (hz : mn = 0 ∨ ∃ v ∈ vs, unit.dot v - od = 0) (hp : 0 < mx ∨ ∃ v ∈ vs, 0 < unit.dot v - od) : scan dir unit od vs mx mn = -dir := by
  induction vs generalizing mx mn with
  | nil =>
    simp only [List.not_mem_nil, false_and, exists_false, or_false] at hz hp
    rw [scan, if_pos]
    rw [hz, abs_zero]
    exact hp
  | cons v vs ih =>
    have hv := h v (by simp)
    rw [scan]
    have tol : (0 : ℝ) < distTol := by unfold distTol; norm_num
    split
    · rfl
    rw [if_neg (by linarith)]
    refine ih _ _ (fun v' hv' => h v' (by simp [hv'])) (le_min hmn hv) ?_ ?_
    · rcases hz with h0 | ⟨v', hv', h0⟩
      · exact Or.inl (by rw [h0]; exact min_eq_left hv)
      · rcases List.mem_cons.1 hv' with rfl | hv'
        · exact Or.inl (by rw [h0]; exact min_eq_right hmn)
        · exact Or.inr ⟨v', hv', h0⟩
    · rcases hp with h0 | ⟨v', hv', h0⟩
      · exact Or.inl (lt_max_of_lt_left h0)
      · rcases List.mem_cons.1 hv' with rfl | hv'
        · exact Or.inl (lt_max_of_lt_right h0)
        · exact Or.inr ⟨v', hv', h0⟩

theorem mem_pos {v : V3 ℝ} (h : v ∈ P.verts) : ∃ u < P.verts.length, P.pos u = v := by
  obtain ⟨u, hu, rfl⟩ := List.mem_iff_getElem.1 h
  exact ⟨u, hu, by simp [Poly.pos, List.getD_eq_getElem?_getD, hu]⟩

theorem pos_mem {u : ℕ} (h : u < P.verts.length) : P.pos u ∈ P.verts := by
  simp [Poly.pos, List.getD_eq_getElem?_getD, h]

theorem outward_scale {f : ℕ} {n d : V3 ℝ} {s : ℝ} (hs : 0 < s) (h : Outward P f n) (e : ∀ x, n.dot x = s * d.dot x) : Outward P f d := by
  refine ⟨fun h0 => h.1 ?_, fun w hw u hu => ?_⟩
  · have : ∀ x, n.dot x = 0 := fun x => by rw [e, h0]; simp [dot]
    have zx := this ⟨1, 0, 0⟩
    have zy := this ⟨0, 1, 0⟩
    have zz := this ⟨0, 0, 1⟩
    simp only [dot, mul_one, mul_zero, _root_.add_zero, _root_.zero_add] at zx zy zz
    apply V3.ext' <;> assumption
  · have := h.2 w hw u hu
    rw [e] at this
    by_contra hc
    exact absurd this (not_le.2 (mul_pos hs (not_le.1 hc)))

/-- `faceNormalPointingOutward` does what its name says. -/
theorem faceNormal_outward (hc : Convex P) (ho : Within P 0) {big : ℝ} (hb : 0 ≤ big) {f : ℕ} (hf : P.faces f ≠ none) :
    Outward P f (faceNormal big P f) := by
  obtain ⟨fc, hfc⟩ := Option.ne_none_iff_exists'.1 hf
  obtain ⟨e, e', he, hcor, hd0, hs⟩ := hc.dir hfc
  obtain ⟨n, hn⟩ := hc.behind f hf
  obtain ⟨s, s0, hsn⟩ := hs n hn
  unfold faceNormal
  rw [he]
  simp only
  set d := (P.pos e.b - P.pos e.a).cross (P.pos e'.b - P.pos e'.a) with hd
  set r := 1 / √(d.dot d) with hr
  have rp : 0 < r := one_div_pos.2 (Real.sqrt_pos.2 (dot_self_pos hd0))
  have ud : ∀ x, (r • d).dot x = r * d.dot x := fun x => by simp only [dot, smul_x, smul_y, smul_z]; ring
  have tol : (0 : ℝ) < distTol := by unfold distTol; norm_num
  have nd : ∀ x, n.dot x = -s * (-d).dot x := fun x => by rw [hsn]; simp only [dot, neg_x, neg_y, neg_z]; ring
  have orig := ho n (n.dot (P.pos e.a)) fun u hu => by
    have := hn.2 e.a hcor u hu
    rw [dot_sub] at this
    linarith
  have z0 : n.dot 0 = 0 := by simp [dot]
  rw [z0, hsn] at orig
  rcases lt_or_gt_of_ne s0 with hs | hs
  · -- inward
    have O : Outward P f (-d) := outward_scale (neg_pos.2 hs) hn nd
    have od : (r • d).dot (P.pos e.a) ≤ 0 := by
      rw [ud]
      apply mul_nonpos_of_nonneg_of_nonpos rp.le
      by_contra hcon
      have := mul_neg_of_neg_of_pos hs (not_le.1 hcon)
      linarith
    split
    · exact O
    rename_i h1
    rw [if_pos ⟨not_lt.1 h1, by linarith⟩, scan_neg]
    · exact O
    · intro v hv
      obtain ⟨u, hu, rfl⟩ := mem_pos hv
      have := O.2 e.a hcor u hu
      rw [ud, ud, ← mul_sub]
      apply mul_nonneg rp.le
      simp only [dot, neg_x, neg_y, neg_z, sub_x, sub_y, sub_z] at this ⊢
      linarith
    · exact hb
    · obtain ⟨k, -, hk⟩ := id hcor
      exact Or.inr ⟨_, pos_mem (hc.closed.end_lt hk), _root_.sub_self _⟩
    · right
      obtain ⟨u, hu, hne⟩ := hc.full d (P.pos e.a) hd0
      refine ⟨_, pos_mem hu, ?_⟩
      have := O.2 e.a hcor u hu
      rw [ud, ud, ← mul_sub]
      apply mul_pos rp
      have h2 : (-d).dot (P.pos u - P.pos e.a) = -(d.dot (P.pos u - P.pos e.a)) := by simp only [dot, neg_x, neg_y, neg_z]; ring
      rw [h2] at this
      rw [← dot_sub]
      exact lt_of_le_of_ne (by linarith) (Ne.symm hne)
  · have O : Outward P f d := outward_scale hs hn hsn
    have od : 0 ≤ (r • d).dot (P.pos e.a) := by
      rw [ud]
      apply mul_nonneg rp.le
      by_contra hcon
      have := mul_neg_of_pos_of_neg hs (not_le.1 hcon)
      linarith
    rw [if_neg (by linarith)]
    split
    · rw [scan_eq]
      · exact O
      · intro v hv
        obtain ⟨u, hu, rfl⟩ := mem_pos hv
        have := O.2 e.a hcor u hu
        rw [ud, ud, ← mul_sub, ← dot_sub]
        exact mul_nonpos_of_nonneg_of_nonpos rp.le this
      · linarith
    · exact O

/-- Outward normals of a face have the same direction. -/
theorem Outward.same (hc : Convex P) {f : ℕ} {n m : V3 ℝ} (hf : P.faces f ≠ none) (hn : Outward P f n) (hm : Outward P f m) :
    ∃ t : ℝ, 0 < t ∧ ∀ x, n.dot x = t * m.dot x := by
  obtain ⟨fc, hfc⟩ := Option.ne_none_iff_exists'.1 hf
  obtain ⟨e, e', he, hcor, hd0, hs⟩ := hc.dir hfc
  obtain ⟨s, s0, h1⟩ := hs n hn
  obtain ⟨t, t0, h2⟩ := hs m hm
  have hx : ∀ x, n.dot x = s / t * m.dot x := fun x => by rw [h1, h2]; field_simp
  refine ⟨s / t, ?_, hx⟩
  obtain ⟨u, hu, hne⟩ := hc.full m (P.pos e.a) hm.1
  have a1 := hn.2 e.a hcor u hu
  have a2 := lt_of_le_of_ne (hm.2 e.a hcor u hu) hne
  rw [hx] at a1
  rcases lt_trichotomy (s / t) 0 with h | h | h
  · have := mul_pos_of_neg_of_neg h a2
    linarith
  · exact absurd h (div_ne_zero s0 t0)
  · exact h

/-- The test of visibility is exact. -/
theorem isOutside_iff (hc : Convex P) (ho : Within P 0) {big : ℝ} (hb : 0 ≤ big) {f : ℕ} (hf : P.faces f ≠ none) (q : V3 ℝ) :
    isOutside big P q f = true ↔ Sees P q f := by
  obtain ⟨fc, hfc⟩ := Option.ne_none_iff_exists'.1 hf
  obtain ⟨e, e', he, hcor, -, -⟩ := hc.dir hfc
  have O := faceNormal_outward hc ho hb hf
  unfold isOutside
  rw [he]
  simp only [decide_eq_true_eq]
  constructor
  · exact fun h => ⟨_, O, _, hcor, h⟩
  · rintro ⟨n, hn, w, hw, h⟩
    obtain ⟨t, ht, hx⟩ := O.same hc hf hn
    have := hn.flat hc.closed hcor hw
    rw [hx]
    apply mul_pos ht
    rw [dot_sub] at *
    linarith

end Pt
end Fcl
