import Verif.Props.Plane

/-!
# C71, C72: two planes or half-spaces, and the answer with and without contacts
-/

namespace Fcl
open Flat
open V3
open ComputeBV (transform)

namespace Flat

theorem lagrange (u v : V3 ℝ) : (u.cross v).dot (u.cross v) = u.dot u * v.dot v - u.dot v ^ 2 := by
  simp only [dot, cross]; ring

theorem eq_of_dot_self {u : V3 ℝ} (h : u.dot u = 0) : u.x = 0 ∧ u.y = 0 ∧ u.z = 0 := by
  simp only [dot] at h
  refine ⟨?_, ?_, ?_⟩ <;> nlinarith [mul_self_nonneg u.x, mul_self_nonneg u.y, mul_self_nonneg u.z]

theorem unit_eq {u v : V3 ℝ} (hu : u.dot u = 1) (hv : v.dot v = 1) (h : u.dot v = 1) : u = v := by
  have h0 : (u - v).dot (u - v) = 0 := by
    have : (u - v).dot (u - v) = u.dot u - 2 * u.dot v + v.dot v := by simp only [dot, sub_x, sub_y, sub_z]; ring
    rw [this, hu, hv, h]; norm_num
  obtain ⟨a, b, c⟩ := eq_of_dot_self h0
  simp only [sub_x, sub_y, sub_z] at a b c
  apply V3.ext' <;> linarith

theorem unit_neg {u v : V3 ℝ} (hu : u.dot u = 1) (hv : v.dot v = 1) (h : u.dot v = -1) : u = -v := by
  refine unit_eq hu ?_ ?_
  · rw [neg_dot, dot_neg, neg_neg, hv]
  · rw [dot_neg, h, neg_neg]

theorem ortho_line {u v y : V3 ℝ} (h1 : u.dot y = 0) (h2 : v.dot y = 0) :
    ((u.cross v).dot (u.cross v)) • y = (y.dot (u.cross v)) • u.cross v := by
  simp only [dot] at h1 h2
  apply V3.ext' <;> simp only [smul_x, smul_y, smul_z, dot, cross] <;> grind

/-- The line that is computed is the intersection of the two boundary planes. -/
theorem commonLine_spec (h1 h2 : V3 ℝ × ℝ) (hw : (h1.1.cross h2.1).dot (h1.1.cross h2.1) ≠ 0) (x : V3 ℝ) :
    (x ∈ PL h1 ∧ x ∈ PL h2) ↔ ∃ t : ℝ, x = (commonLine h1 h2).1 + t • (commonLine h1 h2).2 := by
  have o1 : h1.1.dot (commonLine h1 h2).1 = h1.2 := by
    simp only [commonLine]
    rw [dot_smul, one_div, inv_mul_eq_div, div_eq_iff hw]
    simp only [dot, cross, sub_x, sub_y, sub_z, smul_x, smul_y, smul_z]; ring
  have o2 : h2.1.dot (commonLine h1 h2).1 = h2.2 := by
    simp only [commonLine]
    rw [dot_smul, one_div, inv_mul_eq_div, div_eq_iff hw]
    simp only [dot, cross, sub_x, sub_y, sub_z, smul_x, smul_y, smul_z]; ring
  have e1 : h1.1.dot (commonLine h1 h2).2 = 0 := by simp only [commonLine, dot, cross]; ring
  have e2 : h2.1.dot (commonLine h1 h2).2 = 0 := by simp only [commonLine, dot, cross]; ring
  constructor
  · rintro ⟨hx1, hx2⟩
    rw [mem_PL] at hx1 hx2
    generalize (commonLine h1 h2).1 = o at *
    have y1 : h1.1.dot (x - o) = 0 := by rw [dot_sub, hx1, o1, _root_.sub_self]
    have y2 : h2.1.dot (x - o) = 0 := by rw [dot_sub, hx2, o2, _root_.sub_self]
    have ew : (commonLine h1 h2).2 = h1.1.cross h2.1 := rfl
    refine ⟨(x - o).dot (h1.1.cross h2.1) / (h1.1.cross h2.1).dot (h1.1.cross h2.1), ?_⟩
    rw [ew]
    have key := ortho_line y1 y2
    generalize (h1.1.cross h2.1).dot (h1.1.cross h2.1) = W at *
    generalize h1.1.cross h2.1 = w at *
    have kx := congrArg V3.x key
    have ky := congrArg V3.y key
    have kz := congrArg V3.z key
    simp only [smul_x, smul_y, smul_z] at kx ky kz
    have f : ∀ a b c : ℝ, W * (a - b) = (x - o).dot w * c → a = b + (x - o).dot w / W * c := by
      intro a b c h
      field_simp
      linarith
    apply V3.ext' <;> simp only [add_x, add_y, add_z, smul_x, smul_y, smul_z]
    · exact f _ _ _ kx
    · exact f _ _ _ ky
    · exact f _ _ _ kz
  · rintro ⟨t, rfl⟩
    rw [mem_PL, mem_PL, dot_add, dot_add, dot_smul, dot_smul, o1, o2, e1, e2]
    constructor <;> ring

end Flat

/-- **C71 (two planes).** The answer is true exactly if the planes have a common point. -/
theorem C71_planes (n1 n2 : V3 ℝ) (d1 d2 : ℝ) (hn1 : (Geo.plane n1 d1).WF) (hn2 : (Geo.plane n2 d2).WF) (X1 X2 : Pose ℝ)
    (h1 : X1.Rigid) (h2 : X2.Rigid) : planePlane n1 d1 X1 n2 d2 X2 = true ↔
      Touch (Placed X1.R X1.t (Geo.plane n1 d1).pts) (Placed X2.R X2.t (Geo.plane n2 d2).pts) := by
  have hn1' : n1.dot n1 = 1 := hn1
  have hn2' : n2.dot n2 = 1 := hn2
  have hu1 := transform_unit (d := d1) h1 hn1'
  have hu2 := transform_unit (d := d2) h2 hn2'
  rw [placed_plane h1 hn1', placed_plane h2 hn2']
  unfold planePlane
  generalize transform n1 d1 X1 = p at *
  generalize transform n2 d2 X2 = q at *
  simp only
  by_cases a1 : p.1.dot q.1 = 1
  · have e := unit_eq hu1 hu2 a1
    have : ¬ (p.1.dot q.1 = -1) := by rw [a1]; norm_num
    by_cases hd : p.2 = q.2
    · rw [if_neg (fun h => h.2 hd), if_neg (fun h => this h.1)]
      refine ⟨fun _ => ⟨p.2 • p.1, ?_, ?_⟩, fun _ => rfl⟩
      · rw [mem_PL, dot_smul, hu1, mul_one]
      · rw [mem_PL, ← e, dot_smul, hu1, mul_one, hd]
    · rw [if_pos ⟨a1, hd⟩]
      refine ⟨fun h => (by cases h), ?_⟩
      rintro ⟨x, hx, hy⟩
      rw [mem_PL] at hx hy
      rw [e] at hx
      exact absurd (hx.symm.trans hy) hd
  · by_cases a2 : p.1.dot q.1 = -1
    · have e := unit_neg hu1 hu2 a2
      by_cases hd : p.2 = -q.2
      · rw [if_neg (fun h => a1 h.1), if_neg (fun h => h.2 hd)]
        refine ⟨fun _ => ⟨p.2 • p.1, ?_, ?_⟩, fun _ => rfl⟩
        · rw [mem_PL, dot_smul, hu1, mul_one]
        · rw [mem_PL, e, dot_smul, dot_neg, hu2, hd]; ring
      · rw [if_neg (fun h => a1 h.1), if_pos ⟨a2, hd⟩]
        refine ⟨fun h => (by cases h), ?_⟩
        rintro ⟨x, hx, hy⟩
        rw [mem_PL] at hx hy
        rw [e, neg_dot, hy] at hx
        exact absurd hx.symm hd
    · rw [if_neg (fun h => a1 h.1), if_neg (fun h => a2 h.1)]
      refine ⟨fun _ => ?_, fun _ => rfl⟩
      have hw : (p.1.cross q.1).dot (p.1.cross q.1) ≠ 0 := by
        rw [lagrange, hu1, hu2]
        intro h
        rcases mul_eq_zero.1 (show (p.1.dot q.1 - 1) * (p.1.dot q.1 + 1) = 0 by linarith) with h | h
        · exact a1 (by linarith)
        · exact a2 (by linarith)
      have := (commonLine_spec p q hw ((commonLine p q).1 + (0 : ℝ) • (commonLine p q).2)).2 ⟨0, rfl⟩
      exact ⟨_, this.1, this.2⟩

/-- What a function for two unbounded shapes must do when their boundaries are not parallel. -/
structure CrossSpec (A B bdA bdB : Set (V3 ℝ)) (o : FlatOut) : Prop where
  ret : o.hit = true
  touch : Touch A B
  line : ∃ p v, o.line = some (p, v) ∧ ∀ x, (x ∈ bdA ∧ x ∈ bdB) ↔ ∃ t : ℝ, x = p + t • v

/-- **C71 (plane and half-space, in part).** If the boundaries are far enough from parallel, the answer is true and the line
is that where the two planes meet. If the normals are the same, the answer is true exactly if the plane lies in the open
half-space, and then the depth is right. Missing: nearly parallel boundaries, a plane that is the boundary of the half-space
(`C71_violated_boundary`), and opposite normals (`C71_violated_opposite`). -/
theorem C71_plane_halfspace_partial (eps big : ℝ) (heps : 0 < eps) (n1 n2 : V3 ℝ) (d1 d2 : ℝ) (hn1 : (Geo.plane n1 d1).WF)
    (hn2 : (Geo.halfspace n2 d2).WF) (X1 X2 : Pose ℝ) (h1 : X1.Rigid) (h2 : X2.Rigid) (A B : Set (V3 ℝ))
    (hA : A = Placed X1.R X1.t (Geo.plane n1 d1).pts) (hB : B = Placed X2.R X2.t (Geo.halfspace n2 d2).pts)
    (o : FlatOut) (ho : o = planeHalfspace eps big n1 d1 X1 n2 d2 X2) :
    (eps ≤ 1 - ((X1.R.mulVec n1).dot (X2.R.mulVec n2)) ^ 2 →
      CrossSpec A B A (Placed X2.R X2.t (Geo.plane n2 d2).pts) o) ∧
    (X1.R.mulVec n1 = X2.R.mulVec n2 →
      (o.hit = true ↔ ∀ x ∈ A, (X2.R.mulVec n2).dot (x - X2.t) < d2) ∧
      (o.hit = true → Touch A B ∧ ∃ p, o.depth = some p ∧ IsDepth A B p) ∧
      (A ≠ Placed X2.R X2.t (Geo.plane n2 d2).pts → o.hit = false → ¬ Touch A B)) := by
  have hn1' : n1.dot n1 = 1 := hn1
  have hn2' : n2.dot n2 = 1 := hn2
  have hu1 := transform_unit (d := d1) h1 hn1'
  have hu2 := transform_unit (d := d2) h2 hn2'
  have e1 : X1.R.mulVec n1 = (transform n1 d1 X1).1 := by rw [transform_eq h1 hn1']
  have e2 : X2.R.mulVec n2 = (transform n2 d2 X2).1 := by rw [transform_eq h2 hn2']
  have e3 : d2 + (transform n2 d2 X2).1.dot X2.t = (transform n2 d2 X2).2 := by rw [transform_eq h2 hn2']
  rw [placed_plane h1 hn1'] at hA
  rw [placed_halfspace h2 hn2'] at hB
  rw [placed_plane h2 hn2', e1, e2]
  subst ho
  unfold planeHalfspace
  generalize transform n1 d1 X1 = p at *
  generalize transform n2 d2 X2 = q at *
  subst hA hB
  simp only
  constructor
  · intro hc
    have hw : ¬ (p.1.cross q.1).dot (p.1.cross q.1) < eps := by
      rw [lagrange, hu1, hu2]; linarith
    rw [if_neg hw]
    have cl := commonLine_spec p q (by linarith)
    refine ⟨rfl, ?_, _, _, rfl, cl⟩
    have := (cl ((commonLine p q).1 + (0 : ℝ) • (commonLine p q).2)).2 ⟨0, rfl⟩
    exact ⟨_, this.1, le_of_eq this.2⟩
  · intro e
    have hw : (p.1.cross q.1).dot (p.1.cross q.1) < eps := by
      rw [lagrange, hu1, hu2, e, hu2]; linarith
    have hp : p.1.dot q.1 > 0 := by rw [e, hu2]; norm_num
    have hm : p.2 • p.1 ∈ PL p := by rw [mem_PL, dot_smul, hu1, mul_one]
    have hv : q.1.dot (p.2 • p.1) = p.2 := by rw [← e, dot_smul, hu1, mul_one]
    rw [if_pos hw, if_pos hp]
    by_cases hd : p.2 < q.2
    · rw [if_pos hd]
      refine ⟨⟨fun _ x hx => ?_, fun _ => rfl⟩, fun _ => ⟨⟨_, hm, ?_⟩, _, rfl, ?_⟩, fun _ h => (by cases h)⟩
      · rw [mem_PL, e] at hx
        rw [dot_sub, hx]; linarith
      · rw [mem_HS, hv]; exact hd.le
      · have := hs_depth (A := PL p) hu2 (p := p.2 • p.1) ⟨hm, fun x hx => ?_⟩ (by rw [hv]; exact hd.le)
        · rwa [hv] at this
        · rw [mem_PL, e] at hx
          rw [neg_dot, neg_dot, hv, hx]
    · rw [if_neg hd]
      refine ⟨⟨fun h => (by cases h), fun h => ?_⟩, fun h => (by cases h), fun hne _ => ?_⟩
      · have := h _ hm
        rw [dot_sub, hv] at this
        linarith
      · rintro ⟨x, hx, hy⟩
        rw [mem_PL, e] at hx
        rw [mem_HS, hx] at hy
        refine hne ?_
        ext z
        rw [mem_PL, mem_PL, e, le_antisymm hy (not_lt.1 hd)]

/-- **C71 (two half-spaces, in part).** If the boundaries are far enough from parallel, the answer is true and the line is
that where the boundaries meet. If the normals are the same, the answer is true, which is right, and `ret` says which of the
two contains the other. Missing: nearly parallel boundaries and opposite normals (`C71_violated_opposite`). -/
theorem C71_halfspaces_partial (eps big : ℝ) (heps : 0 < eps) (n1 n2 : V3 ℝ) (d1 d2 : ℝ) (hn1 : (Geo.halfspace n1 d1).WF)
    (hn2 : (Geo.halfspace n2 d2).WF) (X1 X2 : Pose ℝ) (h1 : X1.Rigid) (h2 : X2.Rigid) (A B : Set (V3 ℝ))
    (hA : A = Placed X1.R X1.t (Geo.halfspace n1 d1).pts) (hB : B = Placed X2.R X2.t (Geo.halfspace n2 d2).pts)
    (o : FlatOut) (ho : o = halfspaceHalfspace eps big n1 d1 X1 n2 d2 X2) :
    (eps ≤ 1 - ((X1.R.mulVec n1).dot (X2.R.mulVec n2)) ^ 2 →
      CrossSpec A B (Placed X1.R X1.t (Geo.plane n1 d1).pts) (Placed X2.R X2.t (Geo.plane n2 d2).pts) o) ∧
    (X1.R.mulVec n1 = X2.R.mulVec n2 → o.hit = true ∧ Touch A B ∧ (o.ret = 1 ∧ A ⊆ B ∧ ¬ B ⊆ A ∨ o.ret = 2 ∧ B ⊆ A)) := by
  have hn1' : n1.dot n1 = 1 := hn1
  have hn2' : n2.dot n2 = 1 := hn2
  have hu1 := transform_unit (d := d1) h1 hn1'
  have hu2 := transform_unit (d := d2) h2 hn2'
  have e1 : X1.R.mulVec n1 = (transform n1 d1 X1).1 := by rw [transform_eq h1 hn1']
  have e2 : X2.R.mulVec n2 = (transform n2 d2 X2).1 := by rw [transform_eq h2 hn2']
  rw [placed_halfspace h1 hn1'] at hA
  rw [placed_halfspace h2 hn2'] at hB
  rw [placed_plane h1 hn1', placed_plane h2 hn2', e1, e2]
  subst ho
  unfold halfspaceHalfspace
  generalize transform n1 d1 X1 = p at *
  generalize transform n2 d2 X2 = q at *
  subst hA hB
  simp only
  constructor
  · intro hc
    have hw : ¬ (p.1.cross q.1).dot (p.1.cross q.1) < eps := by
      rw [lagrange, hu1, hu2]; linarith
    rw [if_neg hw]
    have cl := commonLine_spec p q (by linarith)
    refine ⟨rfl, ?_, _, _, rfl, cl⟩
    have := (cl ((commonLine p q).1 + (0 : ℝ) • (commonLine p q).2)).2 ⟨0, rfl⟩
    exact ⟨_, le_of_eq this.1, le_of_eq this.2⟩
  · intro e
    have hw : (p.1.cross q.1).dot (p.1.cross q.1) < eps := by
      rw [lagrange, hu1, hu2, e, hu2]; linarith
    have hp : p.1.dot q.1 > 0 := by rw [e, hu2]; norm_num
    have hv : ∀ c : ℝ, p.1.dot (c • p.1) = c := fun c => by rw [dot_smul, hu1, mul_one]
    rw [if_pos hw, if_pos hp]
    by_cases hd : p.2 < q.2
    · rw [if_pos hd]
      refine ⟨rfl, ⟨p.2 • p.1, ?_, ?_⟩, Or.inl ⟨rfl, ?_, ?_⟩⟩
      · rw [mem_HS, hv]
      · rw [mem_HS, ← e, hv]; exact hd.le
      · intro x hx
        rw [mem_HS] at hx ⊢
        rw [← e]; linarith
      · intro hs
        have := hs (a := q.2 • p.1) (by rw [mem_HS, ← e, hv])
        rw [mem_HS, hv] at this
        linarith
    · rw [if_neg hd]
      refine ⟨rfl, ⟨q.2 • p.1, ?_, ?_⟩, Or.inr ⟨rfl, ?_⟩⟩
      · rw [mem_HS, hv]; exact not_lt.1 hd
      · rw [mem_HS, ← e, hv]
      · intro x hx
        rw [mem_HS] at hx ⊢
        rw [e]; linarith

/-- **C71 is violated for opposite normals.** A plane `n·x = a` and a half-space `-n·x ≤ b`, or two half-spaces `n·x ≤ a`,
`-n·x ≤ b`, have common points exactly if `a + b ≥ 0`. Both functions answer true exactly if `a + b ≤ 0`. -/
theorem C71_violated_opposite (eps big : ℝ) (heps : 0 < eps) (n : V3 ℝ) (hn : n.dot n = 1) (a b : ℝ) :
    (Touch (Placed (Pose.id : Pose ℝ).R (Pose.id : Pose ℝ).t (Geo.plane n a).pts)
      (Placed (Pose.id : Pose ℝ).R (Pose.id : Pose ℝ).t (Geo.halfspace (-n) b).pts) ↔ 0 ≤ a + b) ∧
    ((planeHalfspace eps big n a Pose.id (-n) b Pose.id).hit = true ↔ a + b ≤ 0) ∧
    (Touch (Placed (Pose.id : Pose ℝ).R (Pose.id : Pose ℝ).t (Geo.halfspace n a).pts)
      (Placed (Pose.id : Pose ℝ).R (Pose.id : Pose ℝ).t (Geo.halfspace (-n) b).pts) ↔ 0 ≤ a + b) ∧
    ((halfspaceHalfspace eps big n a Pose.id (-n) b Pose.id).hit = true ↔ a + b ≤ 0) := by
  have hm : (-n).dot (-n) = 1 := by rw [neg_dot, dot_neg, neg_neg, hn]
  have hw : (n.cross (-n)).dot (n.cross (-n)) < eps := by rw [lagrange, hm, dot_neg, hn]; norm_num; exact heps
  have hp : ¬ n.dot (-n) > 0 := by rw [dot_neg, hn]; norm_num
  have ha : n.dot (a • n) = a := by rw [dot_smul, hn, mul_one]
  rw [placed_id, placed_id, placed_id]
  refine ⟨⟨?_, fun h => ⟨a • n, ha, ?_⟩⟩, ?_, ⟨?_, fun h => ⟨a • n, ?_, ?_⟩⟩, ?_⟩
  · rintro ⟨x, hx, hy⟩
    change n.dot x = a at hx
    change (-n).dot x ≤ b at hy
    rw [neg_dot] at hy; linarith
  · change (-n).dot (a • n) ≤ b
    rw [neg_dot, ha]; linarith
  · unfold planeHalfspace
    rw [transform_id hn, transform_id hm]
    simp only
    rw [if_pos hw, if_neg hp]
    split_ifs with h
    · exact ⟨fun h => (by cases h), fun _ => by linarith⟩
    · exact ⟨fun _ => not_lt.1 h, fun _ => rfl⟩
  · rintro ⟨x, hx, hy⟩
    change n.dot x ≤ a at hx
    change (-n).dot x ≤ b at hy
    rw [neg_dot] at hy; linarith
  · change n.dot (a • n) ≤ a
    rw [ha]
  · change (-n).dot (a • n) ≤ b
    rw [neg_dot, ha]; linarith
  · unfold halfspaceHalfspace
    rw [transform_id hn, transform_id hm]
    simp only
    rw [if_pos hw, if_neg hp]
    split_ifs with h
    · exact ⟨fun h => (by cases h), fun _ => by linarith⟩
    · exact ⟨fun _ => not_lt.1 h, fun _ => rfl⟩

/-- **C71 is violated for a plane that is the boundary of the half-space**: reported to be apart. -/
theorem C71_violated_boundary (eps big : ℝ) (heps : 0 < eps) (n : V3 ℝ) (hn : n.dot n = 1) (a : ℝ) :
    Touch (Placed (Pose.id : Pose ℝ).R (Pose.id : Pose ℝ).t (Geo.plane n a).pts)
      (Placed (Pose.id : Pose ℝ).R (Pose.id : Pose ℝ).t (Geo.halfspace n a).pts) ∧
    (planeHalfspace eps big n a Pose.id n a Pose.id).hit = false := by
  have hw : (n.cross n).dot (n.cross n) < eps := by rw [lagrange, hn]; norm_num; exact heps
  have hp : n.dot n > 0 := by rw [hn]; norm_num
  have ha : n.dot (a • n) = a := by rw [dot_smul, hn, mul_one]
  rw [placed_id, placed_id]
  refine ⟨⟨a • n, ha, le_of_eq ha⟩, ?_⟩
  unfold planeHalfspace
  rw [transform_id hn]
  simp only
  rw [if_pos hw, if_pos hp, if_neg (lt_irrefl _)]

/-- C71: the hypotheses hold of the floor and of a wall, and of two floors; with the tolerance of the code for double
precision. -/
example : (Geo.halfspace (⟨0, 0, 1⟩ : V3 ℝ) 3).WF ∧ (Geo.halfspace (⟨3 / 5, 0, 4 / 5⟩ : V3 ℝ) 1).WF ∧
    (1 : ℝ) / 10 ^ 7 ≤ 1 - (((Pose.id : Pose ℝ).R.mulVec ⟨0, 0, 1⟩).dot ((Pose.id : Pose ℝ).R.mulVec ⟨3 / 5, 0, 4 / 5⟩)) ^ 2 ∧
    tiltPose.R.mulVec ⟨0, 0, 1⟩ = (Pose.id : Pose ℝ).R.mulVec (tiltPose.R.mulVec ⟨0, 0, 1⟩) := by
  refine ⟨by norm_num [Geo.WF, dot], by norm_num [Geo.WF, dot], ?_, ?_⟩
  · norm_num [Pose.id, M3.mulVec, M3.one, dot]
  · apply V3.ext' <;> simp [Pose.id, M3.mulVec, M3.one, dot]
/-- C71: the answers are not constant. -/
example : planePlane ⟨0, 0, 1⟩ 1 Pose.id ⟨0, 0, 1⟩ 2 Pose.id = false ∧
    planePlane ⟨0, 0, 1⟩ 1 Pose.id ⟨0, 0, -1⟩ (-1) Pose.id = true ∧
    (planeHalfspace (1 / 10 ^ 7) 1000 ⟨0, 0, 1⟩ 1 Pose.id ⟨0, 0, 1⟩ 2 Pose.id).hit = true ∧
    (planeHalfspace (1 / 10 ^ 7) 1000 ⟨0, 0, 1⟩ 2 Pose.id ⟨0, 0, 1⟩ 1 Pose.id).hit = false := by
  unfold planePlane planeHalfspace
  rw [transform_id (n := ⟨0, 0, 1⟩) (d := 1) (by norm_num [dot]), transform_id (n := ⟨0, 0, 1⟩) (d := 2) (by norm_num [dot]),
    transform_id (n := ⟨0, 0, -1⟩) (d := -1) (by norm_num [dot])]
  norm_num [dot, cross]

/-! ## C72 -/

/-- **C72 (half-spaces).** The answer does not depend on whether contacts are wanted, nor on the contacts there are. -/
theorem C72_halfspace (tol r lz : ℝ) (side radii : V3 ℝ) (n : V3 ℝ) (d : ℝ) (X1 X2 : Pose ℝ) (l : List CPoint) :
    (sphereHalfspace r X1 n d X2 none).1 = (sphereHalfspace r X1 n d X2 (some l)).1 ∧
    (ellipsoidHalfspace radii X1 n d X2 none).1 = (ellipsoidHalfspace radii X1 n d X2 (some l)).1 ∧
    (boxHalfspace tol side X1 n d X2 none).1 = (boxHalfspace tol side X1 n d X2 (some l)).1 ∧
    (capsuleHalfspace tol r lz X1 n d X2 none).1 = (capsuleHalfspace tol r lz X1 n d X2 (some l)).1 ∧
    (cylinderHalfspace tol r lz X1 n d X2 none).1 = (cylinderHalfspace tol r lz X1 n d X2 (some l)).1 ∧
    (coneHalfspace tol r lz X1 n d X2 none).1 = (coneHalfspace tol r lz X1 n d X2 (some l)).1 := by
  refine ⟨?_, ?_, ?_, ?_, ?_, ?_⟩
  · unfold sphereHalfspace; simp only; split_ifs <;> rfl
  · unfold ellipsoidHalfspace; simp only; split_ifs <;> rfl
  · simp only [boxHalfspace, boxHalfspace0]
    split_ifs with h
    · exact decide_eq_false (not_le.2 h)
    · exact decide_eq_true (not_lt.1 h)
  · unfold capsuleHalfspace; simp only; split_ifs <;> rfl
  · unfold cylinderHalfspace; simp only; split_ifs <;> rfl
  · unfold coneHalfspace; simp only; split_ifs <;> rfl

/-- **C72 (convex sets and half-spaces)**, where the loop is left early if no contacts are wanted. -/
theorem C72_convex (big : ℝ) (hbig : 0 < big) (junk : V3 ℝ) (vs : List (V3 ℝ)) (n : V3 ℝ) (d : ℝ) (hn : (Geo.halfspace n d).WF)
    (X1 X2 : Pose ℝ) (h1 : X1.Rigid) (h2 : X2.Rigid)
    (hv : ∀ v ∈ vs, (X2.R.mulVec n).dot (X1.apply v - X2.t) - d < big) (l : List CPoint) :
    (convexHalfspace big junk vs X1 n d X2 none).1 = (convexHalfspace big junk vs X1 n d X2 (some l)).1 := by
  rw [Bool.eq_iff_iff, (C69_convex big hbig junk vs n d hn X1 X2 h1 h2 hv none _ _ rfl rfl).ret,
    (C69_convex big hbig junk vs n d hn X1 X2 h1 h2 hv (some l) _ _ rfl rfl).ret]

/-- **C72 (planes, in part).** Missing: capsules (`C70_violated_capsule`) and cylinders (`C70_violated_cylinder`), where the
answers differ. -/
theorem C72_plane_partial (tol r lz : ℝ) (side radii : V3 ℝ) (n : V3 ℝ) (d : ℝ) (X1 X2 : Pose ℝ) (l : List CPoint) :
    (spherePlane r X1 n d X2 none).1 = (spherePlane r X1 n d X2 (some l)).1 ∧
    (ellipsoidPlane radii X1 n d X2 none).1 = (ellipsoidPlane radii X1 n d X2 (some l)).1 ∧
    (boxPlane tol side X1 n d X2 none).1 = (boxPlane tol side X1 n d X2 (some l)).1 ∧
    (conePlane tol r lz X1 n d X2 none).1 = (conePlane tol r lz X1 n d X2 (some l)).1 := by
  refine ⟨?_, ?_, ?_, ?_⟩
  · unfold spherePlane; simp only; split_ifs <;> rfl
  · unfold ellipsoidPlane; simp only; split_ifs <;> rfl
  · unfold boxPlane; simp only; split_ifs <;> rfl
  · unfold conePlane; simp only; split_ifs <;> rfl

/-- **C72 (capsules and planes, in part).** Outside of the band of the tolerance the answers agree. -/
theorem C72_capsule_plane_partial (tol r lz : ℝ) (htol : 0 ≤ tol) (n : V3 ℝ) (d : ℝ) (X1 X2 : Pose ℝ) (l : List CPoint)
    (hr : 0 ≤ r) (he : (axisEnds lz X1 n d X2).1 * (axisEnds lz X1 n d X2).2 < -tol ∨
      0 ≤ (axisEnds lz X1 n d X2).1 * (axisEnds lz X1 n d X2).2) (h2 : X2.Rigid) (hn : (Geo.plane n d).WF) :
    (capsulePlane tol r lz X1 n d X2 none).1 = (capsulePlane tol r lz X1 n d X2 (some l)).1 := by
  have hn' : n.dot n = 1 := hn
  obtain ⟨b1, b2⟩ := half_ends X1 lz
  have ha : axisEnds lz X1 n d X2 = (sd (transform n d X2) (X1.t + (1 / 2 * lz) • X1.R.col 2),
      sd (transform n d X2) (X1.t - (1 / 2 * lz) • X1.R.col 2)) := by
    rw [axisEnds, b1, b2, transform_eq h2 hn']
    simp only [sd]
    rw [dot_sub, dot_sub]
    ext <;> simp only <;> ring
  rw [ha] at he
  simp only at he
  simp only [capsulePlane, capsulePlane0]
  generalize sd (transform n d X2) (X1.t + (1 / 2 * lz) • X1.R.col 2) = a at *
  generalize sd (transform n d X2) (X1.t - (1 / 2 * lz) • X1.R.col 2) = b at *
  rcases he with he | he
  · rw [if_pos (by linarith), if_pos he]
    split_ifs <;> rfl
  · rw [if_neg (show ¬ a * b < -tol by linarith)]
    by_cases h : |a| > r ∧ |b| > r
    · rw [if_pos h, if_neg]
      · exact decide_eq_false (by rintro (h' | h') <;> linarith [h.1, h.2])
      · intro h0
        rcases mul_eq_zero.1 (le_antisymm h0 he) with h' | h' <;> rw [h', abs_zero] at h <;> linarith [h.1, h.2]
    · rw [if_neg h]
      have : |a| ≤ r ∨ |b| ≤ r := by
        by_contra hc
        push Not at hc
        exact h hc
      by_cases h0 : a * b ≤ 0
      · rw [if_pos h0]
      · rw [if_neg h0]; exact decide_eq_true this

/-- C70 and C72: the hypotheses of the partial theorems hold of a tilted shape that is cut by a horizontal plane, with the
tolerance of the code for double precision. -/
example : axisEnds 2 tiltPose ⟨0, 0, 1⟩ 3 Pose.id = (tiltPose.t.z + 4 / 5 - 3, tiltPose.t.z - 4 / 5 - 3) ∧
    (axisEnds 2 Pose.id ⟨0, 0, 1⟩ 0 Pose.id).1 * (axisEnds 2 Pose.id ⟨0, 0, 1⟩ 0 Pose.id).2 < -(1 / 10 ^ 7) := by
  norm_num [axisEnds, tiltPose, Pose.id, Pose.apply, M3.mulVec, M3.one, dot]

/-- C70_cone_partial, C70_cylinder_partial: the upright cone or cylinder of height 2 has points on both sides of the plane
`z = 0`. -/
example : (∃ x ∈ Placed (Pose.id : Pose ℝ).R (Pose.id : Pose ℝ).t (Geo.cone 1 2).pts,
      ((Pose.id : Pose ℝ).R.mulVec ⟨0, 0, 1⟩).dot (x - (Pose.id : Pose ℝ).t) < 0) ∧
    ∃ x ∈ Placed (Pose.id : Pose ℝ).R (Pose.id : Pose ℝ).t (Geo.cone 1 2).pts,
      0 < ((Pose.id : Pose ℝ).R.mulVec ⟨0, 0, 1⟩).dot (x - (Pose.id : Pose ℝ).t) := by
  rw [placed_id]
  refine ⟨⟨_, ⟨1, 0, 0, by norm_num, by norm_num, by norm_num, rfl⟩, ?_⟩, ⟨_, cone_tip 1 2, ?_⟩⟩ <;>
  norm_num [Pose.id, M3.mulVec, M3.one, dot]

/-- C70, C72: the answers are not constant. -/
example : (spherePlane 1 Pose.id ⟨0, 0, 1⟩ (-1 / 2) Pose.id (some [])).1 = true ∧
    (spherePlane 1 Pose.id ⟨0, 0, 1⟩ (-2) Pose.id (some [])).1 = false := by
  unfold spherePlane
  rw [transform_id (by norm_num [dot]), transform_id (by norm_num [dot])]
  norm_num [sd, Pose.id, dot]

end Fcl
