import Verif.Motion.TriCcdMove

/-!
# The elementary tests and the leaf test of the continuous collision of meshes
-/

namespace Fcl
namespace TriCcd
open V3

/-- The triangle at time `t` when its vertices go straight from those of `s0` to those of `s1`. -/
noncomputable def during (s0 s1 : Tri ℝ) (t : ℝ) : Tri ℝ :=
  ⟨s0.a + t • (s1.a - s0.a), s0.b + t • (s1.b - s0.b), s0.c + t • (s1.c - s0.c)⟩

/-- The point at time `t` when it goes straight from `p0` to `p1`. -/
noncomputable def along (p0 p1 : V3 ℝ) (t : ℝ) : V3 ℝ := p0 + t • (p1 - p0)

/-- The foot of the perpendicular from `p` to the plane of the triangle is in the triangle. -/
def Over (S : Tri ℝ) (p : V3 ℝ) : Prop := ∃ x ∈ S.pts, ∃ k : ℝ, p = x + k • S.nor

/-- The lines through two segments have a common perpendicular with its feet on the segments. -/
def Facing (e f : V3 ℝ × V3 ℝ) : Prop :=
  ∃ x y, OnSeg e x ∧ OnSeg f y ∧ (x - y).dot (e.2 - e.1) = 0 ∧ (x - y).dot (f.2 - f.1) = 0

theorem inside_of_over {S : Tri ℝ} {p : V3 ℝ} (h : Over S p) : insideTriangle S.a S.b S.c p = true := by
  obtain ⟨x, hx, k, rfl⟩ := h
  have hi := inside_of_pts hx
  have q : ∀ a b : V3 ℝ, ((a - (x + k • S.nor)).cross (b - (x + k • S.nor))).dot ((S.b - S.a).cross (S.c - S.a)) =
      ((a - x).cross (b - x)).dot ((S.b - S.a).cross (S.c - S.a)) := by
    intro a b
    have : S.nor = (S.b - S.a).cross (S.c - S.a) := by simp only [Tri.nor, Tri.e1, Tri.e2, cross]; v3
    rw [← this]
    generalize S.nor = n
    simp only [dot, cross, sub_x, sub_y, sub_z, add_x, add_y, add_z, smul_x, smul_y, smul_z]
    ring
  unfold insideTriangle at hi ⊢
  simp only [q] at hi ⊢
  exact hi

theorem lineLine_facing {a b c d : V3 ℝ} (h : Facing (a, b) (c, d)) (t1 : tiny (b - a) = false) (t2 : tiny (d - c) = false)
    (hc : Tri.eps ≤ ((b - a).cross (d - c)).dot ((b - a).cross (d - c))) : lineLine a b c d ≠ none := by
  obtain ⟨x, y, ⟨k, k0, k1, e1⟩, ⟨m, m0, m1, e2⟩, o1, o2⟩ := h
  simp only at e1 e2 o1 o2
  have hden : (b - a).dot (b - a) * (d - c).dot (d - c) - (d - c).dot (b - a) * (d - c).dot (b - a) =
      ((b - a).cross (d - c)).dot ((b - a).cross (d - c)) := by
    rw [lagrange]; simp only [dot]; ring
  have hpos : (0 : ℝ) < ((b - a).cross (d - c)).dot ((b - a).cross (d - c)) := lt_of_lt_of_le Tri.eps_pos hc
  have hdd : (d - c).dot (d - c) ≠ 0 := by
    intro h
    rw [← hden, h, mul_zero] at hpos
    nlinarith [mul_self_nonneg ((d - c).dot (b - a))]
  rw [e1, e2] at o1 o2
  have hmub : ((a - c).dot (d - c) + (d - c).dot (b - a) * k) / (d - c).dot (d - c) = m := by
    rw [div_eq_iff hdd]
    simp only [dot, sub_x, sub_y, sub_z, add_x, add_y, add_z, smul_x, smul_y, smul_z] at o2 ⊢
    linear_combination o2
  have hmua : ((a - c).dot (d - c) * (d - c).dot (b - a) - (a - c).dot (b - a) * (d - c).dot (d - c)) /
      ((b - a).dot (b - a) * (d - c).dot (d - c) - (d - c).dot (b - a) * (d - c).dot (b - a)) = k := by
    rw [div_eq_iff (by rw [hden]; exact hpos.ne')]
    simp only [dot, sub_x, sub_y, sub_z, add_x, add_y, add_z, smul_x, smul_y, smul_z] at o1 o2 ⊢
    linear_combination ((d.x - c.x) * (b.x - a.x) + (d.y - c.y) * (b.y - a.y) + (d.z - c.z) * (b.z - a.z)) * o2 -
      ((d.x - c.x) * (d.x - c.x) + (d.y - c.y) * (d.y - c.y) + (d.z - c.z) * (d.z - c.z)) * o1
  unfold lineLine
  simp only [t1, t2, Bool.false_eq_true, if_false]
  rw [hmua, hmub, if_neg, if_neg, if_neg]
  · simp
  · push Not; exact ⟨m0, m1⟩
  · push Not; exact ⟨k0, k1⟩
  · rw [hden, abs_of_pos hpos]; exact not_lt.2 hc

theorem coeffVF_eval (s v : Tri ℝ) (p vp : V3 ℝ) (t : ℝ) :
    (coeffVF s v p vp).eval t = ((p + t • vp) - (s.a + t • v.a)).dot
      (((s.b + t • v.b) - (s.a + t • v.a)).cross ((s.c + t • v.c) - (s.a + t • v.a))) := by
  unfold coeffVF Cubic.eval
  simp only [dot, cross, sub_x, sub_y, sub_z, add_x, add_y, add_z, smul_x, smul_y, smul_z]
  ring

theorem coeffEE_eval (a b c d va vb vc vd : V3 ℝ) (t : ℝ) :
    (coeffEE a b c d va vb vc vd).eval t = ((c + t • vc) - (a + t • va)).dot
      (((b + t • vb) - (a + t • va)).cross ((d + t • vd) - (c + t • vc))) := by
  unfold coeffEE Cubic.eval
  simp only [dot, cross, sub_x, sub_y, sub_z, add_x, add_y, add_z, smul_x, smul_y, smul_z]
  ring

theorem finish_none {X Y : Type*} {o : Option (ℝ × ℝ × X)} {point : ℝ → X → Y} (ho : ∀ l r x, o = some (l, r, x) → l ≤ r ∧ r ≤ 1)
    (h : finish o point = none) : o = none := by
  rcases o with _ | ⟨l, r, x⟩
  · rfl
  · obtain ⟨h1, h2⟩ := ho l r x rfl
    unfold finish at h
    simp only at h
    rw [if_neg (by linarith)] at h
    simp at h

theorem finish_some {X Y : Type*} {o : Option (ℝ × ℝ × X)} {point : ℝ → X → Y} {t : ℝ} {y : Y} (h : finish o point = some (t, y)) :
    ∃ l r x, o = some (l, r, x) ∧ t = 1 / 2 * (l + r) ∧ y = point t x := by
  rcases o with _ | ⟨l, r, x⟩
  · simp [finish] at h
  · unfold finish at h
    simp only at h
    split_ifs at h
    simp only [Option.some.injEq, Prod.mk.injEq] at h
    obtain ⟨rfl, rfl⟩ := h
    exact ⟨l, r, x, rfl, rfl, rfl⟩

/-! ### The leaf test -/

theorem mem_tests {S T : Tri ℝ} {u w : V3 ℝ} {o : Option (ℝ × V3 ℝ)} :
    o ∈ tests S (S.moveBy u) T (T.moveBy w) ↔
      (∃ q ∈ T.verts, o = intersectVF S q (S.moveBy u) (q + w)) ∨ (∃ q ∈ S.verts, o = intersectVF T q (T.moveBy w) (q + u)) ∨
      ∃ e ∈ sides S, ∃ f ∈ sides T, o = intersectEE e.1 e.2 f.1 f.2 (e.1 + u) (e.2 + u) (f.1 + w) (f.2 + w) := by
  simp only [tests, Tri.verts, sides, Tri.moveBy, List.zip_cons_cons, List.zip_nil_right, List.flatMap_cons, List.flatMap_nil, List.map_cons,
    List.map_nil, List.append_nil, List.mem_cons, List.not_mem_nil, or_false, exists_eq_or_imp, exists_eq_left,
    List.cons_append, List.nil_append]
  tauto

theorem fold_le (l : List (Option (ℝ × V3 ℝ))) (t0 : ℝ) : l.foldl earlier t0 ≤ t0 := by
  induction l generalizing t0 with
  | nil => exact le_rfl
  | cons o l ih =>
    refine (ih _).trans ?_
    rcases o with _ | ⟨t, x⟩
    · exact le_rfl
    · unfold earlier
      simp only
      split_ifs with h
      · exact le_of_lt h
      · exact le_rfl

theorem fold_mem_le {l : List (Option (ℝ × V3 ℝ))} {t : ℝ} {x : V3 ℝ} (h : some (t, x) ∈ l) (t0 : ℝ) : l.foldl earlier t0 ≤ t := by
  induction l generalizing t0 with
  | nil => simp at h
  | cons o l ih =>
    rcases List.mem_cons.1 h with rfl | h
    · refine (fold_le l (earlier t0 (some (t, x)))).trans ?_
      unfold earlier
      simp only
      split_ifs with h
      · exact le_rfl
      · exact not_lt.1 h
    · exact ih h _

theorem fold_cases (l : List (Option (ℝ × V3 ℝ))) (t0 : ℝ) : l.foldl earlier t0 = t0 ∨ ∃ x, some (l.foldl earlier t0, x) ∈ l := by
  induction l generalizing t0 with
  | nil => exact .inl rfl
  | cons o l ih =>
    rcases ih (earlier t0 o) with h | ⟨x, h⟩
    · rw [List.foldl_cons, h]
      rcases o with _ | ⟨t, x⟩
      · exact .inl rfl
      · unfold earlier
        simp only
        split_ifs
        · exact .inr ⟨x, by simp⟩
        · exact .inl rfl
    · exact .inr ⟨x, by rw [List.foldl_cons]; exact List.mem_cons_of_mem _ h⟩

theorem leafTime_some {S S1 T T1 : Tri ℝ} {τ : ℝ} (h : leafTime S S1 T T1 = some τ) : τ ≤ 1 ∧ ∃ x, some (τ, x) ∈ tests S S1 T T1 := by
  unfold leafTime at h
  simp only at h
  split_ifs at h with h1
  obtain rfl := Option.some.inj h
  have h2 : (tests S S1 T T1).foldl earlier 2 ≤ 1 := by simpa using h1
  refine ⟨h2, ?_⟩
  rcases fold_cases (tests S S1 T T1) 2 with h | h
  · rw [h] at h2; norm_num at h2
  · exact h

theorem leafTime_le {S S1 T T1 : Tri ℝ} {t : ℝ} {x : V3 ℝ} (h : some (t, x) ∈ tests S S1 T T1) (ht : t ≤ 1) :
    ∃ τ, leafTime S S1 T T1 = some τ ∧ τ ≤ t := by
  have := fold_mem_le h 2
  refine ⟨_, ?_, this⟩
  unfold leafTime
  simp only
  rw [if_pos]
  simpa using this.trans ht

/-- What a positive answer means for triangles that do not turn. -/
theorem leafTime_cases {S T : Tri ℝ} {u w : V3 ℝ} {τ : ℝ} (h : leafTime S (S.moveBy u) T (T.moveBy w) = some τ) :
    (∃ q ∈ T.verts, ∃ x, intersectVF S q (S.moveBy u) (q + w) = some (τ, x)) ∨
    (∃ q ∈ S.verts, ∃ x, intersectVF T q (T.moveBy w) (q + u) = some (τ, x)) ∨
    ∃ e ∈ sides S, ∃ f ∈ sides T, ∃ x, intersectEE e.1 e.2 f.1 f.2 (e.1 + u) (e.2 + u) (f.1 + w) (f.2 + w) = some (τ, x) := by
  obtain ⟨-, x, hx⟩ := leafTime_some h
  rcases mem_tests.1 hx with ⟨q, hq, e⟩ | ⟨q, hq, e⟩ | ⟨e, he, f, hf, e'⟩
  · exact .inl ⟨q, hq, x, e.symm⟩
  · exact .inr (.inl ⟨q, hq, x, e.symm⟩)
  · exact .inr (.inr ⟨e, he, f, hf, x, e'.symm⟩)

end TriCcd
end Fcl
