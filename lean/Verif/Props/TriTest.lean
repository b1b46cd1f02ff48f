import Verif.BVH.TriLemmas
import Verif.Props.OrientedMesh

/-!
# C81, C82: the triangle test and its contact information, and mesh collision with it
-/

namespace Fcl
open V3

/-- All triangles of the mesh are proper: none has its three vertices on a line. -/
def Geom.Proper {K : Type*} [Field K] [LinearOrder K] (g : Geom K) : Prop := ∀ i < g.numPrims, (g.tri i).Proper

namespace Tri

/-! ### C81 -/

section
variable {K : Type*} [Field K] [LinearOrder K] [IsStrictOrderedRing K]

/-- **C81.** If the triangle test says no, the triangles have no point in common; this holds for degenerate triangles
as well. -/
theorem C81_no {P Q : Tri K} (h : test P Q = false) : ¬∃ x, x ∈ P.pts ∧ x ∈ Q.pts := test_false h

end

/-- **C81.** On triangles whose vertices are not on a line the triangle test is exact. -/
theorem C81_exact_partial {P Q : Tri ℝ} (hP : P.Proper) (hQ : Q.Proper) : test P Q = true ↔ Touch P.pts Q.pts := by
  constructor
  · intro h
    by_contra hn
    rw [test_true hP hQ hn] at h
    cases h
  · intro h
    by_contra hn
    exact test_false (by simpa using hn) h

/-- A segment, as a degenerate triangle. -/
noncomputable def exSeg : Tri ℝ := ⟨⟨-2, -1/2, 0⟩, ⟨2, 3/2, 0⟩, ⟨2, 3/2, 0⟩⟩

/-- A triangle below the segment, in the same plane. -/
def exCorner : Tri ℝ := ⟨⟨0, 0, 0⟩, ⟨-1, -1, 0⟩, ⟨1, -1, 0⟩⟩

/-- **C81, violated.** A degenerate triangle and a proper one in the same plane: the test says yes, although every two
points of them are at least 2/5 apart. -/
theorem C81_violated_degenerate : test exSeg exCorner = true ∧ exCorner.Proper ∧
    ∀ x ∈ exSeg.pts, ∀ y ∈ exCorner.pts, 2 / 5 ≤ x.dist y := by
  refine ⟨?_, ?_, fun x hx y hy => ?_⟩
  · simp only [test, axes, List.all_cons, List.all_nil, Bool.and_true, Bool.and_eq_true]
    refine ⟨?_, ?_, ?_, ?_, ?_, ?_, ?_, ?_, ?_, ?_, ?_, ?_, ?_, ?_, ?_, ?_, ?_⟩ <;>
      norm_num [project6, shift, exSeg, exCorner, nor, e1, e2, e3, cross, dot]
  · intro h
    have := congrArg V3.z h
    norm_num [exCorner, cross] at this
  · obtain ⟨u, w, u0, w0, uw, rfl⟩ := Ccd.hull_three hx
    obtain ⟨s, t, s0, t0, st, rfl⟩ := Ccd.hull_three hy
    rw [dist_eq]
    by_contra hn
    have hl := (nrm_le_iff (by norm_num : (0 : ℝ) ≤ 2 / 5)).1 (not_le.1 hn).le
    simp only [exSeg, exCorner, dot, sub_x, sub_y, sub_z, add_x, add_y, add_z, smul_x, smul_y, smul_z] at hl
    obtain ⟨X, hX⟩ : ∃ X, X = -2 + u * (2 - -2) + w * (2 - -2) - (0 + s * (-1 - 0) + t * (1 - 0)) := ⟨_, rfl⟩
    obtain ⟨Y, hY⟩ : ∃ Y, Y = -1 / 2 + u * (3 / 2 - -1 / 2) + w * (3 / 2 - -1 / 2) - (0 + s * (-1 - 0) + t * (-1 - 0)) := ⟨_, rfl⟩
    rw [← hX, ← hY] at hl
    have k : 1 ≤ -X + 2 * Y := by rw [hX, hY]; linarith
    nlinarith [sq_nonneg (2 * X + Y)]

/-! ### C82 -/

theorem plane_ok {P : Tri ℝ} (h : P.Proper) : ∃ n t, plane P = some (n, t) ∧ n.nrm = 1 ∧ ∀ x ∈ P.pts, n.dot x = t := by
  unfold plane
  obtain ⟨m, hm⟩ : ∃ m, m = (P.b - P.a).cross (P.c - P.a) := ⟨_, rfl⟩
  have hm0 : m ≠ 0 := hm ▸ h
  have hp : 0 < m.dot m := lt_of_le_of_ne (dot_self_nonneg m) fun h => hm0 (dot_self_eq_zero h.symm)
  simp only [← hm]
  rw [if_pos hp]
  have hs : 0 < Real.sqrt (m.dot m) := Real.sqrt_pos.2 hp
  refine ⟨_, _, rfl, ?_, fun x hx => ?_⟩
  · rw [nrm_smul, abs_of_pos (by positivity)]
    exact one_div_mul_cancel hs.ne'
  · obtain ⟨u, w, -, -, -, rfl⟩ := Ccd.hull_three hx
    have h1 : m.dot (P.b - P.a) = 0 := by rw [hm, dot_comm]; exact Sep.cross_dot_left _ _
    have h2 : m.dot (P.c - P.a) = 0 := by rw [hm, dot_comm]; exact Sep.cross_dot_right _ _
    rw [smul_dot, smul_dot, dot_add, dot_add, dot_smul, dot_smul, h1, h2]
    ring

/-- A point of the plane in the triangle: some vertex is not above and some not below. -/
theorem both_sides {Q : Tri ℝ} {n x : V3 ℝ} {t : ℝ} (hx : x ∈ Q.pts) (h : n.dot x = t) :
    (∃ u ∈ Q.verts, n.dot u ≤ t) ∧ ∃ v ∈ Q.verts, t ≤ n.dot v := by
  constructor <;> by_contra hn <;> push Not at hn
  · exact absurd h (pts_gt hn hx).ne'
  · exact absurd h (pts_lt hn hx).ne

/-- **C82.** Contact information for two triangles whose vertices are not on a line. If they have no common point there
is no contact. Otherwise there are one or two contact points, which are vertices of the triangles; the normal has length
one; the depth is not negative; and moving the second triangle along the normal by the depth takes it to the other side
of a plane, so that moving it any further leaves no common point. -/
theorem C82_contact_partial {big : ℝ} (hb : 0 < big) {P Q : Tri ℝ} (hP : P.Proper) (hQ : Q.Proper) :
    (¬Touch P.pts Q.pts → contact big P Q = .apart) ∧
    (Touch P.pts Q.pts → ∃ pts depth normal, contact big P Q = .contact pts depth normal ∧
      (pts.length = 1 ∨ pts.length = 2) ∧ ((∀ x ∈ pts, x ∈ P.verts) ∨ ∀ x ∈ pts, x ∈ Q.verts) ∧
      normal.nrm = 1 ∧ 0 ≤ depth ∧
      (∀ p ∈ P.pts, ∀ q ∈ Q.pts, normal.dot p ≤ normal.dot (q + depth • normal)) ∧
      ∀ d, depth < d → ¬Touch P.pts (Moved Q.pts (d • normal))) := by
  refine ⟨fun h => ?_, fun h => ?_⟩
  · simp [contact, test_true hP hQ h]
  have ht := (C81_exact_partial hP hQ).2 h
  obtain ⟨x, xP, xQ⟩ := h
  obtain ⟨n1, t1, e1, u1, f1⟩ := plane_ok hP
  obtain ⟨n2, t2, e2, u2, f2⟩ := plane_ok hQ
  obtain ⟨⟨v1, hv1, s1⟩, w1, hw1, r1⟩ := both_sides xQ (f1 x xP)
  obtain ⟨⟨v2, hv2, s2⟩, w2, hw2, r2⟩ := both_sides xP (f2 x xQ)
  obtain ⟨a1, a2, -, a4, a5⟩ := deepest_ok hb hv1 hw1 s1 r1
  obtain ⟨b1, b2, -, b4, b5⟩ := deepest_ok hb hv2 hw2 s2 r2
  have hlen : ∀ l : List (V3 ℝ), l ≠ [] → (l.take 2).length = 1 ∨ (l.take 2).length = 2 := by
    rintro (_ | ⟨a, _ | ⟨b, l⟩⟩) h
    · exact absurd rfl h
    · exact .inl rfl
    · exact .inr rfl
  -- the two ways to move the second triangle away
  have fin : ∀ {m : V3 ℝ} {k : ℝ}, m.nrm = 1 → (∀ p ∈ P.pts, ∀ q ∈ Q.pts, m.dot p ≤ m.dot q + k) →
      (∀ p ∈ P.pts, ∀ q ∈ Q.pts, m.dot p ≤ m.dot (q + k • m)) ∧
        ∀ d, k < d → ¬Touch P.pts (Moved Q.pts (d • m)) := fun {m k} hm h => by
    have hmm : m.dot m = 1 := by rw [← nrm_mul_self, hm, mul_one]
    refine ⟨fun p hp q hq => ?_, ?_⟩
    · rw [dot_add, dot_smul, hmm, mul_one]; exact h p hp q hq
    · rintro d hd ⟨y, hy, q, hq, rfl⟩
      have := h _ hy q hq
      rw [dot_add, dot_smul, hmm] at this
      linarith
  have hge : ∀ {T : Tri ℝ} {m : V3 ℝ} {c k : ℝ}, (∀ y ∈ T.verts, c ≤ m.dot y + k) → ∀ y ∈ T.pts, c ≤ m.dot y + k :=
    fun {T m c k} h y hy => by
      by_contra hn
      have hn := not_le.1 hn
      have := pts_gt (ax := m) (c := m.dot y) (p := T) (fun z hz => by have := h z hz; linarith) hy
      exact lt_irrefl _ this
  by_cases hd : (deepest big P.verts n2 t2).1 > (deepest big Q.verts n1 t1).1
  · refine ⟨_, _, _, by simp only [contact]; rw [if_pos ht]; simp only [e1, e2]; rw [if_pos hd], hlen _ a4,
      .inr fun y hy => a5 y (List.mem_of_mem_take hy), u1, a1, fin u1 fun p hp q hq => ?_⟩
    rw [f1 p hp]
    exact hge a2 q hq
  · refine ⟨_, _, _, by simp only [contact]; rw [if_pos ht]; simp only [e1, e2]; rw [if_neg hd], hlen _ b4,
      .inl fun y hy => b5 y (List.mem_of_mem_take hy), by rw [nrm_neg, u2], b1, fin (by rw [nrm_neg, u2]) fun p hp q hq => ?_⟩
    have := hge b2 p hp
    rw [neg_dot, neg_dot, f2 q hq]
    linarith

/-- A triangle in the horizontal plane. -/
def exFlat : Tri ℝ := ⟨⟨0, -4, 0⟩, ⟨1, 4, 0⟩, ⟨-1, 4, 0⟩⟩

/-- A long vertical triangle through it. -/
def exLong : Tri ℝ := ⟨⟨-100, 0, 1⟩, ⟨100, 0, -1⟩, ⟨-100, 0, -1⟩⟩

theorem exFlat_proper : exFlat.Proper := fun h => by
  have := congrArg V3.z h
  norm_num [exFlat, cross] at this

theorem exLong_proper : exLong.Proper := fun h => by
  have := congrArg V3.y h
  norm_num [exLong, cross] at this

theorem exLong_touch : Touch exFlat.pts exLong.pts := by
  refine ⟨⟨0, 0, 0⟩, ?_, ?_⟩
  · have := Ccd.comb3 exFlat.pts_convex (a := exFlat.a) (b := exFlat.b) (d := exFlat.c) (u := 1/2) (w := 1/4) (z := 1/4)
      (vert_mem (by simp [verts])) (vert_mem (by simp [verts])) (vert_mem (by simp [verts])) (by norm_num) (by norm_num)
      (by norm_num) (by norm_num)
    convert this using 1
    simp only [exFlat]
    apply V3.ext' <;> norm_num
  · have := Ccd.comb3 exLong.pts_convex (a := exLong.a) (b := exLong.b) (d := exLong.c) (u := 1/2) (w := 1/2) (z := 0)
      (vert_mem (by simp [verts])) (vert_mem (by simp [verts])) (vert_mem (by simp [verts])) (by norm_num) (by norm_num)
      (by norm_num) (by norm_num)
    convert this using 1
    simp only [exLong]
    apply V3.ext' <;> norm_num

/-- **C82, violated.** Two triangles that cross near the origin: the reported depth is 1, and both contact points are
more than 98 away from every point of the first triangle. -/
theorem C82_violated_point {big : ℝ} (hb : 10 ^ 6 < big) :
    contact big exFlat exLong = .contact [⟨100, 0, -1⟩, ⟨-100, 0, -1⟩] 1 ⟨0, 0, 1⟩ ∧
      ∀ c ∈ [(⟨100, 0, -1⟩ : V3 ℝ), ⟨-100, 0, -1⟩], ∀ x ∈ exFlat.pts, 98 ≤ c.dist x := by
  have ht := (C81_exact_partial exFlat_proper exLong_proper).2 exLong_touch
  constructor
  · have s1 : Real.sqrt ((16 : ℝ) * 16) = 16 := Real.sqrt_mul_self (by norm_num)
    have s2 : Real.sqrt ((400 : ℝ) * 400) = 400 := Real.sqrt_mul_self (by norm_num)
    have p1 : plane exFlat = some (⟨0, 0, 1⟩, 0) := by
      have e : (exFlat.b - exFlat.a).cross (exFlat.c - exFlat.a) = ⟨0, 0, 16⟩ := by
        apply V3.ext' <;> norm_num [exFlat, cross]
      have d : (⟨0, 0, 16⟩ : V3 ℝ).dot ⟨0, 0, 16⟩ = 16 * 16 := by norm_num [dot]
      have m : (1 / (16 : ℝ)) • (⟨0, 0, 16⟩ : V3 ℝ) = ⟨0, 0, 1⟩ := by apply V3.ext' <;> norm_num
      simp only [plane, e, d, s1, m]
      rw [if_pos (by norm_num)]
      norm_num [exFlat, dot]
    have p2 : plane exLong = some (⟨0, 1, 0⟩, 0) := by
      have e : (exLong.b - exLong.a).cross (exLong.c - exLong.a) = ⟨0, 400, 0⟩ := by
        apply V3.ext' <;> norm_num [exLong, cross]
      have d : (⟨0, 400, 0⟩ : V3 ℝ).dot ⟨0, 400, 0⟩ = 400 * 400 := by norm_num [dot]
      have m : (1 / (400 : ℝ)) • (⟨0, 400, 0⟩ : V3 ℝ) = ⟨0, 1, 0⟩ := by apply V3.ext' <;> norm_num
      simp only [plane, e, d, s2, m]
      rw [if_pos (by norm_num)]
      norm_num [exLong, dot]
    have hb1 : -big < -1 := by have : (1 : ℝ) ≤ 10 ^ 6 := by norm_num
                               linarith
    have hb4 : -big < -4 := by have : (4 : ℝ) ≤ 10 ^ 6 := by norm_num
                               linarith
    have q1 : deepest big exLong.verts ⟨0, 0, 1⟩ 0 = (1, [⟨100, 0, -1⟩, ⟨-100, 0, -1⟩]) := by
      have r1 : Deep.step ⟨0, 0, 1⟩ 0 ⟨-big, [], 0, 0, 0⟩ exLong.a = ⟨-1, [exLong.a], 0, 1, 0⟩ := by
        norm_num [Deep.step, exLong, dot, eps, hb1]
      have r2 : Deep.step ⟨0, 0, 1⟩ 0 ⟨-1, [exLong.a], 0, 1, 0⟩ exLong.b = ⟨1, [exLong.b], 1, 1, 0⟩ := by
        norm_num [Deep.step, exLong, dot, eps]
      have r3 : Deep.step ⟨0, 0, 1⟩ 0 ⟨1, [exLong.b], 1, 1, 0⟩ exLong.c = ⟨1, [exLong.b, exLong.c], 2, 1, 0⟩ := by
        norm_num [Deep.step, exLong, dot, eps]
      simp only [deepest, verts, List.foldl_cons, List.foldl_nil, r1, r2, r3]
      norm_num [exLong, eps]
    have q2 : (deepest big exFlat.verts ⟨0, 1, 0⟩ 0).1 = 4 := by
      simp only [deepest, verts, List.foldl_cons, List.foldl_nil, step_depth]
      norm_num [exFlat, dot]
      linarith
    simp only [contact]
    rw [if_pos ht]
    simp only [p1, p2, q1, q2]
    rw [if_pos (by norm_num)]
    rfl
  · intro c hc x hx
    obtain ⟨u, w, u0, w0, uw, rfl⟩ := Ccd.hull_three hx
    rw [dist_eq]
    by_contra hn
    have hl := (nrm_le_iff (by norm_num : (0 : ℝ) ≤ 98)).1 (not_le.1 hn).le
    simp only [List.mem_cons, List.not_mem_nil, or_false] at hc
    rcases hc with rfl | rfl
    · simp only [exFlat, dot, sub_x, sub_y, sub_z, add_x, add_y, add_z, smul_x, smul_y, smul_z] at hl
      obtain ⟨X, hX⟩ : ∃ X, X = 100 - (0 + u * (1 - 0) + w * (-1 - 0)) := ⟨_, rfl⟩
      rw [← hX] at hl
      have : 99 ≤ X := by rw [hX]; linarith
      nlinarith [mul_self_nonneg (0 - (-4 + u * (4 - -4) + w * (4 - -4))), mul_self_nonneg (-1 - (0 + u * (0 - 0) + w * (0 - 0)))]
    · simp only [exFlat, dot, sub_x, sub_y, sub_z, add_x, add_y, add_z, smul_x, smul_y, smul_z] at hl
      obtain ⟨X, hX⟩ : ∃ X, X = -100 - (0 + u * (1 - 0) + w * (-1 - 0)) := ⟨_, rfl⟩
      rw [← hX] at hl
      have : X ≤ -99 := by rw [hX]; linarith
      nlinarith [mul_self_nonneg (0 - (-4 + u * (4 - -4) + w * (4 - -4))), mul_self_nonneg (-1 - (0 + u * (0 - 0) + w * (0 - 0)))]

/-- The hypotheses of `C81_exact_partial` and `C82_contact_partial` are met by these two. -/
example (big : ℝ) (hb : 0 < big) : ∃ pts depth normal, contact big exFlat exLong = .contact pts depth normal :=
  let ⟨pts, depth, normal, h, _⟩ := (C82_contact_partial hb exFlat_proper exLong_proper).2 exLong_touch
  ⟨pts, depth, normal, h⟩

/-- **C82, violated.** With a degenerate triangle the contact information is read from variables that were never
written. -/
theorem C82_violated_degenerate (big : ℝ) : contact big exSeg exCorner = .uninitialised := by
  have h : plane exSeg = none := by
    have : (exSeg.b - exSeg.a).cross (exSeg.c - exSeg.a) = 0 := by
      apply V3.ext' <;> norm_num [exSeg, cross]
    simp only [plane, this]
    rw [if_neg (by simp [dot])]
  simp only [contact]
  rw [if_pos C81_violated_degenerate.1]
  simp only [h]

end Tri

/-! ### Meshes -/

section
variable {g g1 g2 : Geom ℝ}

theorem Geom.solid_eq (w : g.WF) (m : g.isMesh = true) {i : ℕ} (hi : i < g.numPrims) : g.solid i = (g.tri i).pts := by
  rw [Geom.numPrims, if_pos m] at hi
  rcases ht : g.tris[i] with ⟨a, b, c⟩
  obtain ⟨ha, hb, hc⟩ := w.tris _ (List.getElem_mem hi)
  rw [ht] at ha hb hc
  have e : g.tris[i]? = some (a, b, c) := by rw [List.getElem?_eq_getElem hi, ht]
  simp only [Geom.solid, Geom.tri, Geom.primIdx, m, e, if_true, Tri.pts, List.filterMap_cons, List.filterMap_nil,
    List.getElem?_eq_getElem ha, List.getElem?_eq_getElem hb, List.getElem?_eq_getElem hc, Option.getD_some]

theorem reports_iff {big : ℝ} (hb : 0 < big) {junk : Option ℕ} {P Q : Tri ℝ} (hP : P.Proper) (hQ : Q.Proper) (c : Bool) :
    (if c then ∃ n, (Tri.contact big P Q).count junk = some (n + 1) else Tri.test P Q = true) ↔ Touch P.pts Q.pts := by
  cases c with
  | false => exact Tri.C81_exact_partial hP hQ
  | true =>
    rw [if_pos rfl]
    obtain ⟨h1, h2⟩ := Tri.C82_contact_partial hb hP hQ
    constructor
    · rintro ⟨n, hn⟩
      by_contra h
      rw [h1 h] at hn
      cases hn
    · intro h
      obtain ⟨pts, d, n, e, hl, -⟩ := h2 h
      rw [e]
      rcases hl with hl | hl
      · exact ⟨0, by rw [Tri.Out.count, hl]⟩
      · exact ⟨1, by rw [Tri.Out.count, hl]⟩

/-- The leaf test on two meshes with proper triangles is exact, with and without contact information. -/
theorem meshPair_exact {big : ℝ} (hb : 0 < big) (junk : Option ℕ) (w1 : g1.WF) (w2 : g2.WF) (m1 : g1.isMesh = true)
    (m2 : g2.isMesh = true) (p1 : g1.Proper) (p2 : g2.Proper) (occ free : Bool) (cost : ℕ → ℕ → CostSource ℝ) (q : MeshRequest) :
    ∀ i < g1.numPrims, ∀ j < g2.numPrims,
      (meshPair big junk g1 g2 occ free cost).Reports q i j ↔ ∃ x, x ∈ g1.solid i ∧ x ∈ g2.solid j := by
  intro i hi j hj
  rw [Geom.solid_eq w1 m1 hi, Geom.solid_eq w2 m2 hj]
  exact reports_iff hb (p1 i hi) (p2 j hj) q.enableContact

theorem Tri.move_proper {P : Tri ℝ} {X : Pose ℝ} (hX : X.Rigid) (h : P.Proper) : (P.move X).Proper := by
  intro h0
  apply h
  have e1 : (P.move X).b - (P.move X).a = X.R.mulVec (P.b - P.a) := by rw [M3.mulVec_sub]; simp only [Tri.move]; v3
  have e2 : (P.move X).c - (P.move X).a = X.R.mulVec (P.c - P.a) := by rw [M3.mulVec_sub]; simp only [Tri.move]; v3
  rw [e1, e2] at h0
  -- the square of the cross product is made of dot products
  have lag : ∀ u v : V3 ℝ, (u.cross v).dot (u.cross v) = u.dot u * v.dot v - u.dot v * u.dot v := fun u v => by
    simp only [dot, cross]; ring
  apply dot_self_eq_zero
  rw [lag, ← M3.Orthonormal.dot hX, ← M3.Orthonormal.dot hX (P.c - P.a), ← M3.Orthonormal.dot hX (P.b - P.a) (P.c - P.a), ← lag, h0]
  simp [dot]

theorem Tri.move_pts {P : Tri ℝ} {X : Pose ℝ} {x : V3 ℝ} : x ∈ (P.move X).pts ↔ ∃ y ∈ P.pts, x = X.apply y := by
  constructor
  · intro h
    have h : HullOf [X.apply P.a, X.apply P.b, X.apply P.c] x := h
    obtain ⟨u, w, u0, w0, uw, rfl⟩ := Ccd.hull_three h
    refine ⟨P.a + u • (P.b - P.a) + w • (P.c - P.a), ?_, ?_⟩
    · have := Ccd.comb3 P.pts_convex (a := P.a) (b := P.b) (d := P.c) (u := 1 - u - w) (w := u) (z := w)
        (Tri.vert_mem (by simp [Tri.verts])) (Tri.vert_mem (by simp [Tri.verts])) (Tri.vert_mem (by simp [Tri.verts]))
        (by linarith) u0 w0 (by ring)
      convert this using 1
      v3
    · simp only [Pose.apply, M3.mulVec_add, M3.mulVec_smul, M3.mulVec_sub]
      v3
  · rintro ⟨y, hy, rfl⟩
    exact Tri.pts_mono (f := X.apply) (fun t p q => by
      simp only [Pose.apply, M3.mulVec_add, M3.mulVec_smul]; v3) hy

/-- The leaf test at two poses is exact as well. -/
theorem orientedPair_exact {big : ℝ} (hb : 0 < big) (junk : Option ℕ) (w1 : g1.WF) (w2 : g2.WF) (m1 : g1.isMesh = true)
    (m2 : g2.isMesh = true) (p1 : g1.Proper) (p2 : g2.Proper) {tf1 tf2 : Pose ℝ} (r1 : tf1.Rigid) (r2 : tf2.Rigid)
    (occ free : Bool) (cost : ℕ → ℕ → CostSource ℝ) (q : MeshRequest) :
    ∀ i < g1.numPrims, ∀ j < g2.numPrims,
      (orientedPair big junk g1 tf1 g2 tf2 occ free cost).Reports q i j ↔ MeshTouch g1 tf1 g2 tf2 i j := by
  intro i hi j hj
  refine (reports_iff hb (p1 i hi) (Tri.move_proper (Pose.relative_rigid r1 r2) (p2 j hj)) q.enableContact).trans ?_
  have key : ∀ y, tf1.apply ((tf1.relative tf2).apply y) = tf2.apply y := fun y => by
    simp only [Pose.relative, Pose.apply, M3.mulVec_add, M3.mul_mulVec, M3.Orthonormal.mul_tr r1]
    v3
  constructor
  · rintro ⟨x, h1, h2⟩
    obtain ⟨y, hy, rfl⟩ := Tri.move_pts.1 h2
    rw [← Geom.solid_eq w1 m1 hi] at h1
    rw [← Geom.solid_eq w2 m2 hj] at hy
    exact ⟨_, ⟨_, h1, rfl⟩, y, hy, key y⟩
  · rintro ⟨x, ⟨a, ha, ea⟩, b, hb, eb⟩
    rw [Geom.solid_eq w1 m1 hi] at ha
    rw [Geom.solid_eq w2 m2 hj] at hb
    refine ⟨a, ha, Tri.move_pts.2 ⟨b, hb, ?_⟩⟩
    exact Pose.apply_injective r1 (by rw [key, ← ea, ← eb])

/-- **C81, C61.** Two meshes with proper triangles, from the arrays to the answer of `collide`, with the triangle test
of the library: whatever splitters are used and whatever is in the arrays before, a collision is found if and only if
the meshes have a point in common, with and without contact information. -/
theorem C81_mesh {V : Type*} {o : BVOps V ℝ} {pts : V → Set (V3 ℝ)} (hs : o.Sound pts) (w1 : g1.WF) (w2 : g2.WF)
    (m1 : g1.isMesh = true) (m2 : g2.isMesh = true) (p1 : g1.Proper) (p2 : g2.Proper) (n1 : 1 ≤ g1.numPrims) (n2 : 1 ≤ g2.numPrims)
    (right1 right2 : V → List ℕ → ℕ → Bool) {bvs1 bvs2 : List (BVNode V)} {prims1 prims2 : List ℕ}
    (b1 : 2 * g1.numPrims - 1 ≤ bvs1.length) (b2 : 2 * g2.numPrims - 1 ≤ bvs2.length)
    (l1 : g1.numPrims ≤ prims1.length) (l2 : g2.numPrims ≤ prims2.length) :
    ∃ s1 s2 t1 t2 ids1 ids2,
      buildTree (o.builder g1 right1) g1.numPrims g1.numPrims bvs1 prims1 = some s1 ∧
      buildTree (o.builder g2 right2) g2.numPrims g2.numPrims bvs2 prims2 = some s2 ∧
      IsTree s1.bvs s1.prims 0 0 g1.numPrims ids1 t1 ∧ IsTree s2.bvs s2.prims 0 0 g2.numPrims ids2 t2 ∧
      ∀ (larger : V → V → Bool) (big : ℝ), 0 < big → ∀ (junk : Option ℕ) (free : Bool) (cost : ℕ → ℕ → CostSource ℝ)
        (q : MeshRequest), 0 < q.req.numMax →
        ∃ r : CollResult (ℕ × ℕ) ℝ, collisionRecurse (meshNode o.overlap (meshPair big junk g1 g2 true free cost) q)
            (Trav.bvh larger) (g1.numPrims + g2.numPrims) t1 t2 (CollResult.empty, none) = some (r, none) ∧
          (r.isCollision = true ↔ ∃ i < g1.numPrims, ∃ j < g2.numPrims, ∃ x, x ∈ g1.solid i ∧ x ∈ g2.solid j) := by
  obtain ⟨s1, s2, t1, t2, i1, i2, e1, e2, h1, h2, h⟩ := C61_built hs w1 w2 n1 n2 right1 right2 b1 b2 l1 l2
  exact ⟨s1, s2, t1, t2, i1, i2, e1, e2, h1, h2, fun larger big hb junk free cost q hq =>
    h larger _ q rfl hq (meshPair_exact hb junk w1 w2 m1 m2 p1 p2 true free cost q)⟩

/-- **C81, C66.** The same for meshes with oriented boxes at two poses. -/
theorem C81_oriented {obig : ℝ} {absorb : ℝ → ℝ → Bool} {ojunk : OBB ℝ} (w1 : g1.WF) (w2 : g2.WF)
    (m1 : g1.isMesh = true) (m2 : g2.isMesh = true) (p1 : g1.Proper) (p2 : g2.Proper)
    (fit1 : FitsAll obig (Jacobi.eigenOld absorb) g1) (fit2 : FitsAll obig (Jacobi.eigenOld absorb) g2)
    (right1 right2 : OBB ℝ → List ℕ → ℕ → Bool) {bvs1 bvs2 : List (BVNode (OBB ℝ))} {prims1 prims2 : List ℕ}
    (b1 : 2 * g1.numPrims - 1 ≤ bvs1.length) (b2 : 2 * g2.numPrims - 1 ≤ bvs2.length)
    (l1 : g1.numPrims ≤ prims1.length) (l2 : g2.numPrims ≤ prims2.length) :
    ∃ s1 s2 t1 t2 ids1 ids2,
      buildTree (obbBuilder obig (Jacobi.eigenOld absorb) ojunk g1 right1) g1.numPrims g1.numPrims bvs1 prims1 = some s1 ∧
      buildTree (obbBuilder obig (Jacobi.eigenOld absorb) ojunk g2 right2) g2.numPrims g2.numPrims bvs2 prims2 = some s2 ∧
      IsTree s1.bvs s1.prims 0 0 g1.numPrims ids1 t1 ∧ IsTree s2.bvs s2.prims 0 0 g2.numPrims ids2 t2 ∧
      ∀ (tf1 tf2 : Pose ℝ), tf1.Rigid → tf2.Rigid → ∀ (larger : OBB ℝ → OBB ℝ → Bool) (big : ℝ), 0 < big →
        ∀ (junk : Option ℕ) (free : Bool) (cost : ℕ → ℕ → CostSource ℝ) (q : MeshRequest), 0 < q.req.numMax →
        ∃ r : CollResult (ℕ × ℕ) ℝ,
          orientedMeshCollide larger (g1.numPrims + g2.numPrims) g1 t1 tf1 g2 t2 tf2
            (orientedPair big junk g1 tf1 g2 tf2 true free cost) q CollResult.empty = .result r ∧
          (r.isCollision = true ↔ ∃ i < g1.numPrims, ∃ j < g2.numPrims, MeshTouch g1 tf1 g2 tf2 i j) := by
  obtain ⟨s1, s2, t1, t2, i1, i2, e1, e2, h1, h2, h⟩ :=
    C66_built (junk := ojunk) w1 w2 m1 m2 fit1 fit2 right1 right2 b1 b2 l1 l2
  exact ⟨s1, s2, t1, t2, i1, i2, e1, e2, h1, h2, fun tf1 tf2 r1 r2 larger big hb junk free cost q hq =>
    h tf1 tf2 r1 r2 larger _ q rfl hq (orientedPair_exact hb junk w1 w2 m1 m2 p1 p2 r1 r2 true free cost q)⟩

theorem exSquare_proper : exSquare.Proper := by
  intro i hi
  have hn : exSquare.numPrims = 2 := rfl
  rw [hn] at hi
  have : i = 0 ∨ i = 1 := by omega
  rcases this with rfl | rfl <;> intro h <;> have := congrArg V3.z h <;>
    norm_num [exSquare, Geom.tri, cross] at this

/-- The hypotheses of `C81_oriented` are met by two squares, one of which touches the other after a turn
(`OrientedMesh.lean`). -/
example (big : ℝ) (absorb : ℝ → ℝ → Bool) (junk : OBB ℝ) (right : OBB ℝ → List ℕ → ℕ → Bool) :=
  C81_oriented (ojunk := junk) exSquare_wf exSquare_wf rfl rfl exSquare_proper exSquare_proper
    (exSquare_fits big absorb) (exSquare_fits big absorb) right right
    (bvs1 := List.replicate 3 ⟨junk, 9, 9, 9⟩) (bvs2 := List.replicate 3 ⟨junk, 9, 9, 9⟩) (prims1 := [8, 8]) (prims2 := [8, 8])
    (Nat.le_refl 3) (Nat.le_refl 3) (by decide) (by decide)

/-- The hypotheses of `C81_mesh` are met by the same square with AABBs. -/
example (big : ℝ) (b : AABB ℝ) (right : AABB ℝ → List ℕ → ℕ → Bool) :=
  C81_mesh (aabb_sound big (-big)) exSquare_wf exSquare_wf rfl rfl exSquare_proper exSquare_proper (by decide) (by decide) right right
    (bvs1 := List.replicate 3 ⟨b, 9, 9, 9⟩) (bvs2 := List.replicate 3 ⟨b, 9, 9, 9⟩) (prims1 := [8, 8]) (prims2 := [8, 8])
    (Nat.le_refl 3) (Nat.le_refl 3) (by decide) (by decide)

end

end Fcl
