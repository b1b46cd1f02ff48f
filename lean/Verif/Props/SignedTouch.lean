import Verif.Ccd.EpaTwo
import Verif.Ccd.EpaTetra
import Verif.Props.SignedDistance

/-!
# C116: the start from two points
-/

namespace Fcl
namespace Pt

open V3 Ccd

variable {l : Lib} {c : Cfg} {sup : V3 ℝ → Option SP} {dirs : List (V3 ℝ)}

/-- The polytope that is made from two points and four more is closed: every edge has two faces, and the faces are triangles. -/
theorem C116_octa_closed (a s0 b s1 s2 s3 : SP) : Closed (octa a s0 b s1 s2 s3).bare := by
  have : closedB [a.v, s0.v, b.v, s1.v, s2.v, s3.v].length octaE octaF = true := rfl
  exact closed_of this

/-- The point that is found is a support point. -/
theorem otherPoint_mem {a b p : SP} (h : otherPoint l sup a b dirs = some (some p)) : ∃ d ∈ dirs, sup d = some p := by
  induction dirs with
  | nil => simp [otherPoint] at h
  | cons d ds ih =>
    unfold otherPoint at h
    rcases hs : sup d with _ | q
    · simp [hs] at h
    simp only [hs] at h
    split_ifs at h
    · simp only [Option.some.injEq] at h
      exact ⟨d, by simp, h ▸ hs⟩
    · obtain ⟨d', h1, h2⟩ := ih h
      exact ⟨d', by simp [h1], h2⟩

theorem otherPoint_ne {a b p : SP} (h : otherPoint l sup a b dirs = some (some p)) : l.eq a.v p.v = false ∧ l.eq b.v p.v = false := by
  induction dirs with
  | nil => simp [otherPoint] at h
  | cons d ds ih =>
    unfold otherPoint at h
    rcases hs : sup d with _ | q
    · simp [hs] at h
    simp only [hs] at h
    split_ifs at h with hc
    · simp only [Option.some.injEq] at h
      simpa [← h] using hc
    · exact ih h

theorem otherPoint_some {a b : SP} (h : ∀ d, sup d ≠ none) : ∃ r, otherPoint l sup a b dirs = some r := by
  induction dirs with
  | nil => exact ⟨_, rfl⟩
  | cons d ds ih =>
    unfold otherPoint
    obtain ⟨p, hp⟩ := Option.ne_none_iff_exists'.1 (h d)
    simp only [hp]
    split_ifs
    · exact ⟨_, rfl⟩
    · exact ih

/-- C116, the start from two points in part: when the two points are not taken for a touching contact, the first polytope is closed and its vertices are
the two points and four points of the difference of the shapes, none of which is equal to the two: a support point of the table, the support point on the
other side of the origin from it, and the two furthest points on both sides of the plane of the first point and these. Missing: that it is convex. -/
theorem C116_two_partial {A B : Set (V3 ℝ)} (hs : ∀ d p, sup d = some p → Made A B p) {a b : SP} (ha : Made A B a) (hb : Made A B b) {P : Poly SP}
    (h : start2 l sup dirs a b = some (.ok P)) :
    Closed P.bare ∧ ∃ s0 s1 s2 s3, P.verts = [a, s0, b, s1, s2, s3] ∧ (∀ p ∈ P.verts, Made A B p) ∧
      (∀ p ∈ [s0, s1, s2, s3], l.eq a.v p.v = false ∧ l.eq b.v p.v = false) ∧ (∃ d ∈ dirs, sup d = some s0) ∧ sup (-s0.v) = some s1 ∧
      sup ((s0.v - a.v).cross (s1.v - a.v)) = some s2 ∧ sup (-(s0.v - a.v).cross (s1.v - a.v)) = some s3 := by
  unfold start2 at h
  simp only at h
  rcases h0 : otherPoint l sup a b dirs with _ | _ | s0
  · simp [h0] at h
  · simp [h0] at h
  obtain ⟨d, hdm, hd⟩ := otherPoint_mem h0
  have n0 := otherPoint_ne h0
  rcases h1 : sup (-s0.v) with _ | s1
  · simp [h0, h1] at h
  rcases h2 : sup ((s0.v - a.v).cross (s1.v - a.v)) with _ | s2
  · simp only [h0, h1, h2] at h
    split_ifs at h
    cases h
  rcases h3 : sup (-(s0.v - a.v).cross (s1.v - a.v)) with _ | s3
  · simp only [h0, h1, h2, h3] at h
    split_ifs at h <;> cases h
  simp only [h0, h1, h2, h3] at h
  split_ifs at h with k1 k2 k3 <;> cases h
  refine ⟨C116_octa_closed _ _ _ _ _ _, s0, s1, s2, s3, rfl, fun p hp => ?_, fun p hp => ?_, ⟨d, hdm, hd⟩, h1, h2, h3⟩
  · simp only [octa, List.mem_cons, List.not_mem_nil, or_false] at hp
    rcases hp with rfl | rfl | rfl | rfl | rfl | rfl
    · exact ha
    · exact hs _ _ hd
    · exact hb
    · exact hs _ _ h1
    · exact hs _ _ h2
    · exact hs _ _ h3
  · simp only [List.mem_cons, List.not_mem_nil, or_false] at hp
    simp only [oneOf, Bool.or_eq_true, not_or, Bool.not_eq_true] at k1 k2 k3
    rcases hp with rfl | rfl | rfl | rfl
    · exact n0
    · exact k1
    · exact k2
    · exact k3

/-- A search that finds nothing has seen only the two points. -/
theorem otherPoint_none {a b : SP} (h : otherPoint l sup a b dirs = some none) : ∀ d ∈ dirs, ∃ p, sup d = some p ∧ oneOf l a b p = true := by
  induction dirs with
  | nil => simp
  | cons d ds ih =>
    unfold otherPoint at h
    rcases hs : sup d with _ | q
    · simp [hs] at h
    simp only [hs] at h
    split_ifs at h with hq
    · simp at h
    intro d' hd'
    rcases List.mem_cons.1 hd' with rfl | hd'
    · refine ⟨q, hs, ?_⟩
      cases e1 : l.eq a.v q.v <;> cases e2 : l.eq b.v q.v <;> simp_all [oneOf]
    · exact ih h d' hd'

/-- C116, the start from two points: a touching contact is handed out with the edge between the two points, and only when every direction of the table
gives one of the two points, or when some later direction does. The second case is the one of `C116_violated_touching`. -/
theorem C116_two_touching {a b : SP} {P : Poly SP} {el : El} (h : start2 l sup dirs a b = some (.touching P el)) :
    P.verts = [a, b] ∧ el = .edge 0 ∧ P.edges 0 = some ⟨0, 1, none, none⟩ ∧ (∀ f, P.faces f = none) ∧
      ((∀ d ∈ dirs, ∃ p, sup d = some p ∧ oneOf l a b p = true) ∨ ∃ d p, sup d = some p ∧ oneOf l a b p = true) := by
  have fin : ∀ {Q : Prop}, Q → some (Start.touching (oneEdge a b) (.edge 0)) = some (.touching P el) →
      P.verts = [a, b] ∧ el = .edge 0 ∧ P.edges 0 = some ⟨0, 1, none, none⟩ ∧ (∀ f, P.faces f = none) ∧ Q := by
    intro Q hQ e
    cases e
    exact ⟨rfl, rfl, rfl, fun _ => rfl, hQ⟩
  unfold start2 at h
  simp only at h
  rcases h0 : otherPoint l sup a b dirs with _ | _ | s0
  · simp [h0] at h
  · simp only [h0] at h
    exact fin (Or.inl (otherPoint_none h0)) h
  rcases h1 : sup (-s0.v) with _ | s1
  · simp [h0, h1] at h
  simp only [h0, h1] at h
  split_ifs at h with k1
  · exact fin (Or.inr ⟨_, _, h1, k1⟩) h
  rcases h2 : sup ((s0.v - a.v).cross (s1.v - a.v)) with _ | s2
  · simp [h2] at h
  simp only [h2] at h
  split_ifs at h with k2
  · exact fin (Or.inr ⟨_, _, h2, k2⟩) h
  rcases h3 : sup (-(s0.v - a.v).cross (s1.v - a.v)) with _ | s3
  · simp [h3] at h
  simp only [h3] at h
  split_ifs at h with k3
  · exact fin (Or.inr ⟨_, _, h3, k3⟩) h
  · cases h

/-- The vertices of a double pyramid. -/
def spindle : List (V3 ℝ) := [⟨10, 0, 0⟩, ⟨-10, 0, 0⟩, ⟨1, 1, 0⟩, ⟨1, -1, 0⟩, ⟨1, 0, 1⟩, ⟨1, 0, -1⟩]

/-- It has a ball around the origin in it. -/
theorem spindle_ball {x : V3 ℝ} (h : x.nrm ≤ 1 / 4) : HullOf spindle x := by
  have h4 : x.dot x ≤ 1 / 16 := by
    rw [← nrm_mul_self]
    nlinarith [nrm_nonneg x]
  have sq : ∀ t : ℝ, t * t ≤ 1 / 16 → -(1 / 4) ≤ t ∧ t ≤ 1 / 4 := fun t ht => ⟨by nlinarith, by nlinarith⟩
  unfold V3.dot at h4
  have hx := sq x.x (by nlinarith [mul_self_nonneg x.y, mul_self_nonneg x.z])
  have hy := sq x.y (by nlinarith [mul_self_nonneg x.x, mul_self_nonneg x.z])
  have hz := sq x.z (by nlinarith [mul_self_nonneg x.y, mul_self_nonneg x.x])
  have mid : ∀ p : V3 ℝ, p ∈ spindle → HullOf spindle ((1 - (1 / 11 : ℝ)) • p + (1 / 11 : ℝ) • (⟨-10, 0, 0⟩ : V3 ℝ)) := fun p hp =>
    .seg _ (by norm_num) (by norm_num) (.pt hp) (.pt (by simp [spindle]))
  have cx : HullOf spindle ⟨3 * x.x, 0, 0⟩ := by
    have := HullOf.seg (l := spindle) ((10 - 3 * x.x) / 20) (by linarith [hx.2]) (by linarith [hx.1]) (.pt (p := ⟨10, 0, 0⟩) (by simp [spindle])) (.pt (p := ⟨-10, 0, 0⟩) (by simp [spindle]))
    convert this using 1
    apply V3.ext' <;> simp
    ring
  have cy : HullOf spindle ⟨0, 3 * x.y, 0⟩ := by
    have := HullOf.seg ((10 / 11 - 3 * x.y) / (20 / 11)) (by linarith [hy.2]) (by linarith [hy.1]) (mid ⟨1, 1, 0⟩ (by simp [spindle])) (mid ⟨1, -1, 0⟩ (by simp [spindle]))
    convert this using 1
    apply V3.ext' <;> simp <;> ring
  have cz : HullOf spindle ⟨0, 0, 3 * x.z⟩ := by
    have := HullOf.seg ((10 / 11 - 3 * x.z) / (20 / 11)) (by linarith [hz.2]) (by linarith [hz.1]) (mid ⟨1, 0, 1⟩ (by simp [spindle])) (mid ⟨1, 0, -1⟩ (by simp [spindle]))
    convert this using 1
    apply V3.ext' <;> simp <;> ring
  have := HullOf.seg (1 / 3) (by norm_num) (by norm_num) (HullOf.seg (1 / 2) (by norm_num) (by norm_num) cx cy) cz
  convert this using 1
  apply V3.ext' <;> simp <;> ring

/-- C116 does not hold for a search that ends with two points. A double pyramid is around a point, and all moves not longer than 1/4 leave it so. The
support point opposite to the first one is an end of the segment, and this is taken for a touching contact: the answer is "separated" with the distance
zero, for every table of directions, every choice of the extreme vertices and all tolerances. -/
theorem C116_violated_touching (hl : l.Exact) (hq : ∀ x, l.eq x x = true) (he : 0 < c.eps) (hn : 1 ≤ c.maxIter) {e1 e2 : V3 ℝ → Option (V3 ℝ)}
    (h1 : ∀ d, ∃ p ∈ spindle, e1 d = some p ∧ ∀ q ∈ spindle, d.dot q ≤ d.dot p) (nearest : Poly SP → El) (order : Finset ℕ → List ℕ) (n : ℕ) :
    (∃ q, shapeSigned l c e1 e2 (.convex spindle) Pose.id (.box ⟨0, 0, 0⟩) Pose.id
      (start2 l (shapesSupport c e1 e2 (.convex spindle) Pose.id (.box ⟨0, 0, 0⟩) Pose.id) dirs) nearest order n = .answer true 0 (some q)) ∧
    ∀ y : V3 ℝ, y.nrm ≤ 1 / 4 → Meet (Placed (Pose.id : Pose ℝ).R (Pose.id : Pose ℝ).t (Geo.convex spindle : Geo ℝ).pts)
      (Placed (Pose.id : Pose ℝ).R (Pose.id : Pose ℝ).t (Geo.box ⟨0, 0, 0⟩ : Geo ℝ).pts) y := by
  set sup := shapesSupport c e1 e2 (.convex spindle) Pose.id (.box ⟨0, 0, 0⟩) Pose.id with hsup
  have sup_eq : ∀ d, sup d = (e1 d).map fun p => ⟨p, p, 0⟩ := by
    intro d
    have k1 : ∀ v : V3 ℝ, (Pose.id : Pose ℝ).R.tr.mulVec v = v := fun v => M3.one_mulVec v
    have k2 : ∀ v : V3 ℝ, (Pose.id : Pose ℝ).apply v = v := Pose.id_apply
    obtain ⟨p, -, hp, -⟩ := h1 d
    simp only [hsup, shapesSupport, pairSupport, Ccd.support, localSupport, k1, hp, Option.map_some, Option.bind_some, k2, Ccd.box, Option.some.injEq]
    have : (⟨(if (-d).x ≥ 0 then 1 else -1) * (0 / 2), (if (-d).y ≥ 0 then 1 else -1) * (0 / 2), (if (-d).z ≥ 0 then 1 else -1) * (0 / 2)⟩ : V3 ℝ) = 0 := by
      apply V3.ext' <;> simp
    rw [this]
    congr 1
    v3
  have one : ∀ {d p : V3 ℝ}, (∀ q ∈ spindle, q = p ∨ d.dot q < d.dot p) → p ∈ spindle → sup d = some ⟨p, p, 0⟩ := by
    intro d p h hp
    obtain ⟨r, hr, h2, h3⟩ := h1 d
    rw [sup_eq, h2]
    rcases h r hr with h | h
    · rw [h]; rfl
    · exact absurd (h3 p hp) (not_le.2 h)
  have tot : ∀ d, sup d ≠ none := by
    intro d
    obtain ⟨p, -, hp, -⟩ := h1 d
    rw [sup_eq, hp]
    simp
  set a : SP := ⟨⟨10, 0, 0⟩, ⟨10, 0, 0⟩, 0⟩ with ha
  set b : SP := ⟨⟨-10, 0, 0⟩, ⟨-10, 0, 0⟩, 0⟩ with hb
  have hg : gjk l c sup = .hit [a, b] := by
    have s0 : sup ⟨1, 0, 0⟩ = some a := one (by simp [spindle, V3.dot]) (by simp [spindle])
    have s1 : sup (-⟨10, 0, 0⟩) = some b := one (by simp [spindle, V3.dot]; norm_num) (by simp [spindle])
    obtain ⟨m, hm⟩ := Nat.exists_eq_add_of_le hn
    unfold gjk
    rw [s0, hm, Nat.add_comm]
    show gjkLoop l c _ (m + 1) _ (-⟨10, 0, 0⟩) = _
    rw [gjkLoop, s1]
    simp only
    rw [if_neg (by norm_num [V3.dot])]
    simp only [List.cons_append, List.nil_append, doSimplex, doSimplex2]
    rw [if_pos]
    have : 0 < c.eps * c.eps := mul_pos he he
    norm_num [V3.dot, V3.cross]
    nlinarith
  have hf : start2 l sup dirs a b = some (.touching (oneEdge a b) (.edge 0)) := by
    obtain ⟨r, hr⟩ := otherPoint_some (l := l) (dirs := dirs) (a := a) (b := b) tot
    rcases r with _ | s0
    · simp only [start2, hr]
    obtain ⟨d, -, hd⟩ := otherPoint_mem hr
    have ms : s0.v ∈ spindle := by
      obtain ⟨p, hp, h2, -⟩ := h1 d
      rw [sup_eq, h2] at hd
      cases hd
      exact hp
    have next : ∃ s1, sup (-s0.v) = some s1 ∧ oneOf l a b s1 = true := by
      have ends : sup (-s0.v) = some a ∨ sup (-s0.v) = some b := by
        simp only [spindle, List.mem_cons, List.not_mem_nil, or_false] at ms
        rcases ms with h | h | h | h | h | h <;> rw [h]
        · exact Or.inr (one (by simp [spindle, V3.dot]; norm_num) (by simp [spindle]))
        · exact Or.inl (one (by simp [spindle, V3.dot]) (by simp [spindle]))
        · exact Or.inr (one (by simp [spindle, V3.dot]; norm_num) (by simp [spindle]))
        · exact Or.inr (one (by simp [spindle, V3.dot]; norm_num) (by simp [spindle]))
        · exact Or.inr (one (by simp [spindle, V3.dot]; norm_num) (by simp [spindle]))
        · exact Or.inr (one (by simp [spindle, V3.dot]; norm_num) (by simp [spindle]))
      rcases ends with h | h
      · exact ⟨a, h, by simp [oneOf, hq]⟩
      · exact ⟨b, h, by simp [oneOf, hq]⟩
    obtain ⟨s1, h2, h3⟩ := next
    simp only [start2, hr, h2, h3, if_true]
  constructor
  · have z : (l.seg 0 a.v b.v).1 = 0 := by
      have h0 : HullOf [a.v, b.v] 0 := by
        have := HullOf.seg (l := [a.v, b.v]) (1 / 2) (by norm_num) (by norm_num) (.pt (p := a.v) (by simp)) (.pt (p := b.v) (by simp))
        convert this using 1
        apply V3.ext' <;> simp [ha, hb] <;> norm_num
      have := hl.seg_min 0 a.v b.v 0 h0
      refine le_antisymm (this.trans (by simp [V3.dot])) ?_
      rw [hl.seg_val]
      exact dot_self_nonneg _
    refine ⟨segmentPoints c a b (l.seg 0 a.v b.v).2, ?_⟩
    have pts : (oneEdge a b).points (.edge 0) = some [a, b] := by simp [Poly.points, oneEdge]
    simp only [shapeSigned, ← hsup, signedDist, hg, penetration, firstPoly, hf, answerOf, depthOf, pts, nearTo, closestPoints, Option.map_some, z, Real.sqrt_zero, neg_zero,
      answered, lt_irrefl, decide_false, Bool.not_false]
  · intro y hy
    refine ⟨-y, ⟨-y, spindle_ball (by rwa [nrm_neg]), (Pose.id_apply _).symm⟩, 0, ⟨0, ?_, (Pose.id_apply _).symm⟩, by v3⟩
    simp [Geo.pts, Shape.box]

theorem furthest {L : List (V3 ℝ)} (hL : L ≠ []) (d : V3 ℝ) : ∃ p ∈ L, ∀ q ∈ L, d.dot q ≤ d.dot p := by
  induction L with
  | nil => exact absurd rfl hL
  | cons a L ih =>
    by_cases hn : L = []
    · subst hn; exact ⟨a, by simp, by simp⟩
    obtain ⟨p, hp, hq⟩ := ih hn
    by_cases hap : d.dot p ≤ d.dot a
    · refine ⟨a, by simp, fun q hqm => ?_⟩
      rcases List.mem_cons.1 hqm with rfl | h
      · exact le_refl _
      · exact (hq q h).trans hap
    · refine ⟨p, List.mem_cons_of_mem _ hp, fun q hqm => ?_⟩
      rcases List.mem_cons.1 hqm with rfl | h
      · exact (not_le.1 hap).le
      · exact hq q h

/-- Functions of libccd with a test for equality. -/
noncomputable def eqLib : Lib := { exactLib with eq := fun x y => open Classical in decide (x = y) }

theorem eqLib_exact : eqLib.Exact := ⟨exactLib_exact.tri_mem, exactLib_exact.tri_val, exactLib_exact.tri_min, exactLib_exact.seg_mem, exactLib_exact.seg_val, exactLib_exact.seg_min⟩

/-- The hypotheses of `C116_violated_touching` are met. -/
example (e2 : V3 ℝ → Option (V3 ℝ)) (nearest : Poly SP → El) (order : Finset ℕ → List ℕ) (n : ℕ) :=
  C116_violated_touching (dirs := [⟨0, 0, -1⟩]) eqLib_exact (by simp [eqLib]) (c := cfg0) (by norm_num [cfg0]) (by norm_num [cfg0])
    (e1 := fun d => some (furthest (L := spindle) (by simp [spindle]) d).choose) (e2 := e2)
    (fun d => ⟨_, (furthest (by simp [spindle]) d).choose_spec.1, rfl, (furthest (by simp [spindle]) d).choose_spec.2⟩) nearest order n

/-- A case of `C116_two_partial`: an octahedron. -/
example : ∃ (A B : Set (V3 ℝ)) (sup : V3 ℝ → Option SP) (a b : SP) (P : Poly SP), (∀ d p, sup d = some p → Made A B p) ∧ Made A B a ∧ Made A B b ∧
    start2 eqLib sup [⟨0, 0, -1⟩] a b = some (.ok P) := by
  set L : List (V3 ℝ) := [⟨1, 0, 0⟩, ⟨-1, 0, 0⟩, ⟨0, 1, 0⟩, ⟨0, -1, 0⟩, ⟨0, 0, 1⟩, ⟨0, 0, -1⟩] with hL
  set sup : V3 ℝ → Option SP := fun d => some ⟨(furthest (L := L) (by simp [hL]) d).choose, (furthest (L := L) (by simp [hL]) d).choose, 0⟩ with hsup
  have one : ∀ {d p : V3 ℝ}, (∀ q ∈ L, q = p ∨ d.dot q < d.dot p) → p ∈ L → sup d = some ⟨p, p, 0⟩ := by
    intro d p h hp
    obtain ⟨h2, h3⟩ := (furthest (L := L) (by simp [hL]) d).choose_spec
    rcases h _ h2 with h | h
    · simp only [hsup, h]
    · exact absurd (h3 p hp) (not_le.2 h)
  have s0 : sup ⟨0, 0, -1⟩ = some ⟨⟨0, 0, -1⟩, ⟨0, 0, -1⟩, 0⟩ := one (by simp [hL, V3.dot]; try norm_num) (by simp [hL])
  have s1 : sup (-⟨0, 0, -1⟩) = some ⟨⟨0, 0, 1⟩, ⟨0, 0, 1⟩, 0⟩ := one (by simp [hL, V3.dot]; try norm_num) (by simp [hL])
  have e : ((⟨0, 0, -1⟩ : V3 ℝ) - ⟨1, 0, 0⟩).cross (⟨0, 0, 1⟩ - ⟨1, 0, 0⟩) = ⟨0, 2, 0⟩ := by apply V3.ext' <;> norm_num [V3.cross]
  have s2 : sup ⟨0, 2, 0⟩ = some ⟨⟨0, 1, 0⟩, ⟨0, 1, 0⟩, 0⟩ := one (by simp [hL, V3.dot]; try norm_num) (by simp [hL])
  have s3 : sup (-⟨0, 2, 0⟩) = some ⟨⟨0, -1, 0⟩, ⟨0, -1, 0⟩, 0⟩ := one (by simp [hL, V3.dot]; try norm_num) (by simp [hL])
  have ne : ∀ u y z : ℝ, u ≠ 0 → eqLib.eq ⟨u, 0, 0⟩ ⟨0, y, z⟩ = false := fun u y z h => by
    simp only [eqLib, decide_eq_false_iff_not]
    exact fun h' => h (congrArg V3.x h')
  refine ⟨{x | x ∈ L}, {0}, sup, ⟨⟨1, 0, 0⟩, ⟨1, 0, 0⟩, 0⟩, ⟨⟨-1, 0, 0⟩, ⟨-1, 0, 0⟩, 0⟩,
    octa ⟨⟨1, 0, 0⟩, ⟨1, 0, 0⟩, 0⟩ ⟨⟨0, 0, -1⟩, ⟨0, 0, -1⟩, 0⟩ ⟨⟨-1, 0, 0⟩, ⟨-1, 0, 0⟩, 0⟩ ⟨⟨0, 0, 1⟩, ⟨0, 0, 1⟩, 0⟩ ⟨⟨0, 1, 0⟩, ⟨0, 1, 0⟩, 0⟩ ⟨⟨0, -1, 0⟩, ⟨0, -1, 0⟩, 0⟩,
    fun d p h => ?_, ⟨by simp [hL], rfl, by v3⟩, ⟨by simp [hL], rfl, by v3⟩, ?_⟩
  · cases h
    exact ⟨(furthest (L := L) (by simp [hL]) d).choose_spec.1, rfl, by v3⟩
  · simp only [start2, otherPoint, s0, ne 1 _ _ (by norm_num), ne (-1) _ _ (by norm_num), Bool.not_false, Bool.and_self, if_true, s1, e, s2, s3, oneOf,
      Bool.or_self, Bool.false_eq_true, if_false]

end Pt
end Fcl
