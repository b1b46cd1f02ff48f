import Verif.Ccd.PolytopeVisible
import Mathlib.Tactic.IntervalCases

/-!
# C114: the expanding polytope of the default solver
-/

namespace Fcl
namespace Pt

open V3

variable {V : Type*} {P : Poly V} {outside flat : ℕ → Bool} {f : ℕ} {s : Patch}

/-- The patch is computed whatever the tests of visibility answer: the recursion ends, no edge is classified twice, and the result has the face
it starts from, is in one piece, and its internal and border edges are those with two faces and with one face in it. -/
theorem C114_patch (hc : Closed P) (hf : P.faces f ≠ none) {fuel : ℕ} (hn : P.nextF ≤ fuel) :
    ∃ s, visiblePatch P outside flat fuel f = .ok s ∧ IsPatch P outside flat f s :=
  visiblePatch_ok hc hf hn

/-- The check of debug builds passes. -/
theorem C114_sane (hc : Closed P) (hp : IsPatch P outside flat f s) : sane P s = true := by
  have inSide : ∀ {e ed x y}, P.edges e = some ed → ed.f = some x → ed.g = some y → (∀ h, P.Side e h ↔ h = x ∨ h = y) → P.Side e x ∧ P.Side e y :=
    fun _ _ _ h => ⟨(h _).2 (Or.inl rfl), (h _).2 (Or.inr rfl)⟩
  simp only [sane, Bool.and_eq_true, List.all_eq_true, List.mem_range, decide_eq_true_eq]
  refine ⟨⟨fun g _ => ?_, fun e _ => ?_⟩, fun b hb hi => ?_⟩
  · rcases hg : P.faces g with _ | fc
    · rfl
    · simp only
      split
      · rename_i h
        obtain ⟨e, he, hi⟩ := List.any_eq_true.1 h
        simp only [decide_eq_true_eq] at hi ⊢
        exact ((hp.inner e).1 hi).2 g ⟨fc, hg, he⟩
      · rfl
  · rcases he : P.edges e with _ | ed
    · rfl
    · obtain ⟨x, y, h1, h2, -, h4⟩ := hc.two e ed he
      obtain ⟨sx, sy⟩ := inSide he h1 h2 h4
      simp only [h1, h2, Option.any_some]
      by_cases hx : x ∈ s.visible <;> by_cases hy : y ∈ s.visible
      · have : e ∈ s.inner := (hp.inner e).2 ⟨by rw [he]; simp, fun g hg => by rcases (h4 g).1 hg with rfl | rfl <;> assumption⟩
        simp [hx, hy, this]
      · have : e ∈ s.border := (hp.border e).2 ⟨⟨x, hx, sx⟩, y, sy, hy⟩
        simp [hx, hy, this]
      · have : e ∈ s.border := (hp.border e).2 ⟨⟨y, hy, sy⟩, x, sx, hx⟩
        simp [hx, hy, this]
      · simp [hx, hy]
  · obtain ⟨-, k, hk, hkv⟩ := (hp.border b).1 hb
    exact hkv (((hp.inner b).1 hi).2 k hk)

/-- The element is part of the polytope. -/
def El.In (P : Poly V) : El → Prop
  | .vertex _ => True
  | .edge e => P.edges e ≠ none
  | .face f => P.faces f ≠ none

/-- The only exceptions are those for a nearest element that is a vertex, and for one that is an edge of which no face is seen. In particular
the exceptions for an edge that is classified twice and for a patch that fails its check are never thrown. -/
theorem C114_throws (hc : Closed P) {order : Finset ℕ → List ℕ} {fuel : ℕ} (hn : P.nextF ≤ fuel) {el : El} (hl : el.In P) (v : V) :
    (∃ R, expandPolytope P outside flat order fuel el v = .ok R) ∨
      (expandPolytope P outside flat order fuel el v = .error .vertex ∧ ∃ i, el = .vertex i) ∨
      (expandPolytope P outside flat order fuel el v = .error .touching ∧ ∃ e, el = .edge e ∧ ∀ g, P.Side e g → outside g = false) := by
  have run : ∀ f, P.faces f ≠ none → startFace P outside el = .ok f → ∃ R, expandPolytope P outside flat order fuel el v = .ok R := by
    intro f hf hs
    obtain ⟨s, h1, h2⟩ := visiblePatch_ok (outside := outside) (flat := flat) hc hf hn
    refine ⟨expand P (order s.visible) (order s.inner) (order s.border) v, ?_⟩
    simp only [expandPolytope, hs, Except.bind, h1, C114_sane hc h2, if_true]
  cases el with
  | vertex i => exact Or.inr (Or.inl ⟨rfl, i, rfl⟩)
  | face f => exact Or.inl (run f hl rfl)
  | edge e =>
    obtain ⟨ed, hed⟩ := Option.ne_none_iff_exists'.1 hl
    obtain ⟨x, y, h1, h2, -, h4⟩ := hc.two e ed hed
    obtain ⟨a, b, f', g'⟩ := ed
    subst h1 h2
    have fx : P.faces x ≠ none := by obtain ⟨fc, h, -⟩ := (h4 x).2 (Or.inl rfl); rw [h]; simp
    have fy : P.faces y ≠ none := by obtain ⟨fc, h, -⟩ := (h4 y).2 (Or.inr rfl); rw [h]; simp
    by_cases hx : outside x = true
    · exact Or.inl (run x fx (by simp [startFace, hed, hx]))
    by_cases hy : outside y = true
    · exact Or.inl (run y fy (by simp [startFace, hed, hx, hy]))
    refine Or.inr (Or.inr ⟨by simp [expandPolytope, startFace, hed, hx, hy, Except.bind], e, rfl, fun g hg => ?_⟩)
    rcases (h4 g).1 hg with rfl | rfl
    · simpa using hx
    · simpa using hy

/-- The border of the patch is made of closed lines: every vertex is on an even number of border edges. -/
theorem C114_even (hc : Closed P) (hp : IsPatch P outside flat f s) (w : ℕ) : ∃ S : Finset ℕ, (∀ e, e ∈ S ↔ e ∈ s.border ∧ P.End w e) ∧
    Even S.card :=
  ⟨s.border.filter fun e => touch P w e = true, fun e => by rw [Finset.mem_filter, touch_iff], border_even hc hp w⟩

/-- An order of iteration lists every element of the set once. -/
def Lists (order : Finset ℕ → List ℕ) : Prop := ∀ S, (order S).Nodup ∧ ∀ x, x ∈ order S ↔ x ∈ S

/-- The expanded surface is closed, whatever the tests answer, if no vertex is on more than two border edges of the patch. -/
theorem C114_closed (hc : Closed P) {order : Finset ℕ → List ℕ} (ho : Lists order) {fuel : ℕ} (hn : P.nextF ≤ fuel) (hf : P.faces f ≠ none)
    (v : V) : ∃ s R, IsPatch P outside flat f s ∧ expandPolytope P outside flat order fuel (.face f) v = .ok R ∧
      R.verts = P.verts ++ [v] ∧
      ((∀ w e1 e2 e3, e1 ∈ s.border → e2 ∈ s.border → e3 ∈ s.border → P.End w e1 → P.End w e2 → P.End w e3 →
        e1 = e2 ∨ e1 = e3 ∨ e2 = e3) → Closed R) := by
  obtain ⟨s, h1, h2⟩ := visiblePatch_ok (outside := outside) (flat := flat) hc hf hn
  refine ⟨s, expand P (order s.visible) (order s.inner) (order s.border) v, h2, ?_, ?_, fun hw => ?_⟩
  · simp only [expandPolytope, startFace, Except.bind, h1, C114_sane hc h2, if_true]
  · exact expand_verts v
  · refine expand_closed hc h2 (ho _).1 (ho _).1 (ho _).1 (ho _).2 (ho _).2 (ho _).2 (fun w => ?_) v
    rw [filter_card (ho s.border).1 (ho s.border).2]
    have h3 : (s.border.filter fun e => touch P w e = true).card ≤ 2 := by
      by_contra hcon
      obtain ⟨e1, m1, e2, m2, e3, m3, n12, n13, n23⟩ := Finset.two_lt_card.1 (not_le.1 hcon)
      simp only [Finset.mem_filter, touch_iff] at m1 m2 m3
      rcases hw w e1 e2 e3 m1.1 m2.1 m3.1 m1.2 m2.2 m3.2 with h | h | h
      · exact n12 h
      · exact n13 h
      · exact n23 h
    obtain ⟨k, hk⟩ := border_even hc h2 w
    omega

/-! ### Convex polytopes -/

variable {P : Poly (V3 ℝ)} {q : V3 ℝ}

/-- The normal of a face points outward, if the polytope is convex and has the origin in it or on its surface. -/
theorem C114_normal (hc : Convex P) (ho : Within P 0) {big : ℝ} (hb : 0 ≤ big) (hf : P.faces f ≠ none) : Outward P f (faceNormal big P f) :=
  faceNormal_outward hc ho hb hf

/-- The test of visibility says whether the point is in front of the face. -/
theorem C114_visible (hc : Convex P) (ho : Within P 0) {big : ℝ} (hb : 0 ≤ big) (hf : P.faces f ≠ none) (q : V3 ℝ) :
    isOutside big P q f = true ↔ Sees P q f :=
  isOutside_iff hc ho hb hf q

/-- With exact tests the border does not touch itself. -/
theorem C114_border (hc : Convex P) (hx : Exact P outside flat q) (hp : IsPatch P outside flat f s) (hf : Sees P q f)
    {w e1 e2 e3 : ℕ} (h1 : e1 ∈ s.border) (h2 : e2 ∈ s.border) (h3 : e3 ∈ s.border) (w1 : P.End w e1) (w2 : P.End w e2) (w3 : P.End w e3) :
    e1 = e2 ∨ e1 = e3 ∨ e2 = e3 := by
  by_contra hcon
  push Not at hcon
  have := border_le_two hc hx hp hf w
  apply absurd this
  rw [not_le, Finset.two_lt_card]
  exact ⟨e1, Finset.mem_filter.2 ⟨h1, touch_iff.2 w1⟩, e2, Finset.mem_filter.2 ⟨h2, touch_iff.2 w2⟩, e3, Finset.mem_filter.2 ⟨h3, touch_iff.2 w3⟩, hcon.1, hcon.2.1, hcon.2.2⟩

/-- If no two faces are in one plane, the patch is the set of all faces that are seen. -/
theorem C114_all_seen (hc : Convex P) (hfc : Facets P) (hx : Exact P outside flat q) (hp : IsPatch P outside flat f s) (hf : Sees P q f) (g : ℕ) :
    g ∈ s.visible ↔ P.faces g ≠ none ∧ Sees P q g :=
  ⟨fun h => ⟨hp.faces g h, patch_seen hx hp hf h⟩, fun h => patch_all hc hfc hx hp hf h.1 h.2⟩

/-- The expansion of a convex polytope, with the test of visibility of the code, by a point in front of the nearest face: it succeeds and gives a
convex polytope with the point as a further vertex and the origin still in it. -/
theorem C114_convex_partial (hc : Convex P) (hfc : Facets P) (h0 : Within P 0) {big : ℝ} (hb : 0 ≤ big)
    (hfl : ∀ e g, flat e = true → P.Side e g → ¬Sees P q g) {order : Finset ℕ → List ℕ} (ho : Lists order) {fuel : ℕ} (hn : P.nextF ≤ fuel)
    (hl : P.faces f ≠ none) (hf : Sees P q f) :
    ∃ R, expandPolytope P (isOutside big P q) flat order fuel (.face f) q = .ok R ∧ R.verts = P.verts ++ [q] ∧ Convex R ∧ Within R 0 := by
  have hx : Exact P (isOutside big P q) flat q := ⟨fun g hg => isOutside_iff hc h0 hb hg q, hfl⟩
  obtain ⟨s, h1, h2⟩ := visiblePatch_ok (outside := isOutside big P q) (flat := flat) hc.closed hl hn
  have sh := expand_shape hc.closed h2 (ho _).1 (ho _).1 (ho _).1 (ho _).2 (ho _).2 (ho _).2
    (border_deg hc hx h2 hf (ho s.border).1 (ho s.border).2) q
  refine ⟨expand P (order s.visible) (order s.inner) (order s.border) q, ?_, sh.2.1, ?_, sh.2.within h0⟩
  · simp only [expandPolytope, startFace, Except.bind, h1, C114_sane hc.closed h2, if_true]
  · exact expand_convex hc hx h2 hf (fun g hg sg => patch_all hc hfc hx h2 hf hg sg) sh.1 sh.2

end Pt
end Fcl
