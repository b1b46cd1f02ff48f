import Verif.Ccd.EpaLemmas
import Verif.Ccd.PolytopeFacets
import Verif.Props.Polytope

/-!
# The loop of the expanding polytope algorithm
-/

namespace Fcl
namespace Pt

open V3 Ccd

variable {A B : Set (V3 ℝ)} {P : Poly SP} {l : Lib} {c : Cfg} {el : El} {f : ℕ} {et : ℝ} {sup : V3 ℝ → Option SP}

theorem dir_le (hx : l.Exact) {Q : Poly (V3 ℝ)} (hc : Convex Q) {pts : List SP} (h0 : pts ≠ []) (h3 : pts.length ≤ 3) {dir : V3 ℝ} (ho : Outward Q f dir)
    (hu : dir.nrm = 1) (hon : ∀ y, HullOf (pts.map SP.v) y → OnFace Q f y) {y : V3 ℝ} (hy : HullOf (pts.map SP.v) y) :
    dir.dot y ≤ √(nearTo l 0 pts).1 := by
  obtain ⟨h1, h2, -⟩ := nearTo_ok hx 0 h0 h3
  have on := hon _ h1
  obtain ⟨i, j, k, cor, -⟩ := id on
  have ci := (cor i).2 (Or.inl rfl)
  rw [(hon y hy).flat hc ho ci, ← on.flat hc ho ci]
  rw [sub_zero_dot] at h2
  have h4 := dot_le dir (nearTo l 0 pts).2
  rw [hu, one_mul] at h4
  rw [h2]
  exact h4

theorem points_of_near (hn : IsNearest l P el) : ∃ pts, P.points el = some pts := by
  obtain ⟨r, h, -⟩ := hn
  simp only [Poly.near, Option.map_eq_some_iff] at h
  obtain ⟨pts, h, -⟩ := h
  exact ⟨pts, h⟩

/-- When the algorithm stops, nothing of the difference is further than the depth and the tolerance in one direction. -/
theorem stop_bound (hx : l.Exact) (hg : Sound A B P) (hb : 0 ≤ c.big) (he : 0 < et) (hs : Supports A B sup) {pts : List SP} (hp : P.points el = some pts)
    (hn : IsNearest l P el) (hedge : ∀ e, el = .edge e → isZero c.ceps (nearTo l 0 pts).1 = true) (hstop : nextSupport l c et sup P el = .stop) :
    ∃ dir : V3 ℝ, dir.nrm = 1 ∧ ∀ x ∈ Diff A B, dir.dot x < √(nearTo l 0 pts).1 + et := by
  obtain ⟨h0, h3, hm⟩ := points_len hp
  by_cases hv : ∃ i, el = .vertex i
  · obtain ⟨i, rfl⟩ := hv
    simp only [Poly.points, Option.map_eq_some_iff] at hp
    obtain ⟨v, hv, rfl⟩ := hp
    obtain ⟨d, d0, hd⟩ := hg.extreme v (List.mem_of_getElem? hv)
    have dn := nrm_pos d0
    have e : ∀ x, d.dot x = d.nrm * d.normalized.dot x := fun x => by
      conv_lhs => rw [← nrm_smul_normalized d]
      simp only [V3.dot, smul_x, smul_y, smul_z]; ring
    refine ⟨d.normalized, nrm_normalized d0, fun x hxd => ?_⟩
    have h1 := hd x hxd
    rw [e, e] at h1
    have h2 := le_of_mul_le_mul_left h1 dn
    have h4 := dot_le d.normalized v.v
    rw [nrm_normalized d0, one_mul] at h4
    have h5 : √(nearTo l 0 [v]).1 = v.v.nrm := by rw [nearTo, sub_zero_dot]; rfl
    rw [h5]
    linarith
  · push Not at hv
    unfold nextSupport at hstop
    have hs' : (match P.points el, epaDir l c P el with
      | some pts, some dir =>
        match sup dir with
        | none => Next.undef
        | some out =>
          if out.v.dot dir - √(nearTo l 0 pts).1 < et then .stop
          else if √(nearTo l out.v pts).1 < et then .stop
          else .go out
      | _, _ => .undef) = .stop := by
      cases el with
      | vertex i => exact absurd rfl (hv i)
      | edge e => exact hstop
      | face f => exact hstop
    rw [hp] at hs'
    rcases hd : epaDir l c P el with _ | dir
    · rw [hd] at hs'; simp at hs'
    rw [hd] at hs'
    simp only at hs'
    obtain ⟨f, -, hl, ho, hu, hon⟩ := epaDir_ok hx hg hb hp hn hv hedge hd
    rcases hsup : sup dir with _ | out
    · rw [hsup] at hs'; simp at hs'
    rw [hsup] at hs'
    simp only at hs'
    obtain ⟨-, ext⟩ := hs dir out ho.1 hsup
    refine ⟨dir, hu, fun x hxd => lt_of_le_of_lt (ext x hxd) ?_⟩
    split at hs'
    · rename_i h
      rw [dot_comm] at h
      linarith
    · split at hs'
      · rename_i h
        obtain ⟨h1, h2, -⟩ := nearTo_ok hx out.v h0 h3
        have h4 := dir_le hx hg.convex h0 h3 ho hu hon h1
        have h5 := dot_le dir (out.v - (nearTo l out.v pts).2)
        rw [hu, one_mul, dot_sub] at h5
        have h6 : (out.v - (nearTo l out.v pts).2).nrm = √(nearTo l out.v pts).1 := by
          rw [h2]
          unfold V3.nrm
          congr 1
          simp only [V3.dot, sub_x, sub_y, sub_z]; ring
        linarith
      · cases hs'

/-- A new support point is in front of the face from which the polytope is expanded. -/
theorem go_sees (hx : l.Exact) (hg : Sound A B P) (hb : 0 ≤ c.big) (he : 0 < et) (hs : Supports A B sup) {pts : List SP} (hp : P.points el = some pts)
    (hn : IsNearest l P el) (hedge : ∀ e, el = .edge e → isZero c.ceps (nearTo l 0 pts).1 = true) {p : SP} (hgo : nextSupport l c et sup P el = .go p) :
    Made A B p ∧ (∃ d : V3 ℝ, d ≠ 0 ∧ ∀ x ∈ Diff A B, d.dot x ≤ d.dot p.v) ∧
    (∀ v ∈ P.verts, et ≤ (p.v - v.v).nrm) ∧
    ∃ f, (el = .face f ∨ ∃ e ed, el = .edge e ∧ P.edges e = some ed ∧ ed.f = some f) ∧ P.faces f ≠ none ∧ Sees P.bare p.v f := by
  obtain ⟨h0, h3, hm⟩ := points_len hp
  have hv : ∀ i, el ≠ .vertex i := by rintro i rfl; simp [nextSupport] at hgo
  unfold nextSupport at hgo
  have hs' : (match P.points el, epaDir l c P el with
    | some pts, some dir =>
      match sup dir with
      | none => Next.undef
      | some out =>
        if out.v.dot dir - √(nearTo l 0 pts).1 < et then .stop
        else if √(nearTo l out.v pts).1 < et then .stop
        else .go out
    | _, _ => .undef) = .go p := by
    cases el with
    | vertex i => exact absurd rfl (hv i)
    | edge e => exact hgo
    | face f => exact hgo
  rw [hp] at hs'
  rcases hd : epaDir l c P el with _ | dir
  · rw [hd] at hs'; simp at hs'
  rw [hd] at hs'
  simp only at hs'
  obtain ⟨f, hel, hl, ho, hu, hon⟩ := epaDir_ok hx hg hb hp hn hv hedge hd
  rcases hsup : sup dir with _ | out
  · rw [hsup] at hs'; simp at hs'
  rw [hsup] at hs'
  simp only at hs'
  split at hs'
  · cases hs'
  rename_i hlt
  split at hs'
  · cases hs'
  cases hs'
  obtain ⟨hmade, ext⟩ := hs dir p ho.1 hsup
  obtain ⟨h1, -, -⟩ := nearTo_ok hx 0 h0 h3
  have on := hon _ h1
  obtain ⟨i, j, k, cor, -⟩ := id on
  have ci := (cor i).2 (Or.inl rfl)
  have h4 := dir_le hx hg.convex h0 h3 ho hu hon h1
  rw [dot_comm] at hlt
  refine ⟨hmade, ⟨dir, ho.1, ext⟩, fun v hv => ?_, f, hel, hl, dir, ho, i, ci, ?_⟩
  · obtain ⟨u, hu', hv⟩ := List.getElem_of_mem hv
    have h5 := ho.2 i ci u (by simpa [Poly.bare] using hu')
    rw [bare_pos (p := v) (by rw [List.getElem?_eq_getElem hu', hv]), dot_sub, ← on.flat hg.convex ho ci] at h5
    have h6 := dot_le dir (p.v - v.v)
    rw [hu, one_mul, dot_sub] at h6
    linarith
  · rw [dot_sub, ← on.flat hg.convex ho ci]
    linarith

/-- Some face is not seen. -/
theorem unseen_face {Q : Poly (V3 ℝ)} (hc : Convex Q) (hfc : Facets Q) (hl : Q.faces f ≠ none) (q : V3 ℝ) : ∃ g, Q.faces g ≠ none ∧ ¬Sees Q q g := by
  by_contra hcon
  push Not at hcon
  obtain ⟨o, hoM, ho⟩ := hc.mean
  have seen : ∀ g n w, Q.faces g ≠ none → Outward Q g n → Q.Corner w g → 0 < n.dot (q - Q.pos w) := by
    intro g n w hg hn hw
    obtain ⟨m, hm, w', hw', h⟩ := hcon g hg
    obtain ⟨t, ht, e⟩ := hn.same hc hg hm
    have h1 := mul_pos ht h
    rw [← e] at h1
    have := hn.flat hc.closed hw hw'
    rw [dot_sub] at *
    linarith
  set k := o - q with hk
  have bound : ∀ L : List (V3 ℝ), ∃ C : ℝ, ∀ v ∈ L, k.dot v ≤ C := by
    intro L
    induction L with
    | nil => exact ⟨0, by simp⟩
    | cons v L ih =>
      obtain ⟨C, hC⟩ := ih
      refine ⟨max (k.dot v) C, fun u hu => ?_⟩
      rcases List.mem_cons.1 hu with rfl | hu
      · exact le_max_left _ _
      · exact (hC u hu).trans (le_max_right _ _)
  obtain ⟨C, hC⟩ := bound Q.verts
  have hull : ∀ x, HullOf Q.verts x → k.dot x ≤ C := by
    intro x hx
    induction hx with
    | pt hp => exact hC _ hp
    | seg t h0 h1 _ _ i1 i2 =>
      rw [dot_add, dot_smul, dot_smul]
      have := mul_le_mul_of_nonneg_left i1 (by linarith : (0 : ℝ) ≤ 1 - t)
      have := mul_le_mul_of_nonneg_left i2 h0
      linarith
  have far : ∀ t : ℝ, 0 ≤ t → k.dot o + t * k.dot k ≤ C := by
    intro t ht
    rw [← dot_smul, ← dot_add]
    refine hull _ (behind_hull hc hfc hl fun g m w hg hm hw => ?_)
    have h1 := ho g m w hm hw
    have h2 := mul_nonneg ht (seen g m w hg hm hw).le
    have h3 := mul_nonneg ht h1.le
    have e : m.dot (o + t • k - Q.pos w) = -(m.dot (Q.pos w - o)) - t * m.dot (Q.pos w - o) - t * m.dot (q - Q.pos w) := by
      rw [hk]; simp only [V3.dot, add_x, add_y, add_z, smul_x, smul_y, smul_z, sub_x, sub_y, sub_z]; ring
    rw [e]
    linarith
  have k0 : k ≠ 0 := by
    intro h0
    obtain ⟨fc, hf⟩ := Option.ne_none_iff_exists'.1 hl
    obtain ⟨a, b, c, -, -, -, -, -, -, -, -, -, cor⟩ := hc.closed.corners hf
    obtain ⟨n, hn⟩ := hc.behind f hl
    have ca := (cor a).2 (Or.inl rfl)
    have h1 := ho f n a hn ca
    have h2 := seen f n a hl hn ca
    have h3 : n.dot k = 0 := by rw [h0]; simp [V3.dot]
    rw [hk] at h3
    rw [dot_sub] at *
    linarith
  have kk := dot_self_pos k0
  have h1 := far (|C - k.dot o| / k.dot k + 1) (by positivity)
  have h2 : (|C - k.dot o| / k.dot k + 1) * k.dot k = |C - k.dot o| + k.dot k := by field_simp
  rw [h2] at h1
  have := le_abs_self (C - k.dot o)
  linarith

/-- One expansion. -/
theorem expand_step (hg : Sound A B P) (hb : 0 ≤ c.big) {order : Finset ℕ → List ℕ} (hord : Lists order) {p : SP} (hm : Made A B p)
    (hext : ∃ d : V3 ℝ, d ≠ 0 ∧ ∀ x ∈ Diff A B, d.dot x ≤ d.dot p.v)
    (hel : el = .face f ∨ ∃ e ed, el = .edge e ∧ P.edges e = some ed ∧ ed.f = some f) (hl : P.faces f ≠ none) (hsee : Sees P.bare p.v f)
    (hgen : Generic P.bare p.v) (hfl : ∀ e g, flatEdge c P p.v e = true → P.bare.Side e g → ¬Sees P.bare p.v g) :
    ∃ R, expandPolytope P (isOutside c.big P.bare p.v) (flatEdge c P p.v) order P.nextF el p = .ok R ∧ Sound A B R ∧ R.verts = P.verts ++ [p] := by
  have hx : Exact P.bare (isOutside c.big P.bare p.v) (flatEdge c P p.v) p.v := ⟨fun g hgl => isOutside_iff hg.convex hg.origin hb hgl p.v, hfl⟩
  have hcP : Closed P := ⟨hg.closed.tri, hg.closed.two, fun e ed h => by simpa [Poly.bare] using hg.closed.ends e ed h, hg.closed.newE, hg.closed.newF⟩
  obtain ⟨s, h1, h2⟩ := visiblePatch_ok (outside := isOutside c.big P.bare p.v) (flat := flatEdge c P p.v) hcP hl (le_refl _)
  have reach : ∀ {ok : ℕ → ℕ → Prop} {a b : ℕ}, Reach P ok a b → Reach P.bare ok a b := by
    intro ok a b h
    induction h with
    | refl => exact .refl
    | step _ h1 h2 h3 ih => exact .step ih h1 h2 h3
  have h2' : IsPatch P.bare (isOutside c.big P.bare p.v) (flatEdge c P p.v) f s :=
    ⟨h2.start, h2.faces, h2.inner, h2.border, fun g hg => reach (h2.joined g hg), h2.unseen⟩
  have deg := border_deg hg.convex hx h2' hsee (hord s.border).1 (hord s.border).2
  have sh := expand_shape hcP h2 (hord _).1 (hord _).1 (hord _).1 (hord _).2 (hord _).2 (hord _).2 deg p
  set R := expand P (order s.visible) (order s.inner) (order s.border) p with hR
  have shv : R.verts = P.verts ++ [p] := sh.2.1
  have hS : Shape P.bare s R.bare p.v := by
    obtain ⟨k1, m, num, k2, k3, k4, k5, k6, k7⟩ := sh.2
    refine ⟨by simp [Poly.bare, k1], m, num, k2, k3, k4, k5, fun k a b h => ?_, k7⟩
    rcases k6 k a b h with h | h
    · exact Or.inl h
    · exact Or.inr (by simpa [Poly.bare] using h)
  have hRc : Closed R.bare := ⟨sh.1.tri, sh.1.two, fun e ed h => by simpa [Poly.bare] using sh.1.ends e ed h, sh.1.newE, sh.1.newF⟩
  have hst : startFace P (isOutside c.big P.bare p.v) el = .ok f := by
    rcases hel with rfl | ⟨e, ed, rfl, he, hf⟩
    · rfl
    · obtain ⟨x, y, e1, e2, -, -⟩ := hcP.two e ed he
      have ex : x = f := by rw [e1] at hf; exact Option.some.inj hf
      obtain ⟨a, b, f', g'⟩ := ed
      simp only at e1 e2
      subst e1 e2 ex
      have := (hx.seen x hl).2 hsee
      simp [startFace, he, this]
  refine ⟨R, ?_, ⟨?_, ?_, hS.within hg.origin, ?_, ?_, ?_⟩, shv⟩
  · simp only [expandPolytope, hst, Except.bind, h1, C114_sane hcP h2, if_true, hR]
  · exact expand_convex hg.convex hx h2' hsee (fun g hgl sg => patch_all hg.convex hg.facets hx h2' hsee hgl sg) hRc hS
  · exact expand_facets hg.convex hg.facets hx h2' hsee hgen hRc hS
  · obtain ⟨g, hgl, hns⟩ := unseen_face hg.convex hg.facets (f := f) hl p.v
    have hnv : g ∉ s.visible := fun h => hns (patch_seen hx h2' hsee h)
    obtain ⟨fc, hfc⟩ := Option.ne_none_iff_exists'.1 hgl
    obtain ⟨-, m, num, -, -, -, -, -, k7⟩ := hS
    obtain ⟨fc', h, -⟩ := (k7 fc.e0 g).2 (Or.inl ⟨hnv, fc, hfc, by simp [Face.edges]⟩)
    exact ⟨g, by rw [show R.faces g = some fc' from h]; simp⟩
  · intro x hx
    rw [shv] at hx
    rcases List.mem_append.1 hx with h | h
    · exact hg.made x h
    · rw [List.mem_singleton.1 h]; exact hm
  · intro x hx
    rw [shv] at hx
    rcases List.mem_append.1 hx with h | h
    · exact hg.extreme x h
    · rw [List.mem_singleton.1 h]; exact hext

/-! ### The loop -/

theorem nearest_of_le {el' : El} {r : ℝ × V3 ℝ} (hn : IsNearest l P el) {q : ℝ × V3 ℝ} (hq : P.near l el = some q) (h : P.near l el' = some r) (hr : r.1 ≤ q.1) :
    IsNearest l P el' := by
  obtain ⟨q', h1, h2⟩ := hn
  rw [hq] at h1
  cases h1
  exact ⟨r, h, fun el'' r'' h'' => hr.trans (h2 el'' r'' h'')⟩

/-- The correction of the nearest feature gives a nearest feature, and an edge only when the origin is on it. -/
theorem feature_ok (hx : l.Exact) (hg : Sound A B P) {el' : El} (hn : IsNearest l P el) (hf : feature l c P el = some el') :
    IsNearest l P el' ∧ ∀ e, el' = .edge e → ∀ r, P.near l el' = some r → r.1 < 2 * c.eps * (2 * c.eps) := by
  cases el with
  | vertex i => cases hf; exact ⟨hn, fun e h => by cases h⟩
  | face f => cases hf; exact ⟨hn, fun e h => by cases h⟩
  | edge e =>
    simp only [feature, validate] at hf
    rcases he : P.edges e with _ | ⟨a, b, f', g'⟩
    · rw [he] at hf; simp at hf
    obtain ⟨x, y, h1, h2, -, h4⟩ := hg.closed.two e _ he
    simp only at h1 h2
    subst h1 h2
    obtain ⟨p, q, hp, -, -⟩ := edge_points hg.closed he
    have hne : P.near l (.edge e) = some (nearTo l 0 [p, q]) := by simp [Poly.near, hp]
    rw [he, hne] at hf
    simp only at hf
    have side : ∀ g, P.bare.Side e g → IsNearest l P (.face g) := by
      intro g hs
      have hl : P.faces g ≠ none := by obtain ⟨fc, h, -⟩ := hs; rw [show P.faces g = some fc from h]; simp
      obtain ⟨i, j, k, hq, -, -, -, hh⟩ := face_hull_iff hg.closed hl
      obtain ⟨k1, k2, -⟩ := nearTo_ok hx 0 (pts := [p, q]) (by simp) (by simp)
      obtain ⟨-, -, k3⟩ := nearTo_ok hx 0 (pts := [i, j, k]) (by simp) (by simp)
      refine nearest_of_le hn hne (r := nearTo l 0 [i, j, k]) (by simp [Poly.near, hq]) ?_
      rw [k2]
      exact k3 _ ((hh _).2 (edge_on_face hg.closed hp hs k1))
    split at hf
    · cases hf
    split at hf
    · rename_i hd
      cases hf
      exact ⟨hn, fun e' h r hr => by rw [hne] at hr; cases hr; exact hd⟩
    split at hf
    · cases hf
      exact ⟨side y ((h4 y).2 (Or.inr rfl)), fun e h => by cases h⟩
    · cases hf
      exact ⟨side x ((h4 x).2 (Or.inl rfl)), fun e h => by cases h⟩

/-- The tolerances: those of double precision meet this. -/
structure Tol (c : Cfg) (et : ℝ) : Prop where
  eps : 0 < c.eps
  ceps : 2 * c.eps * (2 * c.eps) ≤ c.ceps
  big : 0 ≤ c.big
  et : 0 < et

theorem edge_zero (hx : l.Exact) (ht : Tol c et) {pts : List SP} (hp : P.points el = some pts)
    (h : ∀ e, el = .edge e → ∀ r, P.near l el = some r → r.1 < 2 * c.eps * (2 * c.eps)) :
    ∀ e, el = .edge e → isZero c.ceps (nearTo l 0 pts).1 = true := by
  intro e he
  obtain ⟨h0, h3, -⟩ := points_len hp
  have h1 := h e he (nearTo l 0 pts) (by simp [Poly.near, hp])
  obtain ⟨-, h2, -⟩ := nearTo_ok hx 0 h0 h3
  have h4 : 0 ≤ (nearTo l 0 pts).1 := by rw [h2, V3.dot]; nlinarith [sq_nonneg ((nearTo l 0 pts).2 - 0).x, sq_nonneg ((nearTo l 0 pts).2 - 0).y, sq_nonneg ((nearTo l 0 pts).2 - 0).z]
  have h5 := ht.ceps
  simp only [isZero, decide_eq_true_eq]
  rw [abs_of_nonneg h4]
  linarith

/-- The polytopes that the loop comes to. -/
inductive Run (l : Lib) (c : Cfg) (et : ℝ) (sup : V3 ℝ → Option SP) (nearest : Poly SP → El) (order : Finset ℕ → List ℕ) (P0 : Poly SP) : Poly SP → Prop
  | start : Run l c et sup nearest order P0 P0
  | step {P R : Poly SP} {el : El} {p : SP} : Run l c et sup nearest order P0 P → feature l c P (nearest P) = some el → nextSupport l c et sup P el = .go p →
      expandPolytope P (isOutside c.big P.bare p.v) (flatEdge c P p.v) order P.nextF el p = .ok R → Run l c et sup nearest order P0 R

/-- What is assumed of the new vertices: none is in the plane of a face, and the test for a line answers yes only for edges of faces that are not
seen. -/
def Regular (l : Lib) (c : Cfg) (et : ℝ) (sup : V3 ℝ → Option SP) (nearest : Poly SP → El) (order : Finset ℕ → List ℕ) (P0 : Poly SP) : Prop :=
  ∀ P el p, Run l c et sup nearest order P0 P → feature l c P (nearest P) = some el → nextSupport l c et sup P el = .go p →
    Generic P.bare p.v ∧ ∀ e g, flatEdge c P p.v e = true → P.bare.Side e g → ¬Sees P.bare p.v g

variable {nearest : Poly SP → El} {order : Finset ℕ → List ℕ} {P0 : Poly SP}

theorem step_ok (hx : l.Exact) (ht : Tol c et) (hs : Supports A B sup) (hord : Lists order) (hg : Sound A B P)
    (hn : IsNearest l P (nearest P)) (hf : feature l c P (nearest P) = some el) {p : SP} (hgo : nextSupport l c et sup P el = .go p)
    (hr : Generic P.bare p.v ∧ ∀ e g, flatEdge c P p.v e = true → P.bare.Side e g → ¬Sees P.bare p.v g) :
    Made A B p ∧ (∀ v ∈ P.verts, et ≤ (p.v - v.v).nrm) ∧
    ∃ R, expandPolytope P (isOutside c.big P.bare p.v) (flatEdge c P p.v) order P.nextF el p = .ok R ∧ Sound A B R ∧ R.verts = P.verts ++ [p] := by
  obtain ⟨hn', he⟩ := feature_ok hx hg hn hf
  obtain ⟨pts, hp⟩ := points_of_near hn'
  obtain ⟨hm, hext, hfar, f, hel, hl, hsee⟩ := go_sees hx hg ht.big ht.et hs hp hn' (edge_zero hx ht hp he) hgo
  exact ⟨hm, hfar, expand_step hg ht.big hord hm hext hel hl hsee hr.1 hr.2⟩

theorem Run.sound (hx : l.Exact) (ht : Tol c et) (hs : Supports A B sup) (hord : Lists order) (hg : Sound A B P0)
    (hn : ∀ P, Run l c et sup nearest order P0 P → IsNearest l P (nearest P)) (hr : Regular l c et sup nearest order P0) {P : Poly SP}
    (h : Run l c et sup nearest order P0 P) : Sound A B P := by
  induction h with
  | start => exact hg
  | step h1 h2 h3 h4 ih =>
    obtain ⟨-, -, R, h5, h6, -⟩ := step_ok hx ht hs hord ih (hn _ h1) h2 h3 (hr _ _ _ h1 h2 h3)
    rw [h4] at h5
    cases h5
    exact h6

theorem loop_done {n : ℕ} {P : Poly SP} (h : Run l c et sup nearest order P0 P) {R : Poly SP} {el : El}
    (hd : epaLoop l c et sup nearest order n P = .done R el) :
    Run l c et sup nearest order P0 R ∧ feature l c R (nearest R) = some el ∧ nextSupport l c et sup R el = .stop := by
  induction n generalizing P with
  | zero => simp [epaLoop] at hd
  | succ n ih =>
    rw [epaLoop] at hd
    split at hd
    · cases hd
    rename_i el' hf
    split at hd
    · cases hd
    · rename_i hst
      cases hd
      exact ⟨h, hf, hst⟩
    · rename_i p hgo
      split at hd
      · cases hd
      · rename_i R' hR
        exact ih (.step h hf hgo hR) hd

theorem feature_some (hg : Sound A B P) (he : 0 < c.eps) (hb : 0 ≤ c.big) (hn : IsNearest l P el) : ∃ el', feature l c P el = some el' := by
  cases el with
  | vertex i => exact ⟨_, rfl⟩
  | face f => exact ⟨_, rfl⟩
  | edge e =>
    simp only [feature, validate]
    obtain ⟨r, hne, -⟩ := id hn
    rcases hed : P.edges e with _ | ⟨a, b, f', g'⟩
    · simp [Poly.near, Poly.points, hed] at hne
    obtain ⟨x, y, h1, h2, -, h4⟩ := hg.closed.two e _ hed
    simp only at h1 h2
    subst h1 h2
    rw [hne]
    simp only
    have neg : ∀ g, P.bare.Side e g → -(faceNormal c.big P.bare g).normalized.dot (P.bare.pos a) ≤ 0 := by
      intro g hs
      have hl : P.bare.faces g ≠ none := by obtain ⟨fc, h, -⟩ := hs; rw [h]; simp
      have o := outward_normalized (faceNormal_outward hg.convex hg.origin hb hl)
      have hc : P.bare.Corner a g := ⟨e, hs, ⟨a, b, some x, some y⟩, hed, by simp⟩
      have := hg.origin (faceNormal c.big P.bare g).normalized ((faceNormal c.big P.bare g).normalized.dot (P.bare.pos a)) fun u hu => by
        have := o.2 a hc u hu
        rw [dot_sub] at this
        linarith
      have h0 : (faceNormal c.big P.bare g).normalized.dot 0 = 0 := by simp [V3.dot]
      linarith
    have thr : 0 < 2 * c.eps * max 1 (√((P.bare.pos a).dot (P.bare.pos a))) := mul_pos (by linarith) (lt_max_of_lt_left one_pos)
    have n1 := neg x ((h4 x).2 (Or.inl rfl))
    have n2 := neg y ((h4 y).2 (Or.inr rfl))
    rw [if_neg (by push Not; exact ⟨by linarith, by linarith⟩)]
    split
    · exact ⟨_, rfl⟩
    · split <;> exact ⟨_, rfl⟩

theorem next_some (hx : l.Exact) (hg : Sound A B P) (hz : 0 < c.ceps) (hb : 0 ≤ c.big) (hn : IsNearest l P el) (htot : ∀ d, d ≠ 0 → sup d ≠ none) :
    nextSupport l c et sup P el ≠ .undef := by
  obtain ⟨pts, hp⟩ := points_of_near hn
  obtain ⟨h0, h3, -⟩ := points_len hp
  by_cases hv : ∃ i, el = .vertex i
  · obtain ⟨i, rfl⟩ := hv
    simp [nextSupport]
  push Not at hv
  have hdir : ∃ dir, epaDir l c P el = some dir ∧ dir ≠ 0 := by
    have unit : ∀ {v : V3 ℝ}, v ≠ 0 → v.normalized ≠ 0 := fun {v} h h' => by
      have := nrm_normalized h
      rw [h', nrm_zero] at this
      norm_num at this
    have hne : P.near l el = some (nearTo l 0 pts) := by simp [Poly.near, hp]
    unfold epaDir
    rw [hne]
    simp only
    by_cases hzz : isZero c.ceps (nearTo l 0 pts).1 = true
    · rw [if_pos hzz]
      have fin : ∀ f, P.faces f ≠ none → faceNormal c.big P.bare f ≠ 0 := fun f hl => (faceNormal_outward hg.convex hg.origin hb (f := f) hl).1
      cases el with
      | vertex i => exact absurd rfl (hv i)
      | edge e =>
        rcases he : P.edges e with _ | ⟨a, b, f', g'⟩
        · simp [Poly.points, he] at hp
        obtain ⟨x, y, h1, h2, -, h4⟩ := hg.closed.two e _ he
        simp only at h1 h2
        subst h1 h2
        have hl : P.faces x ≠ none := by obtain ⟨fc, h, -⟩ := (h4 x).2 (Or.inl rfl); rw [show P.faces x = some fc from h]; simp
        simp only [he, if_neg (fin x hl)]
        exact ⟨_, rfl, unit (fin x hl)⟩
      | face f =>
        have hl : P.faces f ≠ none := by
          intro h
          simp [Poly.points, Poly.firstEdges, h] at hp
        simp only [if_neg (fin f hl)]
        exact ⟨_, rfl, unit (fin f hl)⟩
    · rw [if_neg hzz]
      have w0 : (nearTo l 0 pts).2 ≠ 0 := by
        intro h
        obtain ⟨-, h2, -⟩ := nearTo_ok hx 0 h0 h3
        rw [sub_zero_dot, h] at h2
        apply hzz
        simp only [isZero, decide_eq_true_eq]
        rw [h2]
        simpa [V3.dot] using hz
      simp only [if_neg w0]
      exact ⟨_, rfl, unit w0⟩
  obtain ⟨dir, hdir, hd0⟩ := hdir
  obtain ⟨out, ho⟩ := Option.ne_none_iff_exists'.1 (htot dir hd0)
  cases el with
  | vertex i => exact absurd rfl (hv i)
  | edge e =>
    simp only [nextSupport, hp, hdir, ho]
    split
    · simp
    · split <;> simp
  | face f =>
    simp only [nextSupport, hp, hdir, ho]
    split
    · simp
    · split <;> simp

theorem loop_never_fails (hx : l.Exact) (ht : Tol c et) (hs : Supports A B sup) (htot : ∀ d, d ≠ 0 → sup d ≠ none) (hord : Lists order) (hg : Sound A B P0)
    (hn : ∀ P, Run l c et sup nearest order P0 P → IsNearest l P (nearest P)) (hr : Regular l c et sup nearest order P0) (n : ℕ) {P : Poly SP}
    (h : Run l c et sup nearest order P0 P) : epaLoop l c et sup nearest order n P ≠ .failed := by
  have ceps : 0 < c.ceps := lt_of_lt_of_le (by have := ht.eps; positivity) ht.ceps
  induction n generalizing P with
  | zero => simp [epaLoop]
  | succ n ih =>
    have hgP := h.sound hx ht hs hord hg hn hr
    obtain ⟨el, hf⟩ := feature_some hgP ht.eps ht.big (hn P h)
    have hn' := (feature_ok hx hgP (hn P h) hf).1
    rw [epaLoop]
    simp only [hf]
    rcases hne : nextSupport l c et sup P el with _ | p | _
    · simp
    · simp only
      obtain ⟨-, -, R, h1, -⟩ := step_ok hx ht hs hord hgP (hn P h) hf hne (hr _ _ _ h hf hne)
      simp only [h1]
      exact ih (.step h hf hne h1)
    · exact absurd hne (next_some hx hgP ceps ht.big hn' htot)

/-! ### The loop ends -/

/-- The cell of a point in a grid. -/
noncomputable def cell (et : ℝ) (p : V3 ℝ) : ℤ × ℤ × ℤ := (⌊2 * p.x / et⌋, ⌊2 * p.y / et⌋, ⌊2 * p.z / et⌋)

theorem same_floor {et x y : ℝ} (he : 0 < et) (h : ⌊2 * x / et⌋ = ⌊2 * y / et⌋) : (x - y) * (x - y) ≤ et * et / 4 := by
  have h1 := Int.abs_sub_lt_one_of_floor_eq_floor h
  have e : 2 * x / et - 2 * y / et = 2 * (x - y) / et := by ring
  rw [e, abs_lt] at h1
  obtain ⟨h2, h3⟩ := h1
  rw [lt_div_iff₀ he] at h2
  rw [div_lt_iff₀ he] at h3
  nlinarith

theorem same_cell {et : ℝ} (he : 0 < et) {p q : V3 ℝ} (h : cell et p = cell et q) : (p - q).nrm < et := by
  simp only [cell, Prod.mk.injEq] at h
  have h1 := same_floor he h.1
  have h2 := same_floor he h.2.1
  have h3 := same_floor he h.2.2
  unfold V3.nrm
  rw [Real.sqrt_lt' he]
  simp only [V3.dot, sub_x, sub_y, sub_z]
  nlinarith

/-- There are not many points with a distance between any two. -/
theorem packing {et R : ℝ} (he : 0 < et) : ∃ N : ℕ, ∀ L : List SP, (∀ p ∈ L, p.v.nrm ≤ R) → L.Pairwise (fun p q => et ≤ (q.v - p.v).nrm) → L.length ≤ N := by
  set M := ⌈2 * R / et⌉ + 1 with hM
  refine ⟨(Finset.Icc (-M) M ×ˢ Finset.Icc (-M) M ×ˢ Finset.Icc (-M) M).card, fun L hL hP => ?_⟩
  have nd : (L.map fun p => cell et p.v).Nodup := by
    rw [List.Nodup, List.pairwise_map]
    refine hP.imp fun {p q} h hc => ?_
    exact absurd (same_cell he hc.symm) (not_lt.2 h)
  have bound : ∀ x : ℝ, |x| ≤ R → ⌊2 * x / et⌋ ∈ Finset.Icc (-M) M := by
    intro x hx
    obtain ⟨h1, h2⟩ := abs_le.1 hx
    have u : 2 * x / et ≤ 2 * R / et := by gcongr
    have l : -(2 * R / et) ≤ 2 * x / et := by
      rw [← neg_div]
      gcongr
      linarith
    have c := Int.le_ceil (2 * R / et)
    rw [Finset.mem_Icc]
    constructor
    · rw [Int.le_floor, hM]
      push_cast
      linarith
    · have := Int.floor_le (2 * x / et)
      have h : (⌊2 * x / et⌋ : ℝ) ≤ (M : ℝ) := by
        rw [hM]; push_cast; linarith
      exact_mod_cast h
  have co : ∀ p : V3 ℝ, p.nrm ≤ R → |p.x| ≤ R ∧ |p.y| ≤ R ∧ |p.z| ≤ R := by
    intro p hp
    have key : ∀ t : ℝ, t * t ≤ p.dot p → |t| ≤ R := fun t ht => by
      refine le_trans ?_ hp
      unfold V3.nrm
      rw [← Real.sqrt_mul_self_eq_abs]
      exact Real.sqrt_le_sqrt ht
    refine ⟨key _ ?_, key _ ?_, key _ ?_⟩ <;> simp only [V3.dot] <;> nlinarith [mul_self_nonneg p.x, mul_self_nonneg p.y, mul_self_nonneg p.z]
  rw [← List.length_map (f := fun p : SP => cell et p.v), ← List.toFinset_card_of_nodup nd]
  refine Finset.card_le_card fun x hx => ?_
  rw [List.mem_toFinset, List.mem_map] at hx
  obtain ⟨p, hp, rfl⟩ := hx
  obtain ⟨k1, k2, k3⟩ := co p.v (hL p hp)
  simp only [cell, Finset.mem_product]
  exact ⟨bound _ k1, bound _ k2, bound _ k3⟩

theorem loop_fuel (hx : l.Exact) (ht : Tol c et) (hs : Supports A B sup) (hord : Lists order) (hg : Sound A B P0)
    (hn : ∀ P, Run l c et sup nearest order P0 P → IsNearest l P (nearest P)) (hr : Regular l c et sup nearest order P0) (n : ℕ) {P : Poly SP}
    (h : Run l c et sup nearest order P0 P) {L : List SP} (hL : P.verts = P0.verts ++ L) (hp : L.Pairwise fun p q => et ≤ (q.v - p.v).nrm)
    (hm : ∀ p ∈ L, Made A B p) (hfu : epaLoop l c et sup nearest order n P = .fuel) :
    ∃ L' : List SP, L'.length = L.length + n ∧ (L'.Pairwise fun p q => et ≤ (q.v - p.v).nrm) ∧ ∀ p ∈ L', Made A B p := by
  induction n generalizing P L with
  | zero => exact ⟨L, rfl, hp, hm⟩
  | succ n ih =>
    have hgP := h.sound hx ht hs hord hg hn hr
    rw [epaLoop] at hfu
    split at hfu
    · cases hfu
    rename_i el hf
    split at hfu
    · cases hfu
    · cases hfu
    · rename_i p hgo
      obtain ⟨k1, k2, R, k3, -, k5⟩ := step_ok hx ht hs hord hgP (hn P h) hf hgo (hr _ _ _ h hf hgo)
      rw [k3] at hfu
      simp only at hfu
      obtain ⟨L', j1, j2⟩ := ih (.step h hf hgo k3) (L := L ++ [p]) (by rw [k5, hL, List.append_assoc]) (by
        rw [List.pairwise_append]
        refine ⟨hp, by simp, fun a ha b hb => ?_⟩
        rw [List.mem_singleton.1 hb]
        exact k2 a (by rw [hL]; exact List.mem_append_right _ ha)) (by
        intro q hq
        rcases List.mem_append.1 hq with h | h
        · exact hm q h
        · rw [List.mem_singleton.1 h]; exact k1) hfu
      exact ⟨L', by simp at j1; omega, j2⟩

end Pt
end Fcl
