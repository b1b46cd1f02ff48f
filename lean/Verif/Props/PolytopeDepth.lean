import Verif.Ccd.EpaLoop
import Verif.Ccd.EpaTetra
import Verif.Props.CcdGjk

/-!
# C115: the penetration depth of the default solver
-/

namespace Fcl
namespace Pt

open V3 Ccd

variable {A B : Set (V3 ℝ)} {l : Lib} {c : Cfg} {et : ℝ} {sup : V3 ℝ → Option SP} {nearest : Poly SP → El} {order : Finset ℕ → List ℕ} {P0 : Poly SP}

/-- The expansion keeps that no two faces are in one plane, if the new point is in the plane of no face. So it can be repeated. -/
theorem C114_facets {P : Poly (V3 ℝ)} {flat : ℕ → Bool} {f : ℕ} {q : V3 ℝ} (hc : Convex P) (hfc : Facets P) (h0 : Within P 0) {big : ℝ} (hb : 0 ≤ big)
    (hfl : ∀ e g, flat e = true → P.Side e g → ¬Sees P q g) {order : Finset ℕ → List ℕ} (ho : Lists order) {fuel : ℕ} (hn : P.nextF ≤ fuel)
    (hl : P.faces f ≠ none) (hf : Sees P q f) (hq : ∀ g n w, P.faces g ≠ none → Outward P g n → P.Corner w g → n.dot (q - P.pos w) ≠ 0) :
    ∃ R, expandPolytope P (isOutside big P q) flat order fuel (.face f) q = .ok R ∧ R.verts = P.verts ++ [q] ∧ Convex R ∧ Facets R ∧ Within R 0 := by
  have hx : Exact P (isOutside big P q) flat q := ⟨fun g hg => isOutside_iff hc h0 hb hg q, hfl⟩
  obtain ⟨s, h1, h2⟩ := visiblePatch_ok (outside := isOutside big P q) (flat := flat) hc.closed hl hn
  have sh := expand_shape hc.closed h2 (ho _).1 (ho _).1 (ho _).1 (ho _).2 (ho _).2 (ho _).2
    (border_deg hc hx h2 hf (ho s.border).1 (ho s.border).2) q
  refine ⟨expand P (order s.visible) (order s.inner) (order s.border) q, ?_, sh.2.1, ?_, ?_, sh.2.within h0⟩
  · simp only [expandPolytope, startFace, Except.bind, h1, C114_sane hc.closed h2, if_true]
  · exact expand_convex hc hx h2 hf (fun g hg sg => patch_all hc hfc hx h2 hf hg sg) sh.1 sh.2
  · exact expand_facets hc hfc hx h2 hf hq sh.1 sh.2

/-- The shapes have a common point after the first is moved by `y`. -/
def Meet (A B : Set (V3 ℝ)) (y : V3 ℝ) : Prop := ∃ a ∈ A, ∃ b ∈ B, a + y = b

/-- What a penetration depth is: the shapes meet after every shorter move, and are apart after one that is longer by `tol`. -/
def IsDepth (A B : Set (V3 ℝ)) (tol d : ℝ) : Prop :=
  0 ≤ d ∧ (∀ y : V3 ℝ, y.nrm ≤ d → Meet A B y) ∧ ∃ y : V3 ℝ, y.nrm = d + tol ∧ ¬Meet A B y

/-- What is assumed of a run of the algorithm: the first polytope is convex, with the origin in it, and made of support points; the elements that
`ccdPtNearest` gives are nearest to the origin; the new vertices are in general position. -/
structure Setting (A B : Set (V3 ℝ)) (l : Lib) (c : Cfg) (et : ℝ) (sup : V3 ℝ → Option SP) (nearest : Poly SP → El) (order : Finset ℕ → List ℕ) (P0 : Poly SP) : Prop where
  exact : l.Exact
  tol : Tol c et
  supports : Supports A B sup
  total : ∀ d, d ≠ 0 → sup d ≠ none
  lists : Lists order
  first : Sound A B P0
  near : ∀ P, Run l c et sup nearest order P0 P → IsNearest l P (nearest P)
  regular : Regular l c et sup nearest order P0

/-- When the algorithm ends, the distance that it gives is minus the penetration depth up to `epa_tolerance`, and the points are points of the
shapes with this distance, up to rounding tolerances. -/
theorem C115_depth_partial (h : Setting A B l c et sup nearest order P0) (hA : ConvexSet A) (hB : ConvexSet B) {R : ℝ} (hR : ∀ x ∈ Diff A B, x.nrm ≤ R)
    {n : ℕ} {P : Poly SP} {el : El} (hd : epaLoop l c et sup nearest order n P0 = .done P el) :
    ∃ d q, depthOf l c P el = some (-d, q) ∧ IsDepth A B et d ∧ PtsOk c R A B d q := by
  obtain ⟨run, hf, hst⟩ := loop_done (.start) hd
  have hg := run.sound h.exact h.tol h.supports h.lists h.first h.near h.regular
  obtain ⟨hn, he⟩ := feature_ok h.exact hg (h.near P run) hf
  obtain ⟨pts, hp⟩ := points_of_near hn
  obtain ⟨h0, h3, hm⟩ := points_len hp
  obtain ⟨k1, k2, -⟩ := nearTo_ok h.exact 0 h0 h3
  have kn : √(nearTo l 0 pts).1 = (nearTo l 0 pts).2.nrm := by rw [k2, sub_zero_dot]; rfl
  have hq : ∃ q, closestPoints c pts (some (nearTo l 0 pts).2) = some q := by
    match pts, h0, h3 with
    | [a], _, _ => exact ⟨_, rfl⟩
    | [a, b], _, _ => exact ⟨_, rfl⟩
    | [a, b, d], _, _ => exact ⟨_, rfl⟩
  obtain ⟨q, hq⟩ := hq
  refine ⟨√(nearTo l 0 pts).1, q, by simp [depthOf, hp, hq], ⟨Real.sqrt_nonneg _, fun y hy => ?_, ?_⟩, ?_⟩
  · obtain ⟨-, far⟩ := hn.far h.exact hg hp
    obtain ⟨f, hl⟩ := hg.face
    have hh := ball_hull hg.convex hg.facets hg.origin (Real.sqrt_nonneg _) (f := f) hl far (p := -y) (by rwa [nrm_neg])
    have : -y ∈ Diff A B := by
      refine hull_sub (diff_isConvex hA hB) (fun p hp => ?_) hh
      obtain ⟨v, hv, rfl⟩ := List.mem_map.1 hp
      exact (hg.made v hv).diff
    obtain ⟨a, ha, b, hb, e⟩ := this
    refine ⟨a, ha, b, hb, ?_⟩
    have ex := congrArg V3.x e
    have ey := congrArg V3.y e
    have ez := congrArg V3.z e
    simp only [neg_x, neg_y, neg_z, sub_x, sub_y, sub_z] at ex ey ez
    apply V3.ext' <;> simp only [add_x, add_y, add_z] <;> linarith
  · obtain ⟨dir, hu, hlt⟩ := stop_bound h.exact hg h.tol.big h.tol.et h.supports hp hn (edge_zero h.exact h.tol hp he) hst
    have hpos : 0 ≤ √(nearTo l 0 pts).1 + et := add_nonneg (Real.sqrt_nonneg _) h.tol.et.le
    refine ⟨(-(√(nearTo l 0 pts).1 + et)) • dir, ?_, ?_⟩
    · rw [nrm_smul, hu, mul_one, abs_neg, abs_of_nonneg hpos]
    · rintro ⟨a, ha, b, hb, rfl⟩
      have := hlt _ ⟨a, ha, _, hb, rfl⟩
      have e : dir.dot (a - (a + (-(√(nearTo l 0 pts).1 + et)) • dir)) = (√(nearTo l 0 pts).1 + et) * dir.dot dir := by
        simp only [V3.dot, sub_x, sub_y, sub_z, add_x, add_y, add_z, smul_x, smul_y, smul_z]; ring
      have d1 : dir.dot dir = 1 := by rw [← nrm_mul_self, hu, mul_one]
      rw [e, d1, mul_one] at this
      exact lt_irrefl _ this
  · rw [kn]
    exact closestPoints_ok h.tol.eps hA hB hR ⟨fun p hp => hg.made p (hm p hp), h0, by omega⟩ h3 k1 hq

/-- No exception is thrown and no direction is undefined: not for an origin outside of the polytope, not for a vertex as the nearest element, and
not during the expansion. -/
theorem C115_no_exception_partial (h : Setting A B l c et sup nearest order P0) (n : ℕ) : epaLoop l c et sup nearest order n P0 ≠ .failed :=
  loop_never_fails h.exact h.tol h.supports h.total h.lists h.first h.near h.regular n .start

/-- The algorithm ends for bounded shapes, although its loop has no limit of iterations. -/
theorem C115_ends_partial (h : Setting A B l c et sup nearest order P0) {R : ℝ} (hR : ∀ x ∈ Diff A B, x.nrm ≤ R) :
    ∃ n P el, epaLoop l c et sup nearest order n P0 = .done P el := by
  obtain ⟨N, hN⟩ := packing (R := R) h.tol.et
  refine ⟨N + 1, ?_⟩
  rcases hl : epaLoop l c et sup nearest order (N + 1) P0 with ⟨P, el⟩ | _ | _
  · exact ⟨P, el, rfl⟩
  · exact absurd hl (C115_no_exception_partial h _)
  · obtain ⟨L, h1, h2, h3⟩ := loop_fuel h.exact h.tol h.supports h.lists h.first h.near h.regular (N + 1) .start (L := []) (by simp) List.Pairwise.nil (by simp) hl
    have := hN L (fun p hp => hR _ (h3 p hp).diff) h2
    simp at h1
    omega

/-- The first polytope for a simplex of four support points that are not in one plane, with the origin in it. Otherwise it is the one made from
three of them, with the origin on their triangle. -/
theorem C115_first (hl : l.Exact) (he : 0 < c.eps) {two : SP → SP → Option Start} {a b k d : SP} (hv : vol a.v b.v k.v d.v ≠ 0) (h0 : HullOf [a.v, b.v, k.v, d.v] 0)
    (hm : ∀ p ∈ [a, b, k, d], Made A B p) (hx : ∀ p ∈ [a, b, k, d], ∃ n : V3 ℝ, n ≠ 0 ∧ ∀ x ∈ Diff A B, n.dot x ≤ n.dot p.v) :
    (∃ P, firstPoly l c sup two [a, b, k, d] = some (.ok P) ∧ P.verts = [a, b, k, d] ∧ Sound A B P) ∨
    ∃ p q r : SP, (∀ s ∈ [p, q, r], s ∈ [a, b, k, d]) ∧ (∃ x, HullOf [p.v, q.v, r.v] x ∧ x.nrm < c.eps) ∧
      firstPoly l c sup two [a, b, k, d] = firstPoly l c sup two [p, q, r] := by
  have near : ∀ {x y z : V3 ℝ}, tiny c (l.tri 0 x y z).1 = true → ∃ w, HullOf [x, y, z] w ∧ w.nrm < c.eps := by
    intro x y z h
    obtain ⟨w, h1, h2⟩ := tiny_lt he hl h
    exact ⟨w, h1, by rwa [show w - 0 = w by v3] at h2⟩
  simp only [firstPoly]
  split_ifs with h1 h2 h3 h4
  · exact Or.inr ⟨a, b, k, by simp, near h1, rfl⟩
  · exact Or.inr ⟨a, k, d, by simp, near h2, rfl⟩
  · exact Or.inr ⟨a, b, d, by simp, near h3, rfl⟩
  · exact Or.inr ⟨b, k, d, by simp, near h4, rfl⟩
  · exact Or.inl ⟨_, rfl, rfl, tetra_sound hv h0 hm hx⟩

theorem hull_plane {n : V3 ℝ} {m : ℝ} {L : List (V3 ℝ)} (h : ∀ p ∈ L, n.dot p = m) {x : V3 ℝ} (hx : HullOf L x) : n.dot x = m := by
  induction hx with
  | pt hp => exact h _ hp
  | seg t _ _ _ _ i1 i2 => rw [dot_add, dot_smul, dot_smul, i1, i2]; ring

/-- The first polytope for a simplex of three support points with the origin on their triangle. When a touching contact is found the depth is zero
up to the tolerance of libccd, and zero is reported. Otherwise it is a tetrahedron with a further support point. It is a convex polytope with the
origin in it if this point is not in the plane of the triangle. -/
theorem C115_three_partial (hl : l.Exact) (hz : 0 < c.ceps) (hs : Supports A B sup) (ht : ∀ d, d ≠ 0 → sup d ≠ none) (hA : ConvexSet A) (hB : ConvexSet B) {two : SP → SP → Option Start} {a b k : SP}
    (hv : (b.v - a.v).cross (k.v - a.v) ≠ 0) (h0 : HullOf [a.v, b.v, k.v] 0)
    (hm : ∀ p ∈ [a, b, k], Made A B p) (hx : ∀ p ∈ [a, b, k], ∃ n : V3 ℝ, n ≠ 0 ∧ ∀ x ∈ Diff A B, n.dot x ≤ n.dot p.v) :
    (∃ P el q, firstPoly l c sup two [a, b, k] = some (.touching P el) ∧ depthOf l c P el = some (0, q) ∧ IsDepth A B (√c.ceps) 0) ∨
    ∃ P d, firstPoly l c sup two [a, b, k] = some (.ok P) ∧ P.verts = [a, b, k, d] ∧ (vol a.v b.v k.v d.v ≠ 0 → Sound A B P) := by
  set n := (b.v - a.v).cross (k.v - a.v) with hn
  have nb : n.dot b.v = n.dot a.v := by rw [hn]; simp only [V3.dot, V3.cross, sub_x, sub_y, sub_z]; ring
  have nk : n.dot k.v = n.dot a.v := by rw [hn]; simp only [V3.dot, V3.cross, sub_x, sub_y, sub_z]; ring
  have flat : ∀ x, HullOf [a.v, b.v, k.v] x → n.dot x = 0 := by
    have h1 : ∀ x, HullOf [a.v, b.v, k.v] x → n.dot x = n.dot a.v := fun x hx => hull_plane (by
      intro p hp
      simp only [List.mem_cons, List.not_mem_nil, or_false] at hp
      rcases hp with rfl | rfl | rfl
      · rfl
      · exact nb
      · exact nk) hx
    intro x hx
    rw [h1 x hx, ← h1 0 h0]
    simp [V3.dot]
  have n0' : -n ≠ 0 := fun h => hv (by
    have hx := congrArg V3.x h
    have hy := congrArg V3.y h
    have hz := congrArg V3.z h
    simp only [neg_x, neg_y, neg_z, zero_x, zero_y, zero_z] at hx hy hz
    apply V3.ext' <;> simp only [zero_x, zero_y, zero_z] <;> linarith)
  obtain ⟨d, hd⟩ := Option.ne_none_iff_exists'.1 (ht n hv)
  obtain ⟨d2, hd2⟩ := Option.ne_none_iff_exists'.1 (ht (-n) n0')
  have zero : ∀ {m : V3 ℝ} {e : SP}, m ≠ 0 → (∀ x, HullOf [a.v, b.v, k.v] x → m.dot x = 0) → sup m = some e → isZero c.ceps (l.tri e.v a.v b.v k.v).1 = true →
      IsDepth A B (√c.ceps) 0 := by
    intro m e m0 hfl he hzero
    obtain ⟨-, ext⟩ := hs m e m0 he
    simp only [isZero, decide_eq_true_eq] at hzero
    have t1 := hl.tri_mem e.v a.v b.v k.v
    have t2 := hl.tri_val e.v a.v b.v k.v
    set w := (l.tri e.v a.v b.v k.v).2
    have mp := nrm_pos m0
    have m1 : ∀ x, m.dot x = m.nrm * m.normalized.dot x := fun x => by
      conv_lhs => rw [← nrm_smul_normalized m]
      simp only [V3.dot, smul_x, smul_y, smul_z]; ring
    have h5 := dot_le m.normalized (e.v - w)
    rw [nrm_normalized m0, one_mul, dot_sub] at h5
    have h6 : (e.v - w).nrm < √c.ceps := by
      unfold V3.nrm
      refine Real.sqrt_lt_sqrt (dot_self_nonneg _) ?_
      have : (e.v - w).dot (e.v - w) = (l.tri e.v a.v b.v k.v).1 := by
        rw [t2]; simp only [V3.dot, sub_x, sub_y, sub_z]; ring
      rw [this]
      exact (le_abs_self _).trans_lt hzero
    have h7 : m.normalized.dot w = 0 := by
      have := hfl w t1
      rw [m1] at this
      exact (mul_eq_zero.1 this).resolve_left mp.ne'
    refine ⟨le_refl _, fun y hy => ?_, (-√c.ceps) • m.normalized, ?_, ?_⟩
    · have hy0 : y = 0 := nrm_eq_zero (le_antisymm hy (nrm_nonneg y))
      have : (0 : V3 ℝ) ∈ Diff A B := hull_sub (diff_isConvex hA hB) (fun p hp => by
        simp only [List.mem_cons, List.not_mem_nil, or_false] at hp
        rcases hp with rfl | rfl | rfl
        · exact (hm a (by simp)).diff
        · exact (hm b (by simp)).diff
        · exact (hm k (by simp)).diff) h0
      obtain ⟨p, hp, q, hq, e⟩ := this
      refine ⟨p, hp, q, hq, ?_⟩
      have ex := congrArg V3.x e
      have ey := congrArg V3.y e
      have ez := congrArg V3.z e
      simp only [zero_x, zero_y, zero_z, sub_x, sub_y, sub_z] at ex ey ez
      rw [hy0]
      apply V3.ext' <;> simp only [add_x, add_y, add_z, zero_x, zero_y, zero_z] <;> linarith
    · rw [nrm_smul, nrm_normalized m0, mul_one, abs_neg, abs_of_nonneg (Real.sqrt_nonneg _), zero_add]
    · rintro ⟨p, hp, q, hq, rfl⟩
      have h8 := ext _ ⟨p, hp, _, hq, rfl⟩
      rw [m1, m1] at h8
      have h9 := le_of_mul_le_mul_left h8 mp
      have e1 : m.normalized.dot (p - (p + (-√c.ceps) • m.normalized)) = √c.ceps * m.normalized.dot m.normalized := by
        simp only [V3.dot, sub_x, sub_y, sub_z, add_x, add_y, add_z, smul_x, smul_y, smul_z]; ring
      have d1 : m.normalized.dot m.normalized = 1 := by rw [← nrm_mul_self, nrm_normalized m0, mul_one]
      rw [e1, d1, mul_one] at h9
      linarith
  have flat' : ∀ x, HullOf [a.v, b.v, k.v] x → (-n).dot x = 0 := fun x hx => by
    have := flat x hx
    have e : (-n).dot x = -n.dot x := by simp only [V3.dot, neg_x, neg_y, neg_z]; ring
    rw [e, this, neg_zero]
  have snd : ∀ {m : V3 ℝ} {e : SP}, m ≠ 0 → sup m = some e → vol a.v b.v k.v e.v ≠ 0 → Sound A B (tetra true a b k e) := by
    intro m e m0 he hvol
    obtain ⟨hme, ext⟩ := hs m e m0 he
    have mono : HullOf [a.v, b.v, k.v, e.v] 0 := by
      refine hull_mono (fun p hp => ?_) h0
      simp only [List.mem_cons, List.not_mem_nil, or_false] at hp ⊢
      tauto
    refine tetra_sound hvol mono (fun p hp => ?_) fun p hp => ?_
    · simp only [List.mem_cons, List.not_mem_nil, or_false] at hp
      rcases hp with rfl | rfl | rfl | rfl
      · exact hm _ (by simp)
      · exact hm _ (by simp)
      · exact hm _ (by simp)
      · exact hme
    · simp only [List.mem_cons, List.not_mem_nil, or_false] at hp
      rcases hp with rfl | rfl | rfl | rfl
      · exact hx _ (by simp)
      · exact hx _ (by simp)
      · exact hx _ (by simp)
      · exact ⟨m, m0, ext⟩
  simp only [firstPoly, start3, ← hn, hd, hd2]
  split_ifs with h1 h2
  · left
    obtain ⟨k1, k2, k3⟩ := nearTo_ok hl 0 (pts := [a, b, k]) (by simp) (by simp)
    have z1 : (nearTo l 0 [a, b, k]).1 = 0 := by
      have := k3 0 h0
      rw [sub_zero_dot] at this
      refine le_antisymm (this.trans (by simp [V3.dot])) ?_
      rw [k2]
      exact dot_self_nonneg _
    have pts : (oneFace a b k).points (.face 0) = some [a, b, k] := by
      simp [Poly.points, Poly.firstEdges, oneFace, third]
    rw [Bool.or_eq_true] at h1
    refine ⟨_, _, (if flatTri c a.v b.v k.v then segmentPoints c (longest a b k).1 (longest a b k).2 (nearTo l 0 [a, b, k]).2 else trianglePoints a b k (nearTo l 0 [a, b, k]).2), rfl, ?_, ?_⟩
    · simp only [depthOf, pts, closestPoints, Option.map_some, z1, Real.sqrt_zero, neg_zero]
    · rcases h1 with h1 | h1
      · exact zero hv flat hd h1
      · exact zero n0' flat' hd2 h1
  · exact Or.inr ⟨_, d, rfl, rfl, snd hv hd⟩
  · exact Or.inr ⟨_, d2, rfl, rfl, snd n0' hd2⟩

/-- **C115.** The polytope handed out with a touching contact is the triangle of the three points: its only face has three
edges, every two of its three vertices are joined by one of them, and every edge has the face on one side and nothing on
the other. -/
theorem C115_touching_triangle (a b k : SP) : (oneFace a b k).verts = [a, b, k] ∧
    (∀ f, (oneFace a b k).faces f ≠ none ↔ f = 0) ∧
    ∀ i j, i < 3 → j < 3 → i ≠ j → ∃ F e E, (oneFace a b k).faces 0 = some F ∧ e ∈ F.edges ∧
      (oneFace a b k).edges e = some E ∧ (E.a = i ∧ E.b = j ∨ E.a = j ∧ E.b = i) ∧ E.f = some 0 ∧ E.g = none := by
  refine ⟨rfl, fun f => ?_, fun i j hi hj hij => ?_⟩
  · cases f <;> simp [oneFace]
  · have : i = 0 ∧ j = 1 ∨ i = 1 ∧ j = 0 ∨ i = 1 ∧ j = 2 ∨ i = 2 ∧ j = 1 ∨ i = 0 ∧ j = 2 ∨ i = 2 ∧ j = 0 := by omega
    rcases this with ⟨rfl, rfl⟩ | ⟨rfl, rfl⟩ | ⟨rfl, rfl⟩ | ⟨rfl, rfl⟩ | ⟨rfl, rfl⟩ | ⟨rfl, rfl⟩
    · exact ⟨_, 0, _, rfl, by simp [Face.edges], rfl, Or.inl ⟨rfl, rfl⟩, rfl, rfl⟩
    · exact ⟨_, 0, _, rfl, by simp [Face.edges], rfl, Or.inr ⟨rfl, rfl⟩, rfl, rfl⟩
    · exact ⟨_, 1, _, rfl, by simp [Face.edges], rfl, Or.inl ⟨rfl, rfl⟩, rfl, rfl⟩
    · exact ⟨_, 1, _, rfl, by simp [Face.edges], rfl, Or.inr ⟨rfl, rfl⟩, rfl, rfl⟩
    · exact ⟨_, 2, _, rfl, by simp [Face.edges], rfl, Or.inr ⟨rfl, rfl⟩, rfl, rfl⟩
    · exact ⟨_, 2, _, rfl, by simp [Face.edges], rfl, Or.inl ⟨rfl, rfl⟩, rfl, rfl⟩

end Pt
end Fcl
