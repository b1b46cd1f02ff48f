import Verif.Props.SignedDistance
import Verif.Props.PolytopeDepthEx

/-!
# C116: a tetrahedron around a point, and two plates side by side
-/

namespace Fcl
namespace Pt

open V3 Ccd

/-- The vertices of a tetrahedron around the origin. -/
def tvs : List (V3 ℝ) := [⟨2, 0, 0⟩, ⟨-2, 1, 0⟩, ⟨-1, -1, 1⟩, ⟨0, -1, -2⟩]

theorem tvs_support (d : V3 ℝ) : ∃ p ∈ tvs, ∀ q ∈ tvs, d.dot q ≤ d.dot p := by
  have key : ∀ L : List (V3 ℝ), L ≠ [] → ∃ p ∈ L, ∀ q ∈ L, d.dot q ≤ d.dot p := by
    intro L hL
    induction L with
    | nil => exact absurd rfl hL
    | cons a L ih =>
      by_cases hn : L = []
      · subst hn; exact ⟨a, by simp, by simp⟩
      obtain ⟨p, hp, hq⟩ := ih hn
      by_cases hap : d.dot p ≤ d.dot a
      · refine ⟨a, by simp, fun q hqm => ?_⟩
        rcases List.mem_cons.1 hqm with rfl | h
        · exact le_refl _
        · exact (hq q h).trans hap
      · refine ⟨p, List.mem_cons_of_mem _ hp, fun q hqm => ?_⟩
        rcases List.mem_cons.1 hqm with rfl | h
        · exact (not_le.1 hap).le
        · exact hq q h
  exact key tvs (by simp [tvs])

/-- Extreme vertices. -/
noncomputable def ext4 (d : V3 ℝ) : Option (V3 ℝ) := some (tvs_support d).choose

theorem ext4_is {d p : V3 ℝ} (h : ∀ q ∈ tvs, q = p ∨ d.dot q < d.dot p) (hp : p ∈ tvs) : ext4 d = some p := by
  obtain ⟨h1, h2⟩ := (tvs_support d).choose_spec
  rcases h _ h1 with h | h
  · exact congrArg some h
  · exact absurd (h2 p hp) (not_le.2 h)

theorem convex_le {k : V3 ℝ} {m : ℝ} {L : List (V3 ℝ)} (h : ∀ p ∈ L, k.dot p ≤ m) {x : V3 ℝ} (hx : HullOf L x) : k.dot x ≤ m := by
  induction hx with
  | pt hp => exact h _ hp
  | seg t h0 h1 _ _ i1 i2 =>
    rw [dot_add, dot_smul, dot_smul]
    have := mul_le_mul_of_nonneg_left i1 (by linarith : (0 : ℝ) ≤ 1 - t)
    have := mul_le_mul_of_nonneg_left i2 h0
    linarith

theorem tvs_ready : (Geo.convex tvs : Geo ℝ).Ready ext4 where
  bounded := trivial
  wf := trivial
  ellipsoid _ h := by cases h
  cone _ _ h := by cases h
  convex vs h d := by
    cases h
    obtain ⟨h1, h2⟩ := (tvs_support d).choose_spec
    exact ⟨_, rfl, HullOf.pt h1, fun q hq => convex_le h2 hq⟩

/-- The support function of the tetrahedron and a box without extent. -/
noncomputable def supT (e2 : V3 ℝ → Option (V3 ℝ)) : V3 ℝ → Option SP := shapesSupport cfg5 ext4 e2 (.convex tvs) Pose.id (.box ⟨0, 0, 0⟩) Pose.id

theorem supT_eq (e2 : V3 ℝ → Option (V3 ℝ)) (d : V3 ℝ) : supT e2 d = (ext4 d).map mk := by
  have h1 : ∀ v : V3 ℝ, (Pose.id : Pose ℝ).R.tr.mulVec v = v := fun v => M3.one_mulVec v
  have h2 : ∀ v : V3 ℝ, (Pose.id : Pose ℝ).apply v = v := Pose.id_apply
  simp only [supT, shapesSupport, pairSupport, Ccd.support, localSupport, h1, ext4, Option.map_some, Option.bind_some, h2, Ccd.box, Option.some.injEq]
  have : (⟨(if (-d).x ≥ 0 then 1 else -1) * (0 / 2), (if (-d).y ≥ 0 then 1 else -1) * (0 / 2), (if (-d).z ≥ 0 then 1 else -1) * (0 / 2)⟩ : V3 ℝ) = 0 := by
    apply V3.ext' <;> simp
  rw [this, mk]
  congr 1
  v3

theorem supT_is (e2 : V3 ℝ → Option (V3 ℝ)) {d p : V3 ℝ} (h : ∀ q ∈ tvs, q = p ∨ d.dot q < d.dot p) (hp : p ∈ tvs) : supT e2 d = some (mk p) := by
  rw [supT_eq, ext4_is h hp]; rfl

/-- A triangle in a plane that is not near to a point. -/
theorem tri_far {n P a b k : V3 ℝ} {m : ℝ} (ha : n.dot a = m) (hb : n.dot b = m) (hk : n.dot k = m) (h : 1 / 100 * (1 / 100) * n.dot n ≤ (m - n.dot P) * (m - n.dot P))
    (h0 : 0 < n.dot n) {x : V3 ℝ} (hx : HullOf [a, b, k] x) : 1 / 100 ≤ (x - P).nrm := by
  have e : n.dot x = m := hull_plane (by
    intro p hp
    simp only [List.mem_cons, List.not_mem_nil, or_false] at hp
    rcases hp with rfl | rfl | rfl <;> assumption) hx
  have h1 := dot_le n (x - P)
  have h2 := dot_le n (-(x - P))
  rw [nrm_neg] at h2
  have e3 : n.dot (-(x - P)) = -n.dot (x - P) := by simp only [V3.dot, neg_x, neg_y, neg_z]; ring
  have e4 : n.dot (x - P) = m - n.dot P := by rw [dot_sub, e]
  rw [e3, e4] at h2
  rw [e4] at h1
  have h3 : (m - n.dot P) * (m - n.dot P) ≤ n.dot n * ((x - P).nrm * (x - P).nrm) := by
    have : |m - n.dot P| ≤ n.nrm * (x - P).nrm := abs_le.2 ⟨by linarith, h1⟩
    have := mul_self_le_mul_self (abs_nonneg _) this
    rw [abs_mul_abs_self] at this
    rw [← nrm_mul_self n]
    nlinarith
  by_contra hlt
  push Not at hlt
  have h5 := nrm_nonneg (x - P)
  have h6 : (x - P).nrm * (x - P).nrm < 1 / 100 * (1 / 100) := by nlinarith
  have := mul_lt_mul_of_pos_left h6 h0
  nlinarith

theorem not_tiny {n P a b k : V3 ℝ} {m : ℝ} (ha : n.dot a = m) (hb : n.dot b = m) (hk : n.dot k = m) (h : 1 / 100 * (1 / 100) * n.dot n ≤ (m - n.dot P) * (m - n.dot P))
    (h0 : 0 < n.dot n) : ¬tiny cfg5 (exactLib.tri P a b k).1 = true := by
  intro ht
  obtain ⟨w, h1, h2⟩ := tiny_lt (by norm_num [cfg5]) exactLib_exact ht
  have := tri_far ha hb hk h h0 h1
  exact absurd this (not_le.2 h2)

/-- The search ends with the four vertices. -/
theorem tet_hit (e2 : V3 ℝ → Option (V3 ℝ)) : gjk exactLib cfg5 (supT e2) = .hit [mk ⟨2, 0, 0⟩, mk ⟨-2, 1, 0⟩, mk ⟨-1, -1, 1⟩, mk ⟨0, -1, -2⟩] := by
  have s0 : supT e2 ⟨1, 0, 0⟩ = some (mk ⟨2, 0, 0⟩) := supT_is e2 (by simp [tvs, V3.dot]; norm_num) (by simp [tvs])
  have s1 : supT e2 (-⟨2, 0, 0⟩) = some (mk ⟨-2, 1, 0⟩) := supT_is e2 (by simp [tvs, V3.dot]) (by simp [tvs])
  have s2 : supT e2 ⟨-1, -4, 0⟩ = some (mk ⟨-1, -1, 1⟩) := supT_is e2 (by simp [tvs, V3.dot]; norm_num) (by simp [tvs])
  have s3 : supT e2 ⟨-1, -4, -7⟩ = some (mk ⟨0, -1, -2⟩) := supT_is e2 (by simp [tvs, V3.dot]; norm_num) (by simp [tvs])
  have d2 : doSimplex exactLib cfg5 [mk ⟨2, 0, 0⟩, mk ⟨-2, 1, 0⟩] = .go [mk ⟨2, 0, 0⟩, mk ⟨-2, 1, 0⟩] ⟨-1, -4, 0⟩ := by
    simp only [doSimplex, doSimplex2]
    rw [if_neg (by norm_num [mk, V3.dot, V3.cross, cfg5])]
    congr 1
    have e : (mk ⟨2, 0, 0⟩).v.cross ((mk ⟨2, 0, 0⟩).v - (mk ⟨-2, 1, 0⟩).v) = (⟨0, 0, -2⟩ : V3 ℝ) := by
      apply V3.ext' <;> norm_num [mk, V3.cross]
    have e' : (⟨0, 0, -2⟩ : V3 ℝ).normalized = ⟨0, 0, -1⟩ := by
      have : √(4 : ℝ) = 2 := by rw [show (4 : ℝ) = 2 * 2 by norm_num]; exact Real.sqrt_mul_self (by norm_num)
      apply V3.ext' <;> norm_num [V3.normalized, V3.nrm, V3.dot, this]
    rw [e, e']
    apply V3.ext' <;> norm_num [mk, V3.cross]
  have d3 : doSimplex exactLib cfg5 [mk ⟨2, 0, 0⟩, mk ⟨-2, 1, 0⟩, mk ⟨-1, -1, 1⟩] =
      .go [mk ⟨2, 0, 0⟩, mk ⟨-2, 1, 0⟩, mk ⟨-1, -1, 1⟩] ⟨-1, -4, -7⟩ := by
    simp only [doSimplex, doSimplex3]
    rw [if_neg (not_tiny (n := ⟨-1, -4, -7⟩) (m := -2) (by norm_num [mk, V3.dot]) (by norm_num [mk, V3.dot]) (by norm_num [mk, V3.dot])
      (by norm_num [V3.dot]) (by norm_num [V3.dot]))]
    rw [if_neg (by simp [exactLib]), if_neg (by norm_num [upZero, isZero, mk, V3.dot, V3.cross, cfg5]), if_neg (by norm_num [upZero, isZero, mk, V3.dot, V3.cross, cfg5]),
      if_pos (by norm_num [upZero, isZero, mk, V3.dot, V3.cross, cfg5])]
    congr 1
    apply V3.ext' <;> norm_num [mk, V3.cross]
  have d4 : doSimplex exactLib cfg5 [mk ⟨2, 0, 0⟩, mk ⟨-2, 1, 0⟩, mk ⟨-1, -1, 1⟩, mk ⟨0, -1, -2⟩] =
      .inside [mk ⟨2, 0, 0⟩, mk ⟨-2, 1, 0⟩, mk ⟨-1, -1, 1⟩, mk ⟨0, -1, -2⟩] := by
    simp only [doSimplex, doSimplex4]
    rw [if_neg (not_tiny (n := ⟨-1, -4, -7⟩) (m := -2) (by norm_num [mk, V3.dot]) (by norm_num [mk, V3.dot]) (by norm_num [mk, V3.dot])
      (by norm_num [mk, V3.dot]) (by norm_num [V3.dot]))]
    rw [if_neg (not_tiny (n := ⟨-6, -4, -2⟩) (m := 8) (by norm_num [mk, V3.dot]) (by norm_num [mk, V3.dot]) (by norm_num [mk, V3.dot])
      (by norm_num [mk, V3.dot]) (by norm_num [V3.dot]))]
    rw [if_neg (not_tiny (n := ⟨2, 8, -6⟩) (m := 4) (by norm_num [mk, V3.dot]) (by norm_num [mk, V3.dot]) (by norm_num [mk, V3.dot])
      (by norm_num [mk, V3.dot]) (by norm_num [V3.dot]))]
    rw [if_neg (not_tiny (n := ⟨3, -8, 1⟩) (m := 6) (by norm_num [mk, V3.dot]) (by norm_num [mk, V3.dot]) (by norm_num [mk, V3.dot])
      (by norm_num [mk, V3.dot]) (by norm_num [V3.dot]))]
    rw [if_neg (not_tiny (n := ⟨-1, -4, -7⟩) (m := -2) (by norm_num [mk, V3.dot]) (by norm_num [mk, V3.dot]) (by norm_num [mk, V3.dot])
      (by norm_num [mk, V3.dot]) (by norm_num [V3.dot]))]
    rw [if_pos (by norm_num [sign, isZero, mk, V3.dot, V3.cross, cfg5])]
  unfold gjk
  rw [s0]
  show gjkLoop exactLib cfg5 _ (97 + 1 + 1 + 1) _ (-⟨2, 0, 0⟩) = _
  rw [gjkLoop, s1]
  simp only [List.cons_append, List.nil_append, d2]
  rw [if_neg (by norm_num [mk, V3.dot]), if_neg (by norm_num [isZero, V3.dot, cfg5]), gjkLoop, s2]
  simp only [List.cons_append, List.nil_append, d3]
  rw [if_neg (by norm_num [mk, V3.dot]), if_neg (by norm_num [isZero, V3.dot, cfg5]), gjkLoop, s3]
  simp only [List.cons_append, List.nil_append, d4]
  rw [if_neg (by norm_num [mk, V3.dot])]

theorem tet_in : HullOf [(⟨2, 0, 0⟩ : V3 ℝ), ⟨-2, 1, 0⟩, ⟨-1, -1, 1⟩, ⟨0, -1, -2⟩] 0 := by
  have h1 : HullOf [(⟨2, 0, 0⟩ : V3 ℝ), ⟨-2, 1, 0⟩, ⟨-1, -1, 1⟩, ⟨0, -1, -2⟩] ((1 - (3 / 7 : ℝ)) • (⟨2, 0, 0⟩ : V3 ℝ) + (3 / 7 : ℝ) • ⟨-2, 1, 0⟩) :=
    .seg _ (by norm_num) (by norm_num) (.pt (by simp)) (.pt (by simp))
  have h2 : HullOf [(⟨2, 0, 0⟩ : V3 ℝ), ⟨-2, 1, 0⟩, ⟨-1, -1, 1⟩, ⟨0, -1, -2⟩] ((1 - (1 / 3 : ℝ)) • (⟨-1, -1, 1⟩ : V3 ℝ) + (1 / 3 : ℝ) • ⟨0, -1, -2⟩) :=
    .seg _ (by norm_num) (by norm_num) (.pt (by simp)) (.pt (by simp))
  have h3 := HullOf.seg (3 / 10) (by norm_num) (by norm_num) h1 h2
  convert h3 using 1
  apply V3.ext' <;> simp <;> norm_num

theorem tolT : Tol cfg5 cfg5.tol := by constructor <;> norm_num [cfg5]

/-- The polytopes of the run: only the first. -/
theorem tet_run (e2 : V3 ℝ → Option (V3 ℝ)) {A B : Set (V3 ℝ)} (hs : Supports A B (supT e2)) {order : Finset ℕ → List ℕ}
    (h0 : Sound A B (tetra false (mk ⟨2, 0, 0⟩) (mk ⟨-2, 1, 0⟩) (mk ⟨-1, -1, 1⟩) (mk ⟨0, -1, -2⟩))) :
    IsNearest exactLib (tetra false (mk ⟨2, 0, 0⟩) (mk ⟨-2, 1, 0⟩) (mk ⟨-1, -1, 1⟩) (mk ⟨0, -1, -2⟩))
      (pick exactLib (tetra false (mk ⟨2, 0, 0⟩) (mk ⟨-2, 1, 0⟩) (mk ⟨-1, -1, 1⟩) (mk ⟨0, -1, -2⟩))) ∧
    (∀ el p, feature exactLib cfg5 (tetra false (mk ⟨2, 0, 0⟩) (mk ⟨-2, 1, 0⟩) (mk ⟨-1, -1, 1⟩) (mk ⟨0, -1, -2⟩))
      (pick exactLib (tetra false (mk ⟨2, 0, 0⟩) (mk ⟨-2, 1, 0⟩) (mk ⟨-1, -1, 1⟩) (mk ⟨0, -1, -2⟩))) = some el →
      nextSupport exactLib cfg5 cfg5.tol (supT e2) (tetra false (mk ⟨2, 0, 0⟩) (mk ⟨-2, 1, 0⟩) (mk ⟨-1, -1, 1⟩) (mk ⟨0, -1, -2⟩)) el ≠ .go p) ∧
    ∀ P, Run exactLib cfg5 cfg5.tol (supT e2) (pick exactLib) order (tetra false (mk ⟨2, 0, 0⟩) (mk ⟨-2, 1, 0⟩) (mk ⟨-1, -1, 1⟩) (mk ⟨0, -1, -2⟩)) P →
      P = tetra false (mk ⟨2, 0, 0⟩) (mk ⟨-2, 1, 0⟩) (mk ⟨-1, -1, 1⟩) (mk ⟨0, -1, -2⟩) := by
  have hv : (tetra false (mk ⟨2, 0, 0⟩) (mk ⟨-2, 1, 0⟩) (mk ⟨-1, -1, 1⟩) (mk ⟨0, -1, -2⟩)).verts = tvs.map mk := rfl
  set P0 := tetra false (mk ⟨2, 0, 0⟩) (mk ⟨-2, 1, 0⟩) (mk ⟨-1, -1, 1⟩) (mk ⟨0, -1, -2⟩)
  have near : IsNearest exactLib P0 (pick exactLib P0) := pick_near _ (some_nearest _ h0.closed (by rw [hv]; simp [tvs]))
  have no : ∀ el p, feature exactLib cfg5 P0 (pick exactLib P0) = some el → nextSupport exactLib cfg5 cfg5.tol (supT e2) P0 el ≠ .go p := by
    intro el p h2 h3
    obtain ⟨d, hd⟩ := go_range h3
    rw [supT_eq] at hd
    obtain ⟨hn', he⟩ := feature_ok exactLib_exact h0 near h2
    obtain ⟨pts, hpts⟩ := points_of_near hn'
    obtain ⟨-, -, hfar, -⟩ := go_sees exactLib_exact h0 tolT.big tolT.et hs hpts hn' (edge_zero exactLib_exact tolT hpts he) h3
    have hm : p ∈ P0.verts := by
      rw [hv]
      simp only [ext4, Option.map_some, Option.some.injEq] at hd
      rw [← hd]
      exact List.mem_map_of_mem (tvs_support d).choose_spec.1
    have := hfar p hm
    rw [show p.v - p.v = 0 by v3, nrm_zero] at this
    norm_num [cfg5] at this
  refine ⟨near, no, fun P h => ?_⟩
  induction h with
  | start => rfl
  | step h1 h2 h3 h4 ih =>
    subst ih
    exact absurd h3 (no _ _ h2)

/-- A case of `C116_shapes_depth_partial`: the tetrahedron and a point in it. -/
example (e2 : V3 ℝ → Option (V3 ℝ)) {two : SP → SP → Option Start} {order : Finset ℕ → List ℕ} (ho : Lists order) {R : ℝ}
    (hR : ∀ a ∈ Placed (Pose.id : Pose ℝ).R (Pose.id : Pose ℝ).t (Geo.convex tvs : Geo ℝ).pts,
      ∀ b ∈ Placed (Pose.id : Pose ℝ).R (Pose.id : Pose ℝ).t (Geo.box ⟨0, 0, 0⟩ : Geo ℝ).pts, a.dist b ≤ R) :
    ∃ n dep q, shapeSigned exactLib cfg5 ext4 e2 (.convex tvs) Pose.id (.box ⟨0, 0, 0⟩) Pose.id two (pick exactLib) order n = .answer (decide (dep = 0)) (-dep) (some q) ∧
      IsDepth (Placed (Pose.id : Pose ℝ).R (Pose.id : Pose ℝ).t (Geo.convex tvs : Geo ℝ).pts) (Placed (Pose.id : Pose ℝ).R (Pose.id : Pose ℝ).t (Geo.box ⟨0, 0, 0⟩ : Geo ℝ).pts)
        (1 / 100) dep := by
  have hb := box_ready e2 (s := ⟨0, 0, 0⟩) (by norm_num)
  have hz : Ccd.slack cfg5.ceps (.convex tvs) + Ccd.slack cfg5.ceps (.box ⟨0, 0, 0⟩) = 0 := by simp [Ccd.slack]
  have hvol : vol (mk ⟨2, 0, 0⟩).v (mk ⟨-2, 1, 0⟩).v (mk ⟨-1, -1, 1⟩).v (mk ⟨0, -1, -2⟩).v ≠ 0 := by
    simp only [vol, mk, V3.dot, V3.cross, sub_x, sub_y, sub_z]; norm_num
  have hs := shapes_supports (c := cfg5) (tf1 := Pose.id) (tf2 := Pose.id) (by norm_num [cfg5]) (by norm_num [cfg5]) Pose.id_rigid Pose.id_rigid tvs_ready hb
  rw [hz] at hs
  have hok := gjk_ok exactLib_exact (c := cfg5) (by norm_num [cfg5]) (by norm_num [cfg5]) (convex1 _ _) (convex1 _ _) hs
  have hit := tet_hit e2
  rw [show gjk exactLib cfg5 (shapesSupport cfg5 ext4 e2 (.convex tvs) Pose.id (.box ⟨0, 0, 0⟩) Pose.id) = _ from hit] at hok
  have snd := tetra_sound (s := false) hvol tet_in (fun p hp => hok.1.1 p hp) (gjk_far (by norm_num [cfg5]) (.of hs) hit)
  obtain ⟨near, no, run⟩ := tet_run e2 (order := order) (.of hs) snd
  obtain ⟨n, dep, q, h1, h2, -⟩ := C116_shapes_depth_partial (two := two) exactLib_exact tolT (by norm_num [cfg5]) Pose.id_rigid Pose.id_rigid tvs_ready hb hz hR ho hit hvol tet_in
    (by
      intro t ht x hx
      have e : x.nrm = (x - 0).nrm := by rw [show x - 0 = x by v3]
      rw [e]
      simp only [List.mem_cons, List.not_mem_nil, or_false] at ht
      rcases ht with rfl | rfl | rfl | rfl
      · exact tri_far (n := ⟨-1, -4, -7⟩) (m := -2) (by norm_num [mk, V3.dot]) (by norm_num [mk, V3.dot]) (by norm_num [mk, V3.dot]) (by norm_num [V3.dot]) (by norm_num [V3.dot]) hx
      · exact tri_far (n := ⟨3, -8, 1⟩) (m := 6) (by norm_num [mk, V3.dot]) (by norm_num [mk, V3.dot]) (by norm_num [mk, V3.dot]) (by norm_num [V3.dot]) (by norm_num [V3.dot]) hx
      · exact tri_far (n := ⟨2, 8, -6⟩) (m := 4) (by norm_num [mk, V3.dot]) (by norm_num [mk, V3.dot]) (by norm_num [mk, V3.dot]) (by norm_num [V3.dot]) (by norm_num [V3.dot]) hx
      · exact tri_far (n := ⟨-6, -4, -2⟩) (m := 8) (by norm_num [mk, V3.dot]) (by norm_num [mk, V3.dot]) (by norm_num [mk, V3.dot]) (by norm_num [V3.dot]) (by norm_num [V3.dot]) hx)
    (fun P hP => by rw [run P hP]; exact near)
    (fun P el p hP h2 h3 => by rw [run P hP] at h2 h3; exact absurd h3 (no _ _ h2))
  exact ⟨n, dep, q, h1, h2⟩

/-- A case of `C116_same` and `C116_positive`: two plates side by side. -/
example (e1 e2 : V3 ℝ → Option (V3 ℝ)) {two : SP → SP → Option Start} {nearest : Poly SP → El} {order : Finset ℕ → List ℕ} (n : ℕ) :=
  C116_same (two := two) (nearest := nearest) (order := order)
    (C80_violated_distance exactLib e1 e2 (c := cfg0) (by norm_num [cfg0]) (by norm_num [cfg0]) (by norm_num [cfg0])).1 n

end Pt
end Fcl
