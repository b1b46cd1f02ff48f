import Verif.Props.PolytopeDepth

/-!
# C115: a run that expands a tetrahedron
-/

namespace Fcl
namespace Pt

open V3 Ccd

/-- There is a nearest element. -/
theorem some_nearest (l : Lib) {P : Poly SP} (hc : Closed P.bare) (h0 : P.verts ≠ []) : ∃ el, IsNearest l P el := by
  classical
  set S : Finset El := ((Finset.range P.verts.length).image El.vertex ∪ (Finset.range P.nextE).image El.edge ∪ (Finset.range P.nextF).image El.face).filter
    fun el => (P.near l el).isSome with hS
  have mem : ∀ el r, P.near l el = some r → el ∈ S := by
    intro el r h
    rw [hS, Finset.mem_filter]
    refine ⟨?_, by rw [h]; rfl⟩
    simp only [Finset.mem_union, Finset.mem_image, Finset.mem_range]
    cases el with
    | vertex i =>
      left; left
      refine ⟨i, ?_, rfl⟩
      by_contra hcon
      simp [Poly.near, Poly.points, List.getElem?_eq_none (not_lt.1 hcon)] at h
    | edge e =>
      left; right
      refine ⟨e, hc.newE e ?_, rfl⟩
      intro he
      have he : P.edges e = none := he
      simp [Poly.near, Poly.points, he] at h
    | face f =>
      right
      refine ⟨f, hc.newF f ?_, rfl⟩
      intro he
      have he : P.faces f = none := he
      simp [Poly.near, Poly.points, Poly.firstEdges, he] at h
  have ne : S.Nonempty := by
    obtain ⟨a, L, hL⟩ := List.exists_cons_of_ne_nil h0
    exact ⟨.vertex 0, mem (.vertex 0) (nearTo l 0 [a]) (by simp [Poly.near, Poly.points, hL])⟩
  obtain ⟨el, hel, hmin⟩ := Finset.exists_min_image S (fun el => ((P.near l el).getD (0, 0)).1) ne
  obtain ⟨r, hr⟩ := Option.isSome_iff_exists.1 (Finset.mem_filter.1 hel).2
  refine ⟨el, r, hr, fun el' r' h' => ?_⟩
  have := hmin el' (mem el' r' h')
  simpa [hr, h'] using this

/-- A nearest element. -/
noncomputable def pick (l : Lib) (P : Poly SP) : El :=
  open Classical in if h : ∃ el, IsNearest l P el then h.choose else .vertex 0

theorem pick_near (l : Lib) {P : Poly SP} (h : ∃ el, IsNearest l P el) : IsNearest l P (pick l P) := by
  unfold pick
  rw [dif_pos h]
  exact h.choose_spec

/-- A point as a difference from the origin. -/
noncomputable def mk (p : V3 ℝ) : SP := ⟨p, p, 0⟩

/-- The vertices of a regular tetrahedron. -/
noncomputable def tet4 : List SP := [mk ⟨1, 1, 1⟩, mk ⟨1, -1, -1⟩, mk ⟨-1, 1, -1⟩, mk ⟨-1, -1, 1⟩]

/-- A fifth point. -/
noncomputable def fifth : SP := mk ⟨-2, -2, -2⟩

/-- The tetrahedron. -/
noncomputable def tetra0 : Poly SP := tetra false (mk ⟨1, 1, 1⟩) (mk ⟨1, -1, -1⟩) (mk ⟨-1, 1, -1⟩) (mk ⟨-1, -1, 1⟩)

/-- A shape: the convex hull of the five points. -/
def five : Set (V3 ℝ) := {x | HullOf ((tet4 ++ [fifth]).map SP.v) x}

/-- Another: the origin. -/
def origin : Set (V3 ℝ) := {0}

/-- The tolerances. -/
noncomputable def cfg5 : Cfg := ⟨1 / 100, 1 / 100, 1, 1 / 100, 100⟩

theorem five_support (d : V3 ℝ) : ∃ p ∈ tet4 ++ [fifth], ∀ x ∈ five, d.dot x ≤ d.dot p.v := by
  have key : ∀ L : List SP, L ≠ [] → ∃ p ∈ L, ∀ q ∈ L, d.dot q.v ≤ d.dot p.v := by
    intro L hL
    induction L with
    | nil => exact absurd rfl hL
    | cons a L ih =>
      by_cases hn : L = []
      · subst hn; exact ⟨a, by simp, by simp⟩
      obtain ⟨p, hp, hq⟩ := ih hn
      by_cases hap : d.dot p.v ≤ d.dot a.v
      · refine ⟨a, by simp, fun q hqm => ?_⟩
        rcases List.mem_cons.1 hqm with rfl | h
        · exact le_refl _
        · exact (hq q h).trans hap
      · refine ⟨p, List.mem_cons_of_mem _ hp, fun q hqm => ?_⟩
        rcases List.mem_cons.1 hqm with rfl | h
        · exact (not_le.1 hap).le
        · exact hq q h
  obtain ⟨p, hp, hq⟩ := key (tet4 ++ [fifth]) (by simp)
  refine ⟨p, hp, fun x hx => ?_⟩
  have hx : HullOf ((tet4 ++ [fifth]).map SP.v) x := hx
  induction hx with
  | pt h =>
    obtain ⟨q, hqm, rfl⟩ := List.mem_map.1 h
    exact hq q hqm
  | seg t h0 h1 k1 k2 i1 i2 =>
    rw [dot_add, dot_smul, dot_smul]
    have := mul_le_mul_of_nonneg_left (i1 k1) (by linarith : (0 : ℝ) ≤ 1 - t)
    have := mul_le_mul_of_nonneg_left (i2 k2) h0
    linarith

/-- The support function. -/
noncomputable def sup5 (d : V3 ℝ) : Option SP := some (five_support d).choose

theorem diff_five {x : V3 ℝ} : x ∈ Diff five origin ↔ x ∈ five := by
  constructor
  · rintro ⟨a, ha, b, hb, rfl⟩
    rw [show b = 0 from hb, show a - 0 = a by v3]
    exact ha
  · intro h
    exact ⟨x, h, 0, rfl, by v3⟩

theorem made_five {p : SP} (h : p ∈ tet4 ++ [fifth]) : Made five origin p := by
  have e : p.v1 = p.v ∧ p.v2 = 0 := by
    simp only [tet4, fifth, List.cons_append, List.nil_append, List.mem_cons, List.not_mem_nil, or_false] at h
    rcases h with rfl | rfl | rfl | rfl | rfl <;> exact ⟨rfl, rfl⟩
  refine ⟨?_, e.2, ?_⟩
  · rw [e.1]; exact HullOf.pt (List.mem_map.2 ⟨p, h, rfl⟩)
  · rw [e.1, e.2]; v3

theorem sup5_mem {d : V3 ℝ} {p : SP} (h : sup5 d = some p) : p ∈ tet4 ++ [fifth] := by
  cases h; exact (five_support d).choose_spec.1

theorem sup5_supports : Supports five origin sup5 := by
  intro d p _ h
  refine ⟨made_five (sup5_mem h), fun x hx => ?_⟩
  cases h
  exact (five_support d).choose_spec.2 x (diff_five.1 hx)

theorem five_le {k : V3 ℝ} {m : ℝ} (h : ∀ p ∈ tet4 ++ [fifth], k.dot p.v ≤ m) {x : V3 ℝ} (hx : x ∈ five) : k.dot x ≤ m := by
  obtain ⟨p, hp, hq⟩ := five_support k
  exact (hq x hx).trans (h p hp)

theorem tetra0_sound : Sound five origin tetra0 := by
  refine tetra_sound ?_ ?_ (fun p hp => made_five (List.mem_append_left _ hp)) ?_
  · simp only [vol, mk, V3.dot, V3.cross, sub_x, sub_y, sub_z]; norm_num
  · have h1 : HullOf [(mk ⟨1, 1, 1⟩).v, (mk ⟨1, -1, -1⟩).v, (mk ⟨-1, 1, -1⟩).v, (mk ⟨-1, -1, 1⟩).v] ((1 - (1 / 2 : ℝ)) • (⟨1, 1, 1⟩ : V3 ℝ) + (1 / 2 : ℝ) • ⟨1, -1, -1⟩) :=
      .seg _ (by norm_num) (by norm_num) (.pt (by simp [mk])) (.pt (by simp [mk]))
    have h2 : HullOf [(mk ⟨1, 1, 1⟩).v, (mk ⟨1, -1, -1⟩).v, (mk ⟨-1, 1, -1⟩).v, (mk ⟨-1, -1, 1⟩).v] ((1 - (1 / 2 : ℝ)) • (⟨-1, 1, -1⟩ : V3 ℝ) + (1 / 2 : ℝ) • ⟨-1, -1, 1⟩) :=
      .seg _ (by norm_num) (by norm_num) (.pt (by simp [mk])) (.pt (by simp [mk]))
    have h3 := HullOf.seg (1 / 2) (by norm_num) (by norm_num) h1 h2
    convert h3 using 1
    apply V3.ext' <;> simp <;> norm_num
  · intro p hp
    refine ⟨p.v, ?_, fun x hx => five_le ?_ (diff_five.1 hx)⟩
    · simp only [List.mem_cons, List.not_mem_nil, or_false] at hp
      rcases hp with rfl | rfl | rfl | rfl <;> exact fun h => by have := congrArg V3.x h; norm_num [mk] at this
    · intro q hq
      simp only [List.mem_cons, List.not_mem_nil, or_false] at hp
      simp only [tet4, fifth, List.cons_append, List.nil_append, List.mem_cons, List.not_mem_nil, or_false] at hq
      rcases hp with rfl | rfl | rfl | rfl <;> rcases hq with rfl | rfl | rfl | rfl | rfl <;> norm_num [mk, V3.dot]

/-- The normals of the faces of the tetrahedron. -/
theorem tetra0_outward (f : ℕ) (hf : f < 4) : Outward tetra0.bare f (-tetra0.bare.pos (opp f)) := by
  have p0 : tetra0.bare.pos 0 = ⟨1, 1, 1⟩ := rfl
  have p1 : tetra0.bare.pos 1 = ⟨1, -1, -1⟩ := rfl
  have p2 : tetra0.bare.pos 2 = ⟨-1, 1, -1⟩ := rfl
  have p3 : tetra0.bare.pos 3 = ⟨-1, -1, 1⟩ := rfl
  refine ⟨fun h => ?_, fun w hw u hu => ?_⟩
  · have := congrArg V3.x h
    interval_cases f <;> simp [opp, p0, p1, p2, p3] at this
  · obtain ⟨-, hw4, hne⟩ := tetra_corner hw
    have hu : u < 4 := hu
    interval_cases f <;> interval_cases w <;> first
      | exact absurd rfl hne
      | (interval_cases u <;> simp only [opp, p0, p1, p2, p3, V3.dot, sub_x, sub_y, sub_z, neg_x, neg_y, neg_z] <;> norm_num)

theorem tetra0_fifth {f w : ℕ} (hw : tetra0.bare.Corner w f) :
    (-tetra0.bare.pos (opp f)).dot (fifth.v - tetra0.bare.pos w) = if f = 2 then 5 else -3 := by
  have p0 : tetra0.bare.pos 0 = ⟨1, 1, 1⟩ := rfl
  have p1 : tetra0.bare.pos 1 = ⟨1, -1, -1⟩ := rfl
  have p2 : tetra0.bare.pos 2 = ⟨-1, 1, -1⟩ := rfl
  have p3 : tetra0.bare.pos 3 = ⟨-1, -1, 1⟩ := rfl
  obtain ⟨hf, hw4, hne⟩ := tetra_corner hw
  interval_cases f <;> interval_cases w <;> first
    | exact absurd rfl hne
    | (simp only [opp, p0, p1, p2, p3, fifth, mk, V3.dot, sub_x, sub_y, sub_z, neg_x, neg_y, neg_z]; norm_num)

theorem not_flat {c : Cfg} {a b d : V3 ℝ} (h1 : coincident c a b = false) (h2 : coincident c a d = false) (hb : b - a ≠ 0) (hd : d - a ≠ 0)
    (h : c.eps * c.eps * ((b - a).dot (b - a) * (d - a).dot (d - a)) ≤ ((b - a).cross (d - a)).dot ((b - a).cross (d - a))) : flatTri c a b d = false := by
  unfold flatTri
  rw [h1, h2]
  simp only [Bool.or_self, Bool.false_eq_true, if_false, decide_eq_false_iff_not, not_lt]
  have e1 := nrm_smul_normalized (b - a)
  have e2 := nrm_smul_normalized (d - a)
  have n1 := dot_self_pos hb
  have n2 := dot_self_pos hd
  have m1 := nrm_mul_self (b - a)
  have m2 := nrm_mul_self (d - a)
  set u := (b - a).normalized
  set v := (d - a).normalized
  have e : ((b - a).cross (d - a)).dot ((b - a).cross (d - a)) = ((b - a).dot (b - a) * (d - a).dot (d - a)) * (u.cross v).dot (u.cross v) := by
    rw [← m1, ← m2]
    conv_lhs => rw [← e1, ← e2]
    simp only [V3.dot, V3.cross, smul_x, smul_y, smul_z]; ring
  rw [e, mul_comm (c.eps * c.eps)] at h
  exact le_of_mul_le_mul_left h (mul_pos n1 n2)

theorem tetra0_lines (e g : ℕ) (hf : flatEdge cfg5 tetra0 fifth.v e = true) (hs : tetra0.bare.Side e g) : ¬Sees tetra0.bare fifth.v g := by
  rintro ⟨n, hn, w, hw, h⟩
  obtain ⟨lg, le⟩ := tetra_side hs
  obtain ⟨fc, hl, hmem⟩ := id hs
  obtain ⟨t, ht, hsame⟩ := hn.same tetra0_sound.convex (by rw [hl]; simp) (tetra0_outward g lg)
  rw [hsame, tetra0_fifth hw] at h
  have g2 : g = 2 := by
    by_contra hne
    rw [if_neg hne] at h
    linarith
  subst g2
  cases hl
  have co : ∀ p : V3 ℝ, (p.x = 1 ∨ p.x = -1) → coincident cfg5 fifth.v p = false := by
    intro p hp
    rcases hp with hp | hp <;> simp [coincident, cfg5, fifth, mk, hp] <;> norm_num
  have nz : ∀ p : V3 ℝ, (p.x = 1 ∨ p.x = -1) → p - fifth.v ≠ 0 := by
    intro p hp h
    have := congrArg V3.x h
    rcases hp with hp | hp <;> (simp [fifth, mk, hp] at this; norm_num at this)
  simp only [Face.edges, List.mem_cons, List.not_mem_nil, or_false] at hmem
  rcases hmem with rfl | rfl | rfl
  · have e : flatEdge cfg5 tetra0 fifth.v 4 = flatTri cfg5 fifth.v ⟨-1, -1, 1⟩ ⟨1, -1, -1⟩ := rfl
    rw [e, not_flat (co _ (Or.inr rfl)) (co _ (Or.inl rfl)) (nz _ (Or.inr rfl)) (nz _ (Or.inl rfl)) (by
      simp only [cfg5, fifth, mk, V3.dot, V3.cross, sub_x, sub_y, sub_z]; norm_num)] at hf
    cases hf
  · have e : flatEdge cfg5 tetra0 fifth.v 5 = flatTri cfg5 fifth.v ⟨-1, -1, 1⟩ ⟨-1, 1, -1⟩ := rfl
    rw [e, not_flat (co _ (Or.inr rfl)) (co _ (Or.inr rfl)) (nz _ (Or.inr rfl)) (nz _ (Or.inr rfl)) (by
      simp only [cfg5, fifth, mk, V3.dot, V3.cross, sub_x, sub_y, sub_z]; norm_num)] at hf
    cases hf
  · have e : flatEdge cfg5 tetra0 fifth.v 1 = flatTri cfg5 fifth.v ⟨1, -1, -1⟩ ⟨-1, 1, -1⟩ := rfl
    rw [e, not_flat (co _ (Or.inl rfl)) (co _ (Or.inr rfl)) (nz _ (Or.inl rfl)) (nz _ (Or.inr rfl)) (by
      simp only [cfg5, fifth, mk, V3.dot, V3.cross, sub_x, sub_y, sub_z]; norm_num)] at hf
    cases hf

theorem tetra0_generic : Generic tetra0.bare fifth.v := by
  intro g n w hg hn hw
  obtain ⟨lg, -, -⟩ := tetra_corner hw
  obtain ⟨t, ht, hsame⟩ := hn.same tetra0_sound.convex hg (tetra0_outward g lg)
  rw [hsame, tetra0_fifth hw]
  refine mul_ne_zero ht.ne' ?_
  split <;> norm_num

theorem go_range {l : Lib} {c : Cfg} {et : ℝ} {sup : V3 ℝ → Option SP} {P : Poly SP} {el : El} {p : SP} (h : nextSupport l c et sup P el = .go p) :
    ∃ d, sup d = some p := by
  have key : (match P.points el, epaDir l c P el with
    | some pts, some dir =>
      match sup dir with
      | none => Next.undef
      | some out =>
        if out.v.dot dir - √(nearTo l 0 pts).1 < et then .stop
        else if √(nearTo l out.v pts).1 < et then .stop
        else .go out
    | _, _ => .undef) = .go p := by
    cases el with
    | vertex i => simp [nextSupport] at h
    | edge e => exact h
    | face f => exact h
  clear h
  split at key
  · rename_i dir _ _
    split at key
    · cases key
    · rename_i out ho
      split at key
      · cases key
      split at key
      · cases key
      cases key
      exact ⟨_, ho⟩
  · cases key

theorem tol5 : Tol cfg5 (1 / 10) := by
  constructor <;> norm_num [cfg5]

/-- The polytopes of the run. -/
theorem five_run {order : Finset ℕ → List ℕ} (ho : Lists order) {P : Poly SP} (h : Run exactLib cfg5 (1 / 10) sup5 (pick exactLib) order tetra0 P) :
    Sound five origin P ∧ (P = tetra0 ∨ ∀ p ∈ tet4 ++ [fifth], p ∈ P.verts) := by
  have near : ∀ {P : Poly SP}, Sound five origin P → IsNearest exactLib P (pick exactLib P) := by
    intro P hg
    refine pick_near _ (some_nearest _ hg.closed fun h0 => ?_)
    obtain ⟨u, hu, -⟩ := hg.convex.full ⟨1, 0, 0⟩ 0 (fun h => by have := congrArg V3.x h; norm_num at this)
    simp [Poly.bare, h0] at hu
  induction h with
  | start => exact ⟨tetra0_sound, Or.inl rfl⟩
  | step h1 h2 h3 h4 ih =>
    rename_i P R el p
    obtain ⟨hg, hv⟩ := ih
    obtain ⟨d, hd⟩ := go_range h3
    have hp := sup5_mem hd
    obtain ⟨hn', he⟩ := feature_ok exactLib_exact hg (near hg) h2
    obtain ⟨pts, hpts⟩ := points_of_near hn'
    obtain ⟨-, -, hfar, -⟩ := go_sees exactLib_exact hg tol5.big tol5.et sup5_supports hpts hn' (edge_zero exactLib_exact tol5 hpts he) h3
    have new : p ∉ P.verts := by
      intro hmem
      have := hfar p hmem
      rw [show p.v - p.v = 0 by v3, nrm_zero] at this
      norm_num at this
    rcases hv with rfl | hv
    · have pf : p = fifth := by
        rcases List.mem_append.1 hp with h | h
        · exact absurd h new
        · exact List.mem_singleton.1 h
      subst pf
      obtain ⟨-, -, R', k1, k2, k3⟩ := step_ok exactLib_exact tol5 sup5_supports ho hg (near hg) h2 h3 ⟨tetra0_generic, tetra0_lines⟩
      rw [h4] at k1
      cases k1
      exact ⟨k2, Or.inr fun q hq => by rw [k3]; exact hq⟩
    · exact absurd (hv p hp) new

/-- The hypotheses of the theorems of C115 hold for the convex hull of a tetrahedron and a fifth point, and the origin. -/
theorem five_setting {order : Finset ℕ → List ℕ} (ho : Lists order) : Setting five origin exactLib cfg5 (1 / 10) sup5 (pick exactLib) order tetra0 where
  exact := exactLib_exact
  tol := tol5
  supports := sup5_supports
  total d _ := by simp [sup5]
  lists := ho
  first := tetra0_sound
  near P h := by
    have hg := (five_run ho h).1
    refine pick_near _ (some_nearest _ hg.closed fun h0 => ?_)
    obtain ⟨u, hu, -⟩ := hg.convex.full ⟨1, 0, 0⟩ 0 (fun h => by have := congrArg V3.x h; norm_num at this)
    simp [Poly.bare, h0] at hu
  regular P el p h h2 h3 := by
    obtain ⟨hg, hv⟩ := five_run ho h
    obtain ⟨d, hd⟩ := go_range h3
    have hp := sup5_mem hd
    have hn : IsNearest exactLib P (pick exactLib P) := by
      refine pick_near _ (some_nearest _ hg.closed fun h0 => ?_)
      obtain ⟨u, hu, -⟩ := hg.convex.full ⟨1, 0, 0⟩ 0 (fun h => by have := congrArg V3.x h; norm_num at this)
      simp [Poly.bare, h0] at hu
    obtain ⟨hn', he⟩ := feature_ok exactLib_exact hg hn h2
    obtain ⟨pts, hpts⟩ := points_of_near hn'
    obtain ⟨-, -, hfar, -⟩ := go_sees exactLib_exact hg tol5.big tol5.et sup5_supports hpts hn' (edge_zero exactLib_exact tol5 hpts he) h3
    have new : p ∉ P.verts := by
      intro hmem
      have := hfar p hmem
      rw [show p.v - p.v = 0 by v3, nrm_zero] at this
      norm_num at this
    rcases hv with rfl | hv
    · have pf : p = fifth := by
        rcases List.mem_append.1 hp with h | h
        · exact absurd h new
        · exact List.mem_singleton.1 h
      subst pf
      exact ⟨tetra0_generic, tetra0_lines⟩
    · exact absurd (hv p hp) new

theorem five_convex : ConvexSet five := fun p hp q hq t h0 h1 => HullOf.seg t h0 h1 hp hq

/-- A case of `C115_ends_partial` and `C115_depth_partial`: the run ends with the depth. -/
example {order : Finset ℕ → List ℕ} (ho : Lists order) {R : ℝ} (hR : ∀ x ∈ Diff five origin, x.nrm ≤ R) :
    ∃ n P el d q, epaLoop exactLib cfg5 (1 / 10) sup5 (pick exactLib) order n tetra0 = .done P el ∧
      depthOf exactLib cfg5 P el = some (-d, q) ∧ IsDepth five origin (1 / 10) d := by
  obtain ⟨n, P, el, h⟩ := C115_ends_partial (five_setting ho) hR
  obtain ⟨d, q, h1, h2, -⟩ := C115_depth_partial (five_setting ho) five_convex (fun p hp q hq t _ _ => by rw [show p = 0 from hp, show q = 0 from hq]; show _ = _; v3) hR h
  exact ⟨n, P, el, d, q, h, h1, h2⟩

/-- It is bounded. -/
example : ∀ x ∈ Diff five origin, x.nrm ≤ 6 := by
  intro x hx
  by_cases h0 : x = 0
  · rw [h0, nrm_zero]; norm_num
  obtain ⟨p, hp, h⟩ := five_support x
  have h1 := h x (diff_five.1 hx)
  have h2 := dot_le x p.v
  rw [← nrm_mul_self] at h1
  have h3 := le_of_mul_le_mul_left (h1.trans h2) (nrm_pos h0)
  refine h3.trans ?_
  unfold V3.nrm
  rw [Real.sqrt_le_left (by norm_num)]
  simp only [tet4, fifth, List.cons_append, List.nil_append, List.mem_cons, List.not_mem_nil, or_false] at hp
  rcases hp with rfl | rfl | rfl | rfl | rfl <;> norm_num [mk, V3.dot]

/-- The fifth point is in front of a face. -/
example : Sees tetra0.bare fifth.v 2 :=
  ⟨_, tetra0_outward 2 (by norm_num), 1, tetra_corner_of (by norm_num) (by norm_num) (by decide), by
    rw [tetra0_fifth (tetra_corner_of (by norm_num) (by norm_num) (by decide))]; norm_num⟩

end Pt
end Fcl
