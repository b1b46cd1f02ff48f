import Verif.Props.Polytope
import Mathlib.Data.Finset.Sort

/-!
# C114: a tetrahedron that is expanded, and a patch whose border touches itself
-/

namespace Fcl
namespace Pt

open V3

/-- A polytope from lists of its elements. -/
def Poly.of {V : Type*} (verts : List V) (E : List Edge) (F : List Face) : Poly V :=
  ⟨verts, fun e => E[e]?, fun f => F[f]?, E.length, F.length⟩

/-- Whether an edge joins two vertices. -/
def joinsB (E : List Edge) (e a b : ℕ) : Bool :=
  match E[e]? with
  | none => false
  | some ed => (ed.a == a && ed.b == b) || (ed.a == b && ed.b == a)

/-- A check of closedness for lists. -/
def closedB (n : ℕ) (E : List Edge) (F : List Face) : Bool :=
  F.all (fun fc => decide fc.edges.Nodup && (List.range n).any fun a => (List.range n).any fun b => (List.range n).any fun c =>
    a != b && b != c && c != a && joinsB E fc.e0 a b &&
      ((joinsB E fc.e1 b c && joinsB E fc.e2 c a) || (joinsB E fc.e1 a c && joinsB E fc.e2 c b))) &&
  (List.range E.length).all (fun e => match E[e]? with
    | none => true
    | some ed => decide (ed.a < n) && decide (ed.b < n) && match ed.f, ed.g with
      | some f, some g => decide (f < F.length) && decide (g < F.length) && f != g && (List.range F.length).all fun h => match F[h]? with
        | none => true
        | some fc => decide (e ∈ fc.edges) == (h == f || h == g)
      | _, _ => false)

theorem closed_of {V : Type*} {verts : List V} {E : List Edge} {F : List Face} (h : closedB verts.length E F = true) :
    Closed (Poly.of verts E F) := by
  simp only [closedB, Bool.and_eq_true, List.all_eq_true, List.any_eq_true, List.mem_range, decide_eq_true_eq, bne_iff_ne] at h
  obtain ⟨hF, hE⟩ := h
  have J : ∀ {e a b}, joinsB E e a b = true → (Poly.of verts E F).Joins e a b := by
    intro e a b h
    unfold joinsB at h
    split at h
    · cases h
    · rename_i ed hed
      simp only [Bool.or_eq_true, Bool.and_eq_true, beq_iff_eq] at h
      exact ⟨ed, hed, h⟩
  refine ⟨?_, ?_, ?_, ?_, ?_⟩
  · intro f fc hf
    have hm : fc ∈ F := List.mem_of_getElem? hf
    obtain ⟨nd, a, -, b, -, c, -, h⟩ := hF fc hm
    simp only [Bool.or_eq_true, Bool.and_eq_true] at h
    obtain ⟨⟨⟨⟨h1, h2⟩, h3⟩, h4⟩, h5⟩ := h
    exact ⟨nd, a, b, c, h1, h2, h3, J h4, h5.imp (fun h => ⟨J h.1, J h.2⟩) fun h => ⟨J h.1, J h.2⟩⟩
  · intro e ed he
    have hl : e < E.length := (List.getElem?_eq_some_iff.1 he).1
    have h := hE e hl
    have he' : E[e]? = some ed := he
    rw [he'] at h
    simp only [Bool.and_eq_true] at h
    obtain ⟨-, h⟩ := h
    split at h
    · rename_i f g hf hg
      simp only [Bool.and_eq_true, decide_eq_true_eq, bne_iff_ne, List.all_eq_true, List.mem_range] at h
      obtain ⟨⟨⟨lf, lg⟩, hne⟩, hall⟩ := h
      have key : ∀ k fc, F[k]? = some fc → (e ∈ fc.edges ↔ k = f ∨ k = g) := by
        intro k fc hk
        have := hall k (List.getElem?_eq_some_iff.1 hk).1
        rw [hk] at this
        simp only [beq_iff_eq] at this
        rw [← Bool.decide_iff (p := e ∈ fc.edges), this]
        simp
      refine ⟨f, g, hf, hg, hne, fun k => ⟨?_, ?_⟩⟩
      · rintro ⟨fc, h1, h2⟩
        exact (key k fc h1).1 h2
      · intro hk
        have lk : k < F.length := by rcases hk with rfl | rfl <;> assumption
        exact ⟨F[k], List.getElem?_eq_getElem lk, (key k F[k] (List.getElem?_eq_getElem lk)).2 hk⟩
    · cases h
  · intro e ed he
    have hl : e < E.length := (List.getElem?_eq_some_iff.1 he).1
    have h := hE e hl
    have he' : E[e]? = some ed := he
    rw [he'] at h
    simp only [Bool.and_eq_true, decide_eq_true_eq] at h
    exact h.1
  · intro e he
    by_contra hcon
    exact he (List.getElem?_eq_none (not_lt.1 hcon))
  · intro f hf
    by_contra hcon
    exact hf (List.getElem?_eq_none (not_lt.1 hcon))

/-! ### The border may touch itself -/

/-- The edges of an octahedron: `0`-`3` from its top `4` to the vertices `0`-`3` around, `4`-`7` around, `8`-`11` from its bottom `5`; the face
`i` is above the edge `4 + i`, the face `4 + i` below it. -/
def octE : List Edge :=
  [⟨4, 0, some 3, some 0⟩, ⟨4, 1, some 0, some 1⟩, ⟨4, 2, some 1, some 2⟩, ⟨4, 3, some 2, some 3⟩,
   ⟨0, 1, some 0, some 4⟩, ⟨1, 2, some 1, some 5⟩, ⟨2, 3, some 2, some 6⟩, ⟨3, 0, some 3, some 7⟩,
   ⟨5, 0, some 7, some 4⟩, ⟨5, 1, some 4, some 5⟩, ⟨5, 2, some 5, some 6⟩, ⟨5, 3, some 6, some 7⟩]

/-- Its faces. -/
def octF : List Face :=
  [⟨4, 0, 1⟩, ⟨5, 1, 2⟩, ⟨6, 2, 3⟩, ⟨7, 3, 0⟩, ⟨4, 8, 9⟩, ⟨5, 9, 10⟩, ⟨6, 10, 11⟩, ⟨7, 11, 8⟩]

/-- The octahedron, without positions. -/
def oct : Poly Unit := .of [(), (), (), (), (), ()] octE octF

/-- Answers of the test of visibility: two opposite faces at the top and the faces below that connect them. -/
def octSeen : ℕ → Bool := fun f => f ∈ [0, 2, 4, 5, 6]

/-- The patch of the octahedron. -/
def octPatch : Patch :=
  match visiblePatch oct octSeen (fun _ => false) 8 0 with
  | .ok s => s
  | .error _ => ⟨∅, ∅, ∅, ∅⟩

theorem oct_closed : Closed oct := closed_of (by decide +kernel)

/-- The condition on the border is needed: for tests that answer as no point in front of a convex polytope can, all four edges at a vertex are
border edges, and the expansion has an edge with four faces. -/
theorem C114_violated_pinched : Closed oct ∧ visiblePatch oct octSeen (fun _ => false) 8 0 = .ok octPatch ∧ sane oct octPatch = true ∧
    ∃ vis inn bor : List ℕ, vis.Nodup ∧ inn.Nodup ∧ bor.Nodup ∧ (∀ x, x ∈ vis ↔ x ∈ octPatch.visible) ∧
      (∀ x, x ∈ inn ↔ x ∈ octPatch.inner) ∧ (∀ x, x ∈ bor ↔ x ∈ octPatch.border) ∧ ¬Closed (expand oct vis inn bor ()) := by
  have hv : ([0, 2, 4, 5, 6] : List ℕ).toFinset = octPatch.visible := by decide +kernel
  have hi : ([4, 6, 9, 10] : List ℕ).toFinset = octPatch.inner := by decide +kernel
  have hb : ([0, 1, 2, 3, 5, 8, 11] : List ℕ).toFinset = octPatch.border := by decide +kernel
  refine ⟨oct_closed, rfl, by decide +kernel, [0, 2, 4, 5, 6], [4, 6, 9, 10], [0, 1, 2, 3, 5, 8, 11], by decide, by decide, by decide, ?_, ?_, ?_, ?_⟩
  · intro x; rw [← hv, List.mem_toFinset]
  · intro x; rw [← hi, List.mem_toFinset]
  · intro x; rw [← hb, List.mem_toFinset]
  · intro hc
    set R := expand oct [0, 2, 4, 5, 6] [4, 6, 9, 10] [0, 1, 2, 3, 5, 8, 11] () with hR
    have e8 : R.faces 8 = some ⟨0, 12, 13⟩ := by decide +kernel
    have e9 : R.faces 9 = some ⟨1, 12, 14⟩ := by decide +kernel
    have e10 : R.faces 10 = some ⟨2, 12, 15⟩ := by decide +kernel
    have s8 : R.Side 12 8 := ⟨_, e8, by simp [Face.edges]⟩
    have s9 : R.Side 12 9 := ⟨_, e9, by simp [Face.edges]⟩
    have s10 : R.Side 12 10 := ⟨_, e10, by simp [Face.edges]⟩
    obtain ⟨ed, hed⟩ := hc.live s8
    obtain ⟨x, y, -, -, -, h⟩ := hc.two 12 ed hed
    have := (h 8).1 s8
    have := (h 9).1 s9
    have := (h 10).1 s10
    omega

/-! ### A tetrahedron -/

/-- The edges of a tetrahedron; the face `i` is opposite to the vertex `i`. -/
def tetE : List Edge :=
  [⟨0, 1, some 2, some 3⟩, ⟨0, 2, some 1, some 3⟩, ⟨0, 3, some 1, some 2⟩, ⟨1, 2, some 0, some 3⟩, ⟨1, 3, some 0, some 2⟩, ⟨2, 3, some 0, some 1⟩]

/-- Its faces. -/
def tetF : List Face := [⟨3, 5, 4⟩, ⟨1, 5, 2⟩, ⟨0, 4, 2⟩, ⟨0, 3, 1⟩]

/-- A regular tetrahedron around the origin. -/
noncomputable def tet : Poly (V3 ℝ) := .of [⟨1, 1, 1⟩, ⟨1, -1, -1⟩, ⟨-1, 1, -1⟩, ⟨-1, -1, 1⟩] tetE tetF

theorem tet_pos0 : tet.pos 0 = ⟨1, 1, 1⟩ := rfl
theorem tet_pos1 : tet.pos 1 = ⟨1, -1, -1⟩ := rfl
theorem tet_pos2 : tet.pos 2 = ⟨-1, 1, -1⟩ := rfl
theorem tet_pos3 : tet.pos 3 = ⟨-1, -1, 1⟩ := rfl

theorem tet_closed : Closed tet := closed_of (by decide +kernel)

theorem tet_end {w e : ℕ} (h : tet.End w e) : w < 4 := tet_closed.end_lt h

theorem tet_side {e f : ℕ} (h : tet.Side e f) : f < 4 ∧ e < 6 := by
  obtain ⟨fc, h1, h2⟩ := h
  have hf : f < 4 := (List.getElem?_eq_some_iff.1 h1).1
  refine ⟨hf, ?_⟩
  interval_cases f <;> (cases h1; simp [Face.edges] at h2; omega)

theorem tet_corner {w f : ℕ} (h : tet.Corner w f) : f < 4 ∧ w < 4 ∧ w ≠ f := by
  obtain ⟨e, hs, he⟩ := h
  obtain ⟨hf, hl⟩ := tet_side hs
  refine ⟨hf, tet_end he, ?_⟩
  obtain ⟨fc, h1, h2⟩ := hs
  obtain ⟨ed, h3, h4⟩ := he
  interval_cases f <;> cases h1 <;> simp only [Face.edges, List.mem_cons, List.not_mem_nil, or_false] at h2 <;>
    rcases h2 with rfl | rfl | rfl <;> cases h3 <;> simp only at h4 <;> omega

theorem tet_corner_of {w f : ℕ} (hf : f < 4) (hw : w < 4) (h : w ≠ f) : tet.Corner w f := by
  have mk : ∀ {e f w : ℕ} (fc : Face) (ed : Edge), tet.faces f = some fc → e ∈ fc.edges → tet.edges e = some ed → (ed.a = w ∨ ed.b = w) → tet.Corner w f :=
    fun fc ed h1 h2 h3 h4 => ⟨_, ⟨fc, h1, h2⟩, ed, h3, h4⟩
  interval_cases f <;> interval_cases w <;> first
    | exact absurd rfl h
    | (refine mk (e := 3) _ _ rfl ?_ rfl ?_ <;> decide)
    | (refine mk (e := 5) _ _ rfl ?_ rfl ?_ <;> decide)
    | (refine mk (e := 4) _ _ rfl ?_ rfl ?_ <;> decide)
    | (refine mk (e := 1) _ _ rfl ?_ rfl ?_ <;> decide)
    | (refine mk (e := 2) _ _ rfl ?_ rfl ?_ <;> decide)
    | (refine mk (e := 0) _ _ rfl ?_ rfl ?_ <;> decide)

theorem tet_joins {e w u : ℕ} (h : tet.Joins e w u) : w < 4 ∧ u < 4 ∧ w ≠ u ∧ ∀ e', tet.Joins e' w u → e = e' := by
  have hw := tet_end h.left
  have hu := tet_end h.symm.left
  refine ⟨hw, hu, ?_, ?_⟩
  · rintro rfl
    obtain ⟨ed, h1, h2⟩ := h
    apply tet_closed.distinct h1
    rcases h2 with ⟨h2, h3⟩ | ⟨h2, h3⟩ <;> rw [h2, h3]
  · rintro e' ⟨ed', k1, k2⟩
    obtain ⟨ed, h1, h2⟩ := h
    have l1 : e < 6 := (List.getElem?_eq_some_iff.1 h1).1
    have l2 : e' < 6 := (List.getElem?_eq_some_iff.1 k1).1
    interval_cases e <;> interval_cases e' <;> first | rfl | (cases h1; cases k1; simp only at h2 k2; omega)

theorem tet_full (k w : V3 ℝ) (hk : k ≠ 0) : ∃ u < tet.verts.length, k.dot (tet.pos u - w) ≠ 0 := by
  by_contra hcon
  push Not at hcon
  have h0 := hcon 0 (by decide)
  have h1 := hcon 1 (by decide)
  have h2 := hcon 2 (by decide)
  have h3 := hcon 3 (by decide)
  rw [tet_pos0] at h0
  rw [tet_pos1] at h1
  rw [tet_pos2] at h2
  rw [tet_pos3] at h3
  simp only [dot, sub_x, sub_y, sub_z] at h0 h1 h2 h3
  apply hk
  apply V3.ext' <;> simp only [zero_x, zero_y, zero_z] <;> linarith

/-- The normals of the faces. -/
theorem tet_outward (f : ℕ) (hf : f < 4) : Outward tet f (-tet.pos f) := by
  refine ⟨fun h => ?_, fun w hw u hu => ?_⟩
  · have := congrArg V3.x h
    interval_cases f <;> simp [tet_pos0, tet_pos1, tet_pos2, tet_pos3] at this
  · obtain ⟨-, hw4, hne⟩ := tet_corner hw
    have hu : u < 4 := hu
    interval_cases f <;> interval_cases w <;> first
      | exact absurd rfl hne
      | (interval_cases u <;> simp only [tet_pos0, tet_pos1, tet_pos2, tet_pos3, dot, sub_x, sub_y, sub_z, neg_x, neg_y, neg_z] <;> norm_num)

theorem tet_convex : Convex tet := by
  refine ⟨tet_closed, ?_, ?_, ?_, tet_full⟩
  · intro f hf
    exact ⟨_, tet_outward f (tet_closed.newF f hf)⟩
  · intro e e' w w' hw hw' h
    have l1 := tet_end hw
    have l2 := tet_end hw'
    have hx := congrArg V3.x h
    have hy := congrArg V3.y h
    interval_cases w <;> interval_cases w' <;> first
      | rfl
      | (exfalso; simp only [tet_pos0, tet_pos1, tet_pos2, tet_pos3] at hx hy; linarith)
  · intro e e' w u u' h h' t ht heq
    obtain ⟨lw, lu, n1, un⟩ := tet_joins h
    obtain ⟨-, lu', n2, -⟩ := tet_joins h'
    by_cases huu : u = u'
    · subst huu
      exact un e' h'
    exfalso
    have hx := congrArg V3.x heq
    have hy := congrArg V3.y heq
    have hz := congrArg V3.z heq
    simp only [sub_x, sub_y, sub_z, smul_x, smul_y, smul_z] at hx hy hz
    clear heq h h' un
    interval_cases w <;> interval_cases u <;> first
      | exact n1 rfl
      | (interval_cases u' <;> first
          | exact n2 rfl
          | exact huu rfl
          | (simp only [tet_pos0, tet_pos1, tet_pos2, tet_pos3] at hx hy hz; linarith))

theorem tet_facets : Facets tet := by
  intro f g n hf hg h1 h2
  by_contra hne
  have lf : f < 4 := tet_closed.newF f hf
  have lg : g < 4 := tet_closed.newF g hg
  obtain ⟨u, hu, h⟩ := tet_full n (tet.pos 0) h1.1
  have all : ∀ w < 4, ∀ u < 4, n.dot (tet.pos u - tet.pos w) ≤ 0 := by
    intro w hw u hu
    by_cases hwf : w = f
    · exact h2.2 w (tet_corner_of lg hw (fun h => hne (hwf.symm.trans h))) u hu
    · exact h1.2 w (tet_corner_of lf hw hwf) u hu
  have a := all 0 (by norm_num) u hu
  have b := all u hu 0 (by norm_num)
  rw [dot_sub] at *
  exact h (by linarith)

theorem tet_within : Within tet 0 := by
  intro k c h
  have h0 := h 0 (by decide)
  have h1 := h 1 (by decide)
  have h2 := h 2 (by decide)
  have h3 := h 3 (by decide)
  rw [tet_pos0] at h0
  rw [tet_pos1] at h1
  rw [tet_pos2] at h2
  rw [tet_pos3] at h3
  simp only [dot, zero_x, zero_y, zero_z] at *
  linarith

/-- A case of `C114_convex_partial`: the tetrahedron and a point in front of its first face. -/
example {order : Finset ℕ → List ℕ} (ho : Lists order) : ∃ R, expandPolytope tet (isOutside 1 tet ⟨-2, -2, -2⟩) (fun _ => false) order 4 (.face 0) ⟨-2, -2, -2⟩ = .ok R ∧
    R.verts = tet.verts ++ [⟨-2, -2, -2⟩] ∧ Convex R ∧ Within R 0 :=
  C114_convex_partial tet_convex tet_facets tet_within zero_le_one (by simp) ho le_rfl (by simp [tet, Poly.of, tetF])
    ⟨_, tet_outward 0 (by norm_num), 1, tet_corner_of (by norm_num) (by norm_num) (by norm_num), by
      rw [tet_pos0, tet_pos1]; simp only [dot, sub_x, sub_y, sub_z, neg_x, neg_y, neg_z]; norm_num⟩

/-- There is an order. -/
example : Lists fun S => S.sort (· ≤ ·) := fun S => ⟨Finset.sort_nodup _ _, fun x => Finset.mem_sort _⟩

end Pt
end Fcl
