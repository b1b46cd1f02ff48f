import Verif.Props.PolytopeDepthEx

/-!
# C115: a touching contact that is missed
-/

namespace Fcl
namespace Pt

open V3 Ccd

/-- A shape: a pyramid under a face in the plane `z = 0`. -/
noncomputable def pyr : List SP := [mk ⟨2, -1, 0⟩, mk ⟨-1, 2, 0⟩, mk ⟨-1, -1, 0⟩, mk ⟨5, 5, 0⟩, mk ⟨0, 0, -1⟩]

/-- The points of the pyramid. -/
def pyramid : Set (V3 ℝ) := {x | HullOf (pyr.map SP.v) x}

theorem pyr_le {k : V3 ℝ} {m : ℝ} (h : ∀ p ∈ pyr, k.dot p.v ≤ m) {x : V3 ℝ} (hx : x ∈ pyramid) : k.dot x ≤ m := by
  have hx : HullOf (pyr.map SP.v) x := hx
  induction hx with
  | pt hp =>
    obtain ⟨q, hq, rfl⟩ := List.mem_map.1 hp
    exact h q hq
  | seg t h0 h1 k1 k2 i1 i2 =>
    rw [dot_add, dot_smul, dot_smul]
    have := mul_le_mul_of_nonneg_left (i1 k1) (by linarith : (0 : ℝ) ≤ 1 - t)
    have := mul_le_mul_of_nonneg_left (i2 k2) h0
    linarith

theorem pyr_support (d : V3 ℝ) : ∃ p ∈ pyr, ∀ x ∈ pyramid, d.dot x ≤ d.dot p.v := by
  have key : ∀ L : List SP, L ≠ [] → ∃ p ∈ L, ∀ q ∈ L, d.dot q.v ≤ d.dot p.v := by
    intro L hL
    induction L with
    | nil => exact absurd rfl hL
    | cons a L ih =>
      by_cases hn : L = []
      · subst hn; exact ⟨a, by simp, by simp⟩
      obtain ⟨p, hp, hq⟩ := ih hn
      by_cases hap : d.dot p.v ≤ d.dot a.v
      · refine ⟨a, by simp, fun q hqm => ?_⟩
        rcases List.mem_cons.1 hqm with rfl | h
        · exact le_refl _
        · exact (hq q h).trans hap
      · refine ⟨p, List.mem_cons_of_mem _ hp, fun q hqm => ?_⟩
        rcases List.mem_cons.1 hqm with rfl | h
        · exact (not_le.1 hap).le
        · exact hq q h
  obtain ⟨p, hp, hq⟩ := key pyr (by simp [pyr])
  exact ⟨p, hp, fun x hx => pyr_le hq hx⟩

/-- A support function: among the four vertices that are highest it takes the last. -/
noncomputable def pyrSup (d : V3 ℝ) : Option SP :=
  open Classical in if d.x = 0 ∧ d.y = 0 ∧ 0 < d.z then some (mk ⟨5, 5, 0⟩) else some (pyr_support d).choose

theorem pyr_made {p : SP} (h : p ∈ pyr) : Made pyramid origin p := by
  have e : p.v1 = p.v ∧ p.v2 = 0 := by
    simp only [pyr, List.mem_cons, List.not_mem_nil, or_false] at h
    rcases h with rfl | rfl | rfl | rfl | rfl <;> exact ⟨rfl, rfl⟩
  refine ⟨?_, e.2, ?_⟩
  · rw [e.1]; exact HullOf.pt (List.mem_map.2 ⟨p, h, rfl⟩)
  · rw [e.1, e.2]; v3

theorem pyr_diff {x : V3 ℝ} (h : x ∈ Diff pyramid origin) : x ∈ pyramid := by
  obtain ⟨a, ha, b, hb, rfl⟩ := h
  rw [show b = 0 from hb, show a - 0 = a by v3]
  exact ha

theorem pyrSup_supports : Supports pyramid origin pyrSup := by
  intro d p _ h
  unfold pyrSup at h
  split at h
  · rename_i hd
    cases h
    refine ⟨pyr_made (by simp [pyr]), fun x hx => pyr_le (fun q hq => ?_) (pyr_diff hx)⟩
    simp only [pyr, List.mem_cons, List.not_mem_nil, or_false] at hq
    rcases hq with rfl | rfl | rfl | rfl | rfl <;> simp only [mk, V3.dot, hd.1, hd.2.1] <;> linarith [hd.2.2]
  · cases h
    exact ⟨pyr_made (pyr_support d).choose_spec.1, fun x hx => (pyr_support d).choose_spec.2 x (pyr_diff hx)⟩

/-- The pyramid touches the origin, which is on the triangle of three of its vertices. The support point above the triangle is in its plane, but
not near to it, and further from it than the one below: it is taken, no touching contact is found, and the first polytope is a tetrahedron
without volume, for all tolerances. -/
theorem C115_violated_flat : ∃ (A B : Set (V3 ℝ)) (sup : V3 ℝ → Option SP) (a b k d : SP), ConvexSet A ∧ ConvexSet B ∧ Supports A B sup ∧ (∀ d, d ≠ 0 → sup d ≠ none) ∧
    (b.v - a.v).cross (k.v - a.v) ≠ 0 ∧ HullOf [a.v, b.v, k.v] 0 ∧ (∀ p ∈ [a, b, k], Made A B p) ∧
    (∀ p ∈ [a, b, k], ∃ n : V3 ℝ, n ≠ 0 ∧ ∀ x ∈ Diff A B, n.dot x ≤ n.dot p.v) ∧ (∀ tol : ℝ, 0 < tol → IsDepth A B tol 0) ∧
    ∀ (l : Lib) (c : Cfg) (two : SP → SP → Option Start), l.Exact → c.ceps ≤ 1 →
      ∃ P, firstPoly l c sup two [a, b, k] = some (.ok P) ∧ P.verts = [a, b, k, d] ∧ vol a.v b.v k.v d.v = 0 ∧ ¬Convex P.bare := by
  have hull0 : HullOf [(⟨2, -1, 0⟩ : V3 ℝ), ⟨-1, 2, 0⟩, ⟨-1, -1, 0⟩] 0 := by
    have h1 : HullOf [(⟨2, -1, 0⟩ : V3 ℝ), ⟨-1, 2, 0⟩, ⟨-1, -1, 0⟩] ((1 - (1 / 2 : ℝ)) • (⟨2, -1, 0⟩ : V3 ℝ) + (1 / 2 : ℝ) • ⟨-1, 2, 0⟩) :=
      .seg _ (by norm_num) (by norm_num) (.pt (by simp)) (.pt (by simp))
    have h3 := HullOf.seg (1 / 3) (by norm_num) (by norm_num) h1 (.pt (p := ⟨-1, -1, 0⟩) (by simp))
    convert h3 using 1
    apply V3.ext' <;> simp <;> norm_num
  have low : ∀ x ∈ pyramid, x.z ≤ 0 := by
    intro x hx
    have := pyr_le (k := ⟨0, 0, 1⟩) (m := 0) (fun q hq => by
      simp only [pyr, List.mem_cons, List.not_mem_nil, or_false] at hq
      rcases hq with rfl | rfl | rfl | rfl | rfl <;> norm_num [mk, V3.dot]) hx
    simpa [V3.dot] using this
  have dir : ((mk ⟨-1, 2, 0⟩).v - (mk ⟨2, -1, 0⟩).v).cross ((mk ⟨-1, -1, 0⟩).v - (mk ⟨2, -1, 0⟩).v) = (⟨0, 0, 9⟩ : V3 ℝ) := by
    apply V3.ext' <;> simp only [mk, V3.cross, sub_x, sub_y, sub_z] <;> norm_num
  have conv : ConvexSet pyramid := fun p hp q hq t h0 h1 => HullOf.seg t h0 h1 hp hq
  refine ⟨pyramid, origin, pyrSup, mk ⟨2, -1, 0⟩, mk ⟨-1, 2, 0⟩, mk ⟨-1, -1, 0⟩, mk ⟨5, 5, 0⟩, conv, ?_, pyrSup_supports, ?_, ?_, hull0, ?_, ?_, ?_, ?_⟩
  · intro p hp q hq t _ _
    rw [show p = 0 from hp, show q = 0 from hq]
    show _ = _
    v3
  · intro d _
    unfold pyrSup
    split <;> simp
  · rw [dir]
    intro h
    have := congrArg V3.z h
    norm_num at this
  · intro p hp
    refine pyr_made ?_
    simp only [pyr, List.mem_cons, List.not_mem_nil, or_false] at hp ⊢
    tauto
  · intro p hp
    refine ⟨⟨0, 0, 1⟩, fun h => by have := congrArg V3.z h; norm_num at this, fun x hx => ?_⟩
    have := low x (pyr_diff hx)
    simp only [List.mem_cons, List.not_mem_nil, or_false] at hp
    rcases hp with rfl | rfl | rfl <;> simpa [mk, V3.dot] using this
  · intro tol ht
    refine ⟨le_refl _, fun y hy => ?_, ⟨0, 0, -tol⟩, ?_, ?_⟩
    · have hy0 : y = 0 := nrm_eq_zero (le_antisymm hy (nrm_nonneg y))
      refine ⟨0, ?_, 0, rfl, by rw [hy0]; v3⟩
      refine hull_mono (fun p hp => ?_) hull0
      simp only [pyr, List.map_cons, List.map_nil, mk, List.mem_cons, List.not_mem_nil, or_false] at hp ⊢
      tauto
    · simp only [V3.nrm, V3.dot, zero_add, mul_zero]
      rw [neg_mul_neg, Real.sqrt_mul_self ht.le]
    · rintro ⟨p, hp, q, hq, e⟩
      rw [show q = 0 from hq] at e
      have := congrArg V3.z e
      simp only [add_z, zero_z] at this
      have := low p hp
      linarith
  · intro l c two hl hc
    have s1 : pyrSup ⟨0, 0, 9⟩ = some (mk ⟨5, 5, 0⟩) := by
      unfold pyrSup
      rw [if_pos (by norm_num)]
    have s2 : pyrSup (-⟨0, 0, 9⟩) = some (mk ⟨0, 0, -1⟩) := by
      have h : pyrSup (-⟨0, 0, 9⟩) = some (pyr_support (-⟨0, 0, 9⟩)).choose := by
        unfold pyrSup
        rw [if_neg]
        rintro ⟨-, -, h⟩
        norm_num at h
      rw [h]
      obtain ⟨h1, h2⟩ := (pyr_support (-⟨0, 0, 9⟩)).choose_spec
      set p := (pyr_support (-⟨0, 0, 9⟩)).choose
      have h3 := h2 ⟨0, 0, -1⟩ (HullOf.pt (by simp [pyr, mk]))
      simp only [V3.dot, neg_x, neg_y, neg_z] at h3
      simp only [pyr, List.mem_cons, List.not_mem_nil, or_false] at h1
      rcases h1 with h | h | h | h | h
      all_goals first
        | (exfalso; rw [h] at h3; norm_num [mk] at h3; done)
        | rw [h]
    have tri : ∀ x, HullOf [(mk ⟨2, -1, 0⟩).v, (mk ⟨-1, 2, 0⟩).v, (mk ⟨-1, -1, 0⟩).v] x → x.z = 0 ∧ x.x + x.y ≤ 1 := by
      intro x hx
      induction hx with
      | pt hp =>
        simp only [mk, List.mem_cons, List.not_mem_nil, or_false] at hp
        rcases hp with rfl | rfl | rfl <;> norm_num
      | seg t h0 h1 _ _ i1 i2 =>
        simp only [add_x, add_y, add_z, smul_x, smul_y, smul_z, i1.1, i2.1]
        refine ⟨by ring, ?_⟩
        nlinarith [i1.2, i2.2]
    have d1 : 2 ≤ (l.tri (mk ⟨5, 5, 0⟩).v (mk ⟨2, -1, 0⟩).v (mk ⟨-1, 2, 0⟩).v (mk ⟨-1, -1, 0⟩).v).1 := by
      rw [hl.tri_val]
      obtain ⟨-, h2⟩ := tri _ (hl.tri_mem (mk ⟨5, 5, 0⟩).v (mk ⟨2, -1, 0⟩).v (mk ⟨-1, 2, 0⟩).v (mk ⟨-1, -1, 0⟩).v)
      generalize (l.tri (mk ⟨5, 5, 0⟩).v (mk ⟨2, -1, 0⟩).v (mk ⟨-1, 2, 0⟩).v (mk ⟨-1, -1, 0⟩).v).2 = w at h2
      simp only [mk, V3.dot, sub_x, sub_y, sub_z]
      nlinarith [sq_nonneg (w.x - w.y), sq_nonneg w.z]
    have d2 : 1 ≤ (l.tri (mk ⟨0, 0, -1⟩).v (mk ⟨2, -1, 0⟩).v (mk ⟨-1, 2, 0⟩).v (mk ⟨-1, -1, 0⟩).v).1 := by
      rw [hl.tri_val]
      obtain ⟨h2, -⟩ := tri _ (hl.tri_mem (mk ⟨0, 0, -1⟩).v (mk ⟨2, -1, 0⟩).v (mk ⟨-1, 2, 0⟩).v (mk ⟨-1, -1, 0⟩).v)
      generalize (l.tri (mk ⟨0, 0, -1⟩).v (mk ⟨2, -1, 0⟩).v (mk ⟨-1, 2, 0⟩).v (mk ⟨-1, -1, 0⟩).v).2 = w at h2
      simp only [mk, V3.dot, sub_x, sub_y, sub_z, h2]
      nlinarith [sq_nonneg w.x, sq_nonneg w.y]
    have d3 : (l.tri (mk ⟨0, 0, -1⟩).v (mk ⟨2, -1, 0⟩).v (mk ⟨-1, 2, 0⟩).v (mk ⟨-1, -1, 0⟩).v).1 ≤ 1 := by
      have := hl.tri_min (mk ⟨0, 0, -1⟩).v (mk ⟨2, -1, 0⟩).v (mk ⟨-1, 2, 0⟩).v (mk ⟨-1, -1, 0⟩).v 0 hull0
      refine this.trans ?_
      simp only [mk, V3.dot, sub_x, sub_y, sub_z, zero_x, zero_y, zero_z]
      norm_num
    refine ⟨tetra true (mk ⟨2, -1, 0⟩) (mk ⟨-1, 2, 0⟩) (mk ⟨-1, -1, 0⟩) (mk ⟨5, 5, 0⟩), ?_, rfl, ?_, ?_⟩
    · simp only [firstPoly, start3, dir, s1, s2]
      rw [if_neg, if_pos]
      · rw [abs_of_nonneg (by linarith), abs_of_nonneg (by linarith)]
        linarith
      · rw [Bool.or_eq_true]
        simp only [isZero, decide_eq_true_eq]
        rw [abs_of_nonneg (by linarith), abs_of_nonneg (by linarith)]
        rintro (h | h) <;> linarith
    · simp only [vol, mk, V3.dot, V3.cross, sub_x, sub_y, sub_z]; norm_num
    · intro hcv
      obtain ⟨u, hu, h⟩ := hcv.full ⟨0, 0, 1⟩ 0 (fun h => by have := congrArg V3.z h; norm_num at this)
      have hu : u < 4 := hu
      apply h
      interval_cases u
      · rw [tetra_pos0]; simp [mk, V3.dot]
      · rw [tetra_pos1]; simp [mk, V3.dot]
      · rw [tetra_pos2]; simp [mk, V3.dot]
      · rw [tetra_pos3]; simp [mk, V3.dot]

/-- The hypotheses of `C115_three_partial` hold for the pyramid. -/
example {l : Lib} (hl : l.Exact) {c : Cfg} (hz : 0 < c.ceps) {two : SP → SP → Option Start} :
    ∃ (A B : Set (V3 ℝ)) (sup : V3 ℝ → Option SP) (a b k : SP), Supports A B sup ∧
    ((∃ P el q, firstPoly l c sup two [a, b, k] = some (.touching P el) ∧ depthOf l c P el = some (0, q) ∧ IsDepth A B (√c.ceps) 0) ∨
    ∃ P d, firstPoly l c sup two [a, b, k] = some (.ok P) ∧ P.verts = [a, b, k, d] ∧ (vol a.v b.v k.v d.v ≠ 0 → Sound A B P)) := by
  obtain ⟨A, B, sup, a, b, k, -, h1, h2, h3, h4, h5, h6, h7, h8, -⟩ := C115_violated_flat
  exact ⟨A, B, sup, a, b, k, h3, C115_three_partial hl hz h3 h4 h1 h2 h5 h6 h7 h8⟩

end Pt
end Fcl
