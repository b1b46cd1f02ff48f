import Verif.BVH.MeshSpec
import Verif.BVH.RefitLemmas
import Verif.Props.KDOP
import Verif.Props.AABB
import Verif.Props.Traversal
import Mathlib.Tactic.FieldSimp
import Mathlib.Tactic.Positivity
import Mathlib.Tactic.LinearCombination

/-! # Lemmas on meshes -/

namespace Fcl
set_option linter.unusedSectionVars false
variable {K V : Type*} [Field K] [LinearOrder K] [IsStrictOrderedRing K]

theorem HullOf.subset {l : List (V3 K)} {S : Set (V3 K)} (h1 : ∀ p ∈ l, p ∈ S)
    (h2 : ∀ p q, p ∈ S → q ∈ S → ∀ t : K, 0 ≤ t → t ≤ 1 → (1 - t) • p + t • q ∈ S) {x : V3 K} (hx : HullOf l x) :
    x ∈ S := by
  induction hx with
  | pt h => exact h1 _ h
  | seg t h0 h1 _ _ ihp ihq => exact h2 _ _ ihp ihq t h0 h1

/-- The hull of three points is the triangle. -/
theorem hull_triangle (a b c x : V3 K) : HullOf [a, b, c] x ↔
    ∃ u v w : K, 0 ≤ u ∧ 0 ≤ v ∧ 0 ≤ w ∧ u + v + w = 1 ∧ x = u • a + v • b + w • c := by
  constructor
  · intro h
    induction h with
    | @pt p hp =>
      simp only [List.mem_cons, List.not_mem_nil, or_false] at hp
      rcases hp with rfl | rfl | rfl
      · exact ⟨1, 0, 0, by norm_num, by norm_num, by norm_num, by norm_num, V3.ext' (by simp) (by simp) (by simp)⟩
      · exact ⟨0, 1, 0, by norm_num, by norm_num, by norm_num, by norm_num, V3.ext' (by simp) (by simp) (by simp)⟩
      · exact ⟨0, 0, 1, by norm_num, by norm_num, by norm_num, by norm_num, V3.ext' (by simp) (by simp) (by simp)⟩
    | @seg p q t h0 h1 _ _ ihp ihq =>
      obtain ⟨u, v, w, hu, hv, hw, hs, rfl⟩ := ihp
      obtain ⟨u', v', w', hu', hv', hw', hs', rfl⟩ := ihq
      have h2 : 0 ≤ 1 - t := by linarith
      refine ⟨(1 - t) * u + t * u', (1 - t) * v + t * v', (1 - t) * w + t * w', by positivity, by positivity,
        by positivity, by linear_combination (1 - t) * hs + t * hs', ?_⟩
      refine V3.ext' ?_ ?_ ?_ <;> simp <;> ring
  · rintro ⟨u, v, w, hu, hv, hw, hs, rfl⟩
    have ha : HullOf [a, b, c] a := .pt (by simp)
    have hb : HullOf [a, b, c] b := .pt (by simp)
    have hc : HullOf [a, b, c] c := .pt (by simp)
    by_cases h : u + v = 0
    · have hu0 : u = 0 := by linarith
      have hv0 : v = 0 := by linarith
      have hw1 : w = 1 := by linarith
      have : u • a + v • b + w • c = c := by
        refine V3.ext' ?_ ?_ ?_ <;> simp [hu0, hv0, hw1]
      rw [this]; exact hc
    · have hpos : 0 < u + v := lt_of_le_of_ne (by linarith) (Ne.symm h)
      have h1 := HullOf.seg (v / (u + v)) (by positivity) (by rw [div_le_one hpos]; linarith) ha hb
      have h2 := HullOf.seg w hw (by linarith) h1 hc
      have : (1 - w) • ((1 - v / (u + v)) • a + (v / (u + v)) • b) + w • c = u • a + v • b + w • c := by
        have e : 1 - w = u + v := by linarith
        refine V3.ext' ?_ ?_ ?_ <;> simp [e] <;> field_simp <;> ring
      rw [← this]; exact h2

theorem hull_singleton (a x : V3 K) : HullOf [a] x ↔ x = a := by
  constructor
  · intro h
    induction h with
    | pt h => simpa using h
    | seg t _ _ _ _ ihp ihq =>
      subst ihp; subst ihq
      refine V3.ext' ?_ ?_ ?_ <;> simp <;> ring
  · rintro rfl; exact .pt (by simp)

/-! ### AABB and k-DOP -/

theorem aabb_mem (a : AABB K) (p : V3 K) : p ∈ a.pts ↔ (a.lo.x ≤ p.x ∧ p.x ≤ a.hi.x) ∧ (a.lo.y ≤ p.y ∧ p.y ≤ a.hi.y) ∧
    (a.lo.z ≤ p.z ∧ p.z ≤ a.hi.z) := Iff.rfl

theorem aabb_sound (big nbig : K) : (aabbOps big nbig).Sound AABB.pts where
  add_mem v p := by simp [aabbOps, AABB.addPt, aabb_mem, V3.cmin, V3.cmax]
  add_mono v p q hq := by
    simp only [aabb_mem, aabbOps, AABB.addPt, V3.cmin, V3.cmax, min_le_iff, le_max_iff] at *
    tauto
  merge_left u v q hq := by
    simp only [aabb_mem, aabbOps, AABB.merge, V3.cmin, V3.cmax, min_le_iff, le_max_iff] at *
    tauto
  merge_right u v q hq := by
    simp only [aabb_mem, aabbOps, AABB.merge, V3.cmin, V3.cmax, min_le_iff, le_max_iff] at *
    tauto
  convex v p q hp hq t h0 h1 := by
    simp only [aabb_mem] at *
    simp only [V3.add_x, V3.add_y, V3.add_z, V3.smul_x, V3.smul_y, V3.smul_z]
    have h2 : 0 ≤ 1 - t := by linarith
    obtain ⟨⟨p1, p2⟩, ⟨p3, p4⟩, p5, p6⟩ := hp
    obtain ⟨⟨q1, q2⟩, ⟨q3, q4⟩, q5, q6⟩ := hq
    refine ⟨⟨?_, ?_⟩, ⟨?_, ?_⟩, ?_, ?_⟩ <;>
      nlinarith [mul_le_mul_of_nonneg_left p1 h2, mul_le_mul_of_nonneg_left p2 h2, mul_le_mul_of_nonneg_left p3 h2,
        mul_le_mul_of_nonneg_left p4 h2, mul_le_mul_of_nonneg_left p5 h2, mul_le_mul_of_nonneg_left p6 h2,
        mul_le_mul_of_nonneg_left q1 h0, mul_le_mul_of_nonneg_left q2 h0, mul_le_mul_of_nonneg_left q3 h0,
        mul_le_mul_of_nonneg_left q4 h0, mul_le_mul_of_nonneg_left q5 h0, mul_le_mul_of_nonneg_left q6 h0]
  overlap u v p hu hv := by
    simp only [aabbOps]
    rw [AABB.overlap_iff]
    simp only [aabb_mem] at hu hv
    obtain ⟨⟨p1, p2⟩, ⟨p3, p4⟩, p5, p6⟩ := hu
    obtain ⟨⟨q1, q2⟩, ⟨q3, q4⟩, q5, q6⟩ := hv
    refine ⟨⟨?_, ?_⟩, ⟨?_, ?_⟩, ?_, ?_⟩ <;> linarith

theorem kdop_sound (n : KDopN) (M : K) : (kdopOps n M).Sound KDOP.pts where
  add_mem v p := (C44_addPoint v p).1
  add_mono v p := (C44_addPoint v p).2
  merge_left u v := (C44_merge u v).1
  merge_right u v := (C44_merge u v).2
  convex v p q hp hq t h0 h1 := by
    intro i w hw
    have h2 : 0 ≤ 1 - t := by linarith
    have hp := hp i w hw
    have hq := hq i w hw
    have e : along w ((1 - t) • p + t • q) = (1 - t) * along w p + t * along w q := by
      simp only [along, V3.add_x, V3.add_y, V3.add_z, V3.smul_x, V3.smul_y, V3.smul_z]; ring
    rw [e]
    constructor
    · nlinarith [mul_le_mul_of_nonneg_left hp.1 h2, mul_le_mul_of_nonneg_left hq.1 h0]
    · nlinarith [mul_le_mul_of_nonneg_left hp.2 h2, mul_le_mul_of_nonneg_left hq.2 h0]
  overlap u v p hu hv := C44_overlap u v hu hv

/-! ### The fitters enclose -/

/-- A volume that contains the current and the previous vertices of a primitive encloses it at all times. -/
theorem encloses_of_convex {pts : V → Set (V3 K)} {g : Geom K} {v : V} {p : ℕ}
    (hc : ∀ p q, p ∈ pts v → q ∈ pts v → ∀ t : K, 0 ≤ t → t ≤ 1 → (1 - t) • p + t • q ∈ pts v)
    (h1 : ∀ x ∈ (g.primIdx p).filterMap (g.verts[·]?), x ∈ pts v)
    (h2 : ∀ old, g.prev = some old → ∀ x ∈ (g.primIdx p).filterMap (old[·]?), x ∈ pts v) : Encloses pts g v p := by
  intro t h0 ht x hx
  refine HullOf.subset (S := pts v) ?_ hc hx
  intro y hy
  obtain ⟨i, hi, e⟩ := List.mem_filterMap.1 hy
  simp only [Geom.vertsAt] at e
  cases hp : g.prev with
  | none => rw [hp] at e; exact h1 y (List.mem_filterMap.2 ⟨i, hi, e⟩)
  | some old =>
    rw [hp] at e
    simp only [List.getElem?_zipWith] at e
    cases eo : old[i]? with
    | none => rw [eo] at e; simp at e
    | some u =>
      cases ev : g.verts[i]? with
      | none => rw [eo, ev] at e; simp at e
      | some w =>
        rw [eo, ev] at e
        simp only [Option.some.injEq] at e
        subst e
        exact hc u w (h2 old hp u (List.mem_filterMap.2 ⟨i, hi, eo⟩))
          (h1 w (List.mem_filterMap.2 ⟨i, hi, ev⟩)) t h0 ht

section
variable {o : BVOps V K} {pts : V → Set (V3 K)} (hs : o.Sound pts)
include hs

theorem foldl_add_mono (l : List (V3 K)) (v : V) : pts v ⊆ pts (l.foldl o.add v) := by
  induction l generalizing v with
  | nil => exact fun _ h => h
  | cons p l ih => exact fun q hq => ih _ (hs.add_mono v p hq)

theorem foldl_add_mem (l : List (V3 K)) (v : V) : ∀ p ∈ l, p ∈ pts (l.foldl o.add v) := by
  induction l generalizing v with
  | nil => simp
  | cons q l ih =>
    intro p hp
    rcases List.mem_cons.1 hp with rfl | hp
    · exact foldl_add_mono hs l _ (hs.add_mem v p)
    · exact ih _ p hp

/-- The same from the laws of the volume type. -/
theorem encloses_of_mem {g : Geom K} {v : V} {p : ℕ}
    (h1 : ∀ x ∈ (g.primIdx p).filterMap (g.verts[·]?), x ∈ pts v)
    (h2 : ∀ old, g.prev = some old → ∀ x ∈ (g.primIdx p).filterMap (old[·]?), x ∈ pts v) : Encloses pts g v p :=
  encloses_of_convex (hs.convex v) h1 h2

theorem fit_encloses {g : Geom K} {l : List ℕ} {p : ℕ} (hp : p ∈ l) : Encloses pts g (o.fit g l) p := by
  refine encloses_of_mem hs (fun x hx => ?_) fun old ho x hx => ?_
  · exact foldl_add_mem hs _ _ x (List.mem_flatMap.2 ⟨p, hp, List.mem_append_left _ hx⟩)
  · refine foldl_add_mem hs _ _ x (List.mem_flatMap.2 ⟨p, hp, List.mem_append_right _ ?_⟩)
    rw [ho]; exact hx

theorem leafFit_encloses {g : Geom K} (p : ℕ) : Encloses pts g (o.leafFit g p) p := by
  refine encloses_of_mem hs (fun x hx => ?_) fun old ho x hx => ?_
  · exact foldl_add_mem hs _ _ x (List.mem_append_right _ hx)
  · refine foldl_add_mem hs _ _ x (List.mem_append_left _ ?_)
    rw [ho]; exact hx

theorem merge_encloses {g : Geom K} {u v : V} {p : ℕ} (h : Encloses pts g u p ∨ Encloses pts g v p) :
    Encloses pts g (o.merge u v) p := by
  intro t h0 h1 x hx
  rcases h with h | h
  · exact hs.merge_left u v (h t h0 h1 hx)
  · exact hs.merge_right u v (h t h0 h1 hx)

end

theorem Encloses.now {pts : V → Set (V3 K)} {g : Geom K} (hg : g.WF) {v : V} {p : ℕ} (h : Encloses pts g v p) :
    g.solid p ⊆ pts v := by
  have e : g.vertsAt 1 = g.verts := by
    simp only [Geom.vertsAt]
    cases hp : g.prev with
    | none => rfl
    | some old =>
      have hl := hg.prev old hp
      refine List.ext_getElem? fun i => ?_
      simp only [List.getElem?_zipWith]
      cases ev : g.verts[i]? with
      | none => cases eo : old[i]? <;> simp
      | some w =>
        have : i < old.length := by rw [hl]; exact (List.getElem?_eq_some_iff.1 ev).1
        rw [List.getElem?_eq_getElem this]
        simp only [Option.some.injEq]
        refine V3.ext' ?_ ?_ ?_ <;> simp
  have := h 1 (by norm_num) le_rfl
  simpa only [Geom.solidAt, Geom.solid, e] using this

end Fcl
