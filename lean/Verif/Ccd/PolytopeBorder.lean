import Verif.Ccd.PolytopeExpand
import Mathlib.Combinatorics.Enumerative.DoubleCounting
import Mathlib.Algebra.Ring.Parity
import Mathlib.Algebra.BigOperators.Ring.Finset
import Mathlib.Algebra.Module.Defs

/-!
# The border of a patch

Every vertex is on an even number of border edges.
-/

namespace Fcl
namespace Pt

variable {V : Type*} {P : Poly V} {outside flat : ℕ → Bool}

/-- A face has none or two of its sides at a vertex. -/
theorem Closed.two_sides (hc : Closed P) {f : ℕ} {fc : Face} (hf : P.faces f = some fc) (w : ℕ) :
    (fc.edges.toFinset.filter fun e => touch P w e = true).card = 0 ∨ (fc.edges.toFinset.filter fun e => touch P w e = true).card = 2 := by
  obtain ⟨nd, a, b, c, h1, h2, h3, j0, j12⟩ := hc.tri f fc hf
  have key : ∀ e x y, P.Joins e x y → (touch P w e = true ↔ w = x ∨ w = y) := by
    rintro e x y ⟨ed, he, h⟩
    simp only [touch, he, Bool.or_eq_true, beq_iff_eq]
    rcases h with ⟨rfl, rfl⟩ | ⟨rfl, rfl⟩
    · constructor <;> rintro (h | h) <;> simp [h]
    · constructor <;> rintro (h | h) <;> simp [h]
  simp only [Face.edges, List.nodup_cons, List.mem_cons, List.not_mem_nil, or_false, not_or, not_false_eq_true, List.nodup_nil,
    and_true] at nd
  obtain ⟨⟨n01, n02⟩, n12⟩ := nd
  have e : fc.edges.toFinset = {fc.e0, fc.e1, fc.e2} := by simp [Face.edges]
  have t0 := key _ _ _ j0
  rw [e, Finset.filter_insert, Finset.filter_insert, Finset.filter_singleton]
  rcases j12 with ⟨j1, j2⟩ | ⟨j1, j2⟩
  all_goals
    have t1 := key _ _ _ j1
    have t2 := key _ _ _ j2
    by_cases wa : w = a
    · have wb : w ≠ b := fun h => h1 (wa.symm.trans h)
      have wc : w ≠ c := fun h => h3 (h.symm.trans wa)
      simp only [wa, true_or, or_true, iff_true] at t0 t1 t2
      simp_all
    by_cases wb : w = b
    · have wc : w ≠ c := fun h => h2 (wb.symm.trans h)
      simp_all
    by_cases wc : w = c
    · simp_all
    simp_all

theorem border_even (hc : Closed P) {f : ℕ} {s : Patch} (hp : IsPatch P outside flat f s) (w : ℕ) :
    Even (s.border.filter fun e => touch P w e = true).card := by
  classical
  have disj : Disjoint s.inner s.border := by
    rw [Finset.disjoint_left]
    intro e hi hb
    obtain ⟨-, k, hk, hkv⟩ := (hp.border e).1 hb
    exact hkv (((hp.inner e).1 hi).2 k hk)
  -- pairs of a face of the patch and one of its sides at `w`
  have dc := Finset.sum_card_bipartiteAbove_eq_sum_card_bipartiteBelow (s := s.visible)
    (t := (s.inner ∪ s.border).filter fun e => touch P w e = true) (fun g e => P.Side e g)
  have left : ∀ g ∈ s.visible, Even (Finset.bipartiteAbove (fun g e => P.Side e g)
      ((s.inner ∪ s.border).filter fun e => touch P w e = true) g).card := by
    intro g hg
    obtain ⟨gc, hgc⟩ := Option.ne_none_iff_exists'.1 (hp.faces g hg)
    have : Finset.bipartiteAbove (fun g e => P.Side e g) ((s.inner ∪ s.border).filter fun e => touch P w e = true) g =
        gc.edges.toFinset.filter fun e => touch P w e = true := by
      ext e
      simp only [Finset.bipartiteAbove, Finset.mem_filter, Finset.mem_union, List.mem_toFinset]
      have sd : P.Side e g ↔ e ∈ gc.edges :=
        ⟨fun ⟨fc, h1, h2⟩ => by rw [hgc] at h1; cases h1; exact h2, fun h => ⟨gc, hgc, h⟩⟩
      rw [sd]
      refine ⟨fun ⟨⟨_, h1⟩, h2⟩ => ⟨h2, h1⟩, fun ⟨h2, h1⟩ => ⟨⟨?_, h1⟩, h2⟩⟩
      by_cases hall : ∀ k, P.Side e k → k ∈ s.visible
      · obtain ⟨ed, hed⟩ := hc.live (sd.2 h2)
        exact Or.inl ((hp.inner e).2 ⟨by rw [hed]; simp, hall⟩)
      · push Not at hall
        exact Or.inr ((hp.border e).2 ⟨⟨g, hg, sd.2 h2⟩, hall⟩)
    rw [this]
    rcases hc.two_sides hgc w with h | h <;> rw [h]
    · exact Even.zero
    · exact even_two
  have rInner : ∀ e ∈ s.inner, (Finset.bipartiteBelow (fun g e => P.Side e g) s.visible e).card = 2 := by
    intro e he
    obtain ⟨hl, hs⟩ := (hp.inner e).1 he
    obtain ⟨ed, hed⟩ := Option.ne_none_iff_exists'.1 hl
    obtain ⟨p, q, -, -, hpq, hk⟩ := hc.two e ed hed
    have : Finset.bipartiteBelow (fun g e => P.Side e g) s.visible e = {p, q} := by
      ext g
      simp only [Finset.bipartiteBelow, Finset.mem_filter, Finset.mem_insert, Finset.mem_singleton]
      rw [← hk g]
      exact ⟨fun h => h.2, fun h => ⟨hs g h, h⟩⟩
    rw [this, Finset.card_pair hpq]
  have rBorder : ∀ e ∈ s.border, (Finset.bipartiteBelow (fun g e => P.Side e g) s.visible e).card = 1 := by
    intro e he
    obtain ⟨⟨g, hg, hgs⟩, k, hks, hk⟩ := (hp.border e).1 he
    obtain ⟨ed, hed⟩ := hc.live hgs
    obtain ⟨p, q, -, -, hpq, hh⟩ := hc.two e ed hed
    rw [Finset.card_eq_one]
    refine ⟨g, ?_⟩
    ext h
    simp only [Finset.bipartiteBelow, Finset.mem_filter, Finset.mem_singleton]
    constructor
    · rintro ⟨hv, hs⟩
      rcases (hh h).1 hs with rfl | rfl <;> rcases (hh g).1 hgs with rfl | rfl <;> rcases (hh k).1 hks with rfl | rfl <;>
        first | rfl | exact absurd hv hk | exact absurd hg hk
    · rintro rfl
      exact ⟨hg, hgs⟩
  rw [Finset.filter_union, Finset.sum_union (Finset.disjoint_filter_filter disj)] at dc
  rw [Finset.sum_congr rfl fun e he => rInner e (Finset.mem_filter.1 he).1,
    Finset.sum_congr (s₁ := s.border.filter _) rfl fun e he => rBorder e (Finset.mem_filter.1 he).1] at dc
  simp only [Finset.sum_const, smul_eq_mul, mul_one] at dc
  have hev : Even (∑ g ∈ s.visible, (Finset.bipartiteAbove (fun g e => P.Side e g)
      ((s.inner ∪ s.border).filter fun e => touch P w e = true) g).card) := even_iff_two_dvd.2 (Finset.dvd_sum fun g hg => even_iff_two_dvd.1 (left g hg))
  rw [Finset.filter_union, dc] at hev
  exact (Nat.even_add.1 hev).1 (even_two.mul_left _)

end Pt
end Fcl
