import Verif.Props.DynTree
import Mathlib.Tactic.Linarith
import Mathlib.Tactic.Positivity

/-! # C53: what `update(obj)` of the dynamic tree manager guarantees about the stored box -/

namespace Fcl
open HTree Mgr
set_option linter.unusedSectionVars false

section
variable {K O : Type*} [LinearOrder K] [DecidableEq O]

/-- C53, with an exact box comparison: after any history ending in `update(obj)`, the manager's stored box
for the object covers the object's current box. Missing from the full property: the comparison the code
uses is approximate, see `C53_update_misses`. -/
theorem C53_exact_partial {cs : List (MgrCall K O)} {c : MgrCall K O} {r : Reg K O} {o : O}
    (hc : c.op = .updateObj o) (heq : ∀ a b, c.cfg.eqv a b = true → a = b)
    (h : History (cs ++ [c]) [] r) :
    ∃ m, (Mgr.empty : Mgr K O).run (cs ++ [c]) = some m ∧
      ∀ t, m.root = some t → ∀ x ∈ t.leaves, x.2.2 = o → x.2.1.contain (c.w o) = true := by
  obtain ⟨m, h1, h2⟩ := C06_enclosure h
  refine ⟨m, h1, fun t ht x hx hxo => ?_⟩
  obtain ⟨-, hp⟩ := h2 t ht
  have hmem : (x.2.2, x.2.1) ∈ r := hp.mem_iff.1 (List.mem_map.2 ⟨x, hx, rfl⟩)
  have hr : ∃ r0 : Reg K O, r = r0.step c := by
    have : ∀ (cs : List (MgrCall K O)) (r0 r : Reg K O), History (cs ++ [c]) r0 r →
        ∃ r1 : Reg K O, r = r1.step c := by
      intro cs
      induction cs with
      | nil =>
        intro r0 r h
        cases h with
        | cons _ _ h => cases h with | nil => exact ⟨r0, rfl⟩
      | cons d cs ih =>
        intro r0 r h
        cases h with
        | cons _ _ h => exact ih _ _ h
    exact this cs [] r h
  obtain ⟨r0, rfl⟩ := hr
  unfold Reg.step at hmem
  rw [hc] at hmem
  obtain ⟨e, he, he'⟩ := List.mem_map.1 hmem
  by_cases heo : e.1 = o
  · rw [if_pos heo] at he'
    have hb : refreshBox c.cfg.eqv e.2 (c.w o) = x.2.1 := congrArg Prod.snd he'
    rw [← hb]
    unfold refreshBox
    split
    · rename_i hq; rw [← heq _ _ hq]; exact AABB.contain_refl _
    · split
      · rename_i hq; exact hq
      · exact AABB.contain_refl _
  · rw [if_neg heo] at he'
    exact absurd ((congrArg Prod.fst he').trans hxo) heo
end

section field
variable {K : Type*} [Field K] [LinearOrder K] [IsStrictOrderedRing K]

/-- C53, what the approximate comparison still guarantees: a stored box that compares equal to the current
one covers it after being enlarged by `t`, for any `t` with `prec² * |corner|² ≤ t²` for both corners. -/
theorem C53_tolerance_partial (prec t : K) (ht : 0 ≤ t) (old new : AABB K)
    (h1 : prec * prec * old.lo.sqNorm ≤ t * t) (h2 : prec * prec * old.hi.sqNorm ≤ t * t)
    (h : refreshBox (AABB.equal prec) old new = old) :
    (old.expand ⟨t, t, t⟩).contain new = true := by
  have key : ∀ a b : V3 K, V3.isApprox prec a b = true → prec * prec * a.sqNorm ≤ t * t →
      (a.x - t ≤ b.x ∧ b.x ≤ a.x + t) ∧ (a.y - t ≤ b.y ∧ b.y ≤ a.y + t) ∧
      (a.z - t ≤ b.z ∧ b.z ≤ a.z + t) := by
    intro a b hab ha
    have hle : V3.sqNorm ⟨a.x - b.x, a.y - b.y, a.z - b.z⟩ ≤ t * t :=
      (of_decide_eq_true hab).trans
        ((mul_le_mul_of_nonneg_left (min_le_left _ _) (mul_self_nonneg prec)).trans ha)
    unfold V3.sqNorm at hle
    simp only at hle
    have hx : |a.x - b.x| ≤ t := by
      refine abs_le_of_sq_le_sq ?_ ht
      nlinarith [mul_self_nonneg (a.y - b.y), mul_self_nonneg (a.z - b.z)]
    have hy : |a.y - b.y| ≤ t := by
      refine abs_le_of_sq_le_sq ?_ ht
      nlinarith [mul_self_nonneg (a.x - b.x), mul_self_nonneg (a.z - b.z)]
    have hz : |a.z - b.z| ≤ t := by
      refine abs_le_of_sq_le_sq ?_ ht
      nlinarith [mul_self_nonneg (a.y - b.y), mul_self_nonneg (a.x - b.x)]
    rw [abs_le] at hx hy hz
    refine ⟨⟨?_, ?_⟩, ⟨?_, ?_⟩, ?_, ?_⟩ <;> linarith
  rw [AABB.contain_iff]
  unfold refreshBox at h
  simp only [AABB.expand]
  split at h
  · rename_i he
    simp only [AABB.equal, Bool.and_eq_true] at he
    have a := key _ _ he.1 h1
    have b := key _ _ he.2 h2
    exact ⟨⟨a.1.1, b.1.2⟩, ⟨a.2.1.1, b.2.1.2⟩, a.2.2.1, b.2.2.2⟩
  · have hc : old.contain new = true := by
      split at h
      · rename_i hq; exact hq
      · rw [h]; exact AABB.contain_refl _
    rw [AABB.contain_iff] at hc
    obtain ⟨⟨a1, b1⟩, ⟨a2, b2⟩, a3, b3⟩ := hc
    refine ⟨⟨?_, ?_⟩, ⟨?_, ?_⟩, ?_, ?_⟩ <;> linarith
end field

namespace UpdateExample
/-- `numeric_limits<double>::epsilon() * 100`. -/
def prec : ℚ := 100 / 2 ^ 52

/-- Heuristics as in `DynExample`, with the box comparison of the code. -/
def cfg : Cfg ℚ ℕ where
  select _ _ _ := true
  bigger a b := decide (a.hi.x - a.lo.x > b.hi.x - b.lo.x)
  eqv := AABB.equal prec
  sizeLt a b := decide (a.hi.x - a.lo.x < b.hi.x - b.lo.x)
  sizeOk _ := true
  bestAxis _ := 0
  nth _ _ l := l
  below _ _ := true
  code _ _ := 0
  sortM _ l := l
  buThreshold := 2
  topdownLevel := 0
  initLevel := 0
  incPass := 10
  nearlyBalanced h _ := decide (h < 10)
  junk := ⟨⟨0, 0, 0⟩, ⟨0, 0, 0⟩⟩

theorem cfg_lawful : cfg.Lawful :=
  ⟨fun _ _ _ => List.Perm.refl _, fun _ _ => List.Perm.refl _, fun _ => rfl, by decide⟩

/-- Object 1 is the unit cube. -/
def w0 (_ : ℕ) : AABB ℚ := ⟨⟨0, 0, 0⟩, ⟨1, 1, 1⟩⟩
/-- Object 1 has grown by 2⁻⁵⁰ in x; object 2 starts where it now ends. All coordinates are doubles. -/
def w1 (n : ℕ) : AABB ℚ :=
  if n = 1 then ⟨⟨0, 0, 0⟩, ⟨1 + 1 / 2 ^ 50, 1, 1⟩⟩ else ⟨⟨1 + 1 / 2 ^ 50, 0, 0⟩, ⟨2, 1, 1⟩⟩

/-- Register object 1, set up, then tell the manager that it has changed. -/
def calls : List (MgrCall ℚ ℕ) := [⟨.register 1, w0, cfg⟩, ⟨.setup, w0, cfg⟩, ⟨.updateObj 1, w1, cfg⟩]

theorem history : History calls [] [(1, w0 1)] := by
  refine .cons (show (1 : ℕ) ∉ _ by decide) cfg_lawful ?_
  refine .cons trivial cfg_lawful ?_
  refine .cons trivial cfg_lawful ?_
  have : Reg.step (Reg.step (Reg.step [] ⟨.register 1, w0, cfg⟩) ⟨.setup, w0, cfg⟩) ⟨.updateObj 1, w1, cfg⟩ =
      [(1, w0 1)] := by decide +kernel
  rw [this]
  exact .nil _
end UpdateExample

/-- C53 fails in the code: after `update(obj)` the box comparison may judge a changed box equal, and a later
query misses an object whose current box overlaps the query box. Witness: `UpdateExample`. -/
theorem C53_update_misses :
    ∃ m, (Mgr.empty : Mgr ℚ ℕ).run UpdateExample.calls = some m ∧
      (UpdateExample.w1 1).overlap (UpdateExample.w1 2) = true ∧
      ∀ (cb : CB (List (ℕ × ℕ)) ℕ), m.collideObj UpdateExample.cfg UpdateExample.w1 cb 2 [] = some [] := by
  obtain ⟨m, h1, ps, h2, h3⟩ := C07_collide_object.{_, _, 0} UpdateExample.history UpdateExample.cfg
    UpdateExample.w1 2
  refine ⟨m, h1, by decide +kernel, fun cb => ?_⟩
  have : ps = [] := by
    have e : ([(1, UpdateExample.w0 1)] : Reg ℚ ℕ).filter (fun e => e.2.overlap (UpdateExample.w1 2)) = [] := by
      decide +kernel
    rw [e] at h2
    exact h2.eq_nil
  rw [h3, this]; rfl

/-- Non-vacuity of `C53_exact_partial`: the example history of C05 ends in `update(obj)`, with a comparison
that is exact on the x coordinate; here with an exact one. -/
example : ∃ (c : MgrCall ℤ ℕ) (r : Reg ℤ ℕ), c.op = .updateObj 2 ∧ (∀ a b, c.cfg.eqv a b = true → a = b) ∧
    History ([⟨.registerMany [1, 2, 3, 4], DynExample.w0, DynExample.cfg⟩] ++ [c]) [] r := by
  let c : MgrCall ℤ ℕ := ⟨.updateObj 2, DynExample.w1, { DynExample.cfg with eqv := fun a b => decide (a = b) }⟩
  refine ⟨c, Reg.step (Reg.step [] ⟨.registerMany [1, 2, 3, 4], DynExample.w0, DynExample.cfg⟩) c, rfl,
    fun a b h => of_decide_eq_true h, ?_⟩
  refine .cons ⟨by decide, by simp⟩ DynExample.cfg_lawful (.cons trivial ?_ (.nil _))
  exact ⟨fun _ _ _ => List.Perm.refl _, fun _ _ => List.Perm.refl _, fun _ => rfl, by decide⟩

/-- Non-vacuity of `C53_tolerance_partial`: the boxes of the witness. -/
example : refreshBox (AABB.equal UpdateExample.prec) (UpdateExample.w0 1) (UpdateExample.w1 1) =
    UpdateExample.w0 1 ∧ UpdateExample.w0 1 ≠ UpdateExample.w1 1 := by decide +kernel

end Fcl
