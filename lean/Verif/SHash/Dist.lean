import Verif.SHash.Cells
import Verif.Base.DistCallback
import Mathlib.Algebra.Order.Archimedean.Basic
import Mathlib.Tactic.Linarith
import Mathlib.Tactic.Ring

/-! The distance search of the spatial hash manager. -/

set_option linter.unusedSectionVars false
set_option linter.unusedSimpArgs false

namespace Fcl
namespace SHM
open Hash
variable {K O σ : Type*} [Field K] [LinearOrder K] [IsStrictOrderedRing K] [FloorRing K] [LinearOrder O]
  {g : Grid K} {n : ℕ} {ex : Prop} {kb : O → Option (AABB K)} {m : SHM K O}
  {dist : AABB K → AABB K → K} {eqv : AABB K → AABB K → Bool} {big : K} {w : O → AABB K} {on : Bool}
  {cb : DCB σ K O} {P : σ → K → Prop} {d : O → O → K} {ps : List (O × O)}

theorem testedKey_d (hs : ∀ a b, d a b = d b a) (a b : O) : d (testedKey a b).1 (testedKey a b).2 = d a b := by
  unfold testedKey; split
  · rfl
  · exact hs b a

/-- The state of a search is consistent. -/
structure Good (P : σ → K → Prop) (d : O → O → K) (big : K) (ps : List (O × O)) (t : DState σ K O) : Prop where
  rel : P t.s t.md
  low : minDist d big ps ≤ t.md
  tst : ∀ p ∈ t.tested, t.md ≤ d p.1 p.2

/-- What a (partial) search for `q` through the objects satisfying `A` guarantees. -/
structure Found (P : σ → K → Prop) (d : O → O → K) (big : K) (ps : List (O × O)) (q : O) (A : O → Prop)
    (t : DState σ K O) (r : DState σ K O × Bool) : Prop where
  good : Good P d big ps r.1
  le : r.1.md ≤ t.md
  stop : r.2 = true → ∀ p ∈ ps, r.1.md ≤ d p.1 p.2
  all : r.2 = false → ∀ o, A o → o ≠ q → r.1.md ≤ d q o

theorem distScan_spec (hcb : cb.Tracks P d ps) (hs : on = true → ∀ a b, d a b = d b a) (q : O) (l : List O)
    (hl : ∀ o ∈ l, o ≠ q → (q, o) ∈ ps) (hd : ∀ p ∈ ps, dist (w p.1) (w p.2) ≤ d p.1 p.2)
    (t : DState σ K O) (ht : Good P d big ps t) :
    Found P d big ps q (· ∈ l) t (distScan dist w on cb q l t) := by
  induction l generalizing t with
  | nil => exact ⟨ht, le_rfl, by simp [distScan], by simp⟩
  | cons o l ih =>
    have hl' : ∀ o ∈ l, o ≠ q → (q, o) ∈ ps := fun o ho => hl o (List.mem_cons_of_mem _ ho)
    -- the rest of the list from a state with a small enough bound
    have step : ∀ t', Good P d big ps t' → t'.md ≤ t.md → (o ≠ q → t'.md ≤ d q o) →
        Found P d big ps q (· ∈ o :: l) t (distScan dist w on cb q l t') := fun t' h1 h2 h3 => by
      obtain ⟨i1, i2, i3, i4⟩ := ih hl' t' h1
      refine ⟨i1, i2.trans h2, i3, fun hf p hp hpq => ?_⟩
      rcases List.mem_cons.mp hp with rfl | hp
      · exact i2.trans (h3 hpq)
      · exact i4 hf p hp hpq
    rw [distScan]
    by_cases hq : q = o
    · rw [if_pos hq]
      exact step t ht le_rfl (fun h => absurd hq.symm h)
    rw [if_neg hq]
    have hmem := hl o (List.mem_cons_self ..) (Ne.symm hq)
    by_cases hin : (on && decide (testedKey q o ∈ t.tested)) = true
    · rw [if_pos hin]
      simp only [Bool.and_eq_true, decide_eq_true_eq] at hin
      exact step t ht le_rfl (fun _ => by rw [← testedKey_d (hs hin.1) q o]; exact ht.tst _ hin.2)
    rw [if_neg hin]
    have htst : ∀ md', md' ≤ t.md → md' ≤ d q o →
        ∀ p ∈ (if on = true then testedKey q o :: t.tested else t.tested), md' ≤ d p.1 p.2 := by
      intro md' h1 h2 p hp
      split at hp
      · rename_i hon
        rcases List.mem_cons.mp hp with rfl | hp
        · rw [testedKey_d (hs hon)]; exact h2
        · exact h1.trans (ht.tst p hp)
      · exact h1.trans (ht.tst p hp)
    simp only
    split
    · obtain ⟨h0, h1, h2⟩ := hcb t.s t.md ht.rel q o
      have hlow : minDist d big ps ≤ (cb t.s t.md q o).2.1 := by
        rw [h1]; exact le_min ht.low (minDist_le _ _ _ _ hmem)
      have hle : (cb t.s t.md q o).2.1 ≤ t.md := by rw [h1]; exact min_le_left _ _
      have hle' : (cb t.s t.md q o).2.1 ≤ d q o := by rw [h1]; exact min_le_right _ _
      split
      · rename_i hstop
        exact ⟨⟨h0, hlow, fun p hp => hle.trans (ht.tst p hp)⟩, hle, fun _ => h2 hstop, by simp⟩
      · exact step _ ⟨h0, hlow, htst _ hle hle'⟩ hle (fun _ => hle')
    · rename_i hlt
      have hle' : t.md ≤ d q o := (not_lt.mp hlt).trans (hd _ hmem)
      exact step _ ⟨ht.rel, ht.low, htst _ le_rfl hle'⟩ le_rfl (fun _ => hle')

/-- One pass over the two lists. -/
theorem pass_spec (hcb : cb.Tracks P d ps) (hs : on = true → ∀ a b, d a b = d b a) (q : O) (l : List O × List O)
    (hl : ∀ o ∈ l.1 ++ l.2, o ≠ q → (q, o) ∈ ps) (hd : ∀ p ∈ ps, dist (w p.1) (w p.2) ≤ d p.1 p.2)
    (t : DState σ K O) (ht : Good P d big ps t) :
    Found P d big ps q (· ∈ l.1 ++ l.2) t
      (if (distScan dist w on cb q l.1 t).2 then distScan dist w on cb q l.1 t
        else distScan dist w on cb q l.2 (distScan dist w on cb q l.1 t).1) := by
  have f1 := distScan_spec (dist := dist) (w := w) hcb hs q l.1 (fun o ho => hl o (List.mem_append_left _ ho)) hd t ht
  split
  · rename_i h
    exact ⟨f1.good, f1.le, f1.stop, fun hf => by rw [h] at hf; simp at hf⟩
  · rename_i h
    rw [Bool.not_eq_true] at h
    have f2 := distScan_spec (dist := dist) (w := w) hcb hs q l.2 (fun o ho => hl o (List.mem_append_right _ ho)) hd _ f1.good
    refine ⟨f2.good, f2.le.trans f1.le, f2.stop, fun hf o ho hq => ?_⟩
    rcases List.mem_append.mp ho with ho | ho
    · exact f2.le.trans (f1.all h o ho hq)
    · exact f2.all hf o ho hq

/-- Specification: whatever is nearer than `r` to the query box meets the query box grown by `r`. -/
def Reach (g : Grid K) (dist : AABB K → AABB K → K) (a b : AABB K) : Prop :=
  ∀ r, dist a b < r → g.Meet b (a.expand ⟨r, r, r⟩)

/-- Objects with proper extents that lie within the scene limit or apart from it are reached. -/
theorem reach_of {a b : AABB K} (h0 : 0 ≤ dist a b) (h1 : ∀ i, a.lo.get i - b.hi.get i ≤ dist a b)
    (h2 : ∀ i, b.lo.get i - a.hi.get i ≤ dist a b) (ha : a.Valid) (hb : ∀ i, b.lo.get i < b.hi.get i)
    (hsc : g.scene.contain b = true ∨ g.scene.overlap b = false) : Reach g dist a b := by
  intro r hr
  rw [AABB.valid_iff] at ha
  have e1 : ∀ i, (a.expand ⟨r, r, r⟩).lo.get i = a.lo.get i - r := fun i => by fin_cases i <;> rfl
  have e2 : ∀ i, (a.expand ⟨r, r, r⟩).hi.get i = a.hi.get i + r := fun i => by fin_cases i <;> rfl
  let lo (i : Fin 3) := max (b.lo.get i) (a.lo.get i - r)
  let hi (i : Fin 3) := min (b.hi.get i) (a.hi.get i + r)
  have hlt : ∀ i, lo i < hi i := fun i => by
    have := h1 i; have := h2 i; have := ha i; have := hb i
    simp only [lo, hi, max_lt_iff, lt_min_iff]
    refine ⟨⟨?_, ?_⟩, ?_, ?_⟩ <;> linarith
  have hm : ∀ p : V3 K, (∀ i, lo i ≤ p.get i ∧ p.get i ≤ hi i) → p ∈ b.pts ∧ p ∈ (a.expand ⟨r, r, r⟩).pts := fun p hp => by
    simp only [AABB.mem_pts, e1, e2]
    refine ⟨fun i => ?_, fun i => ?_⟩
    · exact ⟨(le_max_left _ _).trans (hp i).1, (hp i).2.trans (min_le_left _ _)⟩
    · exact ⟨(le_max_right _ _).trans (hp i).1, (hp i).2.trans (min_le_right _ _)⟩
  have hlo : ∀ i, lo i ≤ (⟨lo 0, lo 1, lo 2⟩ : V3 K).get i ∧ (⟨lo 0, lo 1, lo 2⟩ : V3 K).get i ≤ hi i := fun i => by
    fin_cases i
    · exact ⟨le_rfl, (hlt 0).le⟩
    · exact ⟨le_rfl, (hlt 1).le⟩
    · exact ⟨le_rfl, (hlt 2).le⟩
  have hhi : ∀ i, lo i ≤ (⟨hi 0, hi 1, hi 2⟩ : V3 K).get i ∧ (⟨hi 0, hi 1, hi 2⟩ : V3 K).get i ≤ hi i := fun i => by
    fin_cases i
    · exact ⟨(hlt 0).le, le_rfl⟩
    · exact ⟨(hlt 1).le, le_rfl⟩
    · exact ⟨(hlt 2).le, le_rfl⟩
  refine ⟨⟨_, hm _ hlo⟩, fun i k hne => ?_⟩
  rcases hsc with hsc | hsc
  · rw [AABB.contain_get] at hsc
    have hin : ∀ p, p ∈ b.pts → p ∈ g.scene.pts := fun p hp => by
      rw [AABB.mem_pts] at hp ⊢
      exact fun i => ⟨(hsc i).1.trans (hp i).1, (hp i).2.trans (hsc i).2⟩
    have g1 : (⟨lo 0, lo 1, lo 2⟩ : V3 K).get i = lo i := by fin_cases i <;> rfl
    have g2 : (⟨hi 0, hi 1, hi 2⟩ : V3 K).get i = hi i := by fin_cases i <;> rfl
    by_cases hk : lo i = g.scene.lo.get i + k * g.cell
    · refine ⟨⟨hi 0, hi 1, hi 2⟩, ⟨(hm _ hhi).1, (hm _ hhi).2, hin _ (hm _ hhi).1⟩, ?_⟩
      rw [g2, ← hk]; exact (hlt i).ne'
    · exact ⟨⟨lo 0, lo 1, lo 2⟩, ⟨(hm _ hlo).1, (hm _ hlo).2, hin _ (hm _ hlo).1⟩, by rw [g1]; exact hk⟩
  · obtain ⟨p, hp, -, hp'⟩ := hne
    have : g.scene.overlap b = true := (AABB.overlap_get _ _).mpr fun i => by
      rw [AABB.mem_pts] at hp hp'
      exact ⟨(hp' i).1.trans (hp i).2, (hp i).1.trans (hp' i).2⟩
    rw [hsc] at this; simp at this

variable (hn : n ≠ 0) (hi : Inv g n ex kb m) (hex : ex) (hc : 0 < g.cell) (hv : g.scene.Valid)
  (hw : ∀ o b, kb o = some b → b = w o) (hcb : cb.Tracks P d ps) (hs : on = true → ∀ a b, d a b = d b a) (q : O)
  (hl : ∀ o, kb o ≠ none → o ≠ q → (q, o) ∈ ps) (hd : ∀ p ∈ ps, dist (w p.1) (w p.2) ≤ d p.1 p.2)

include hn hi hex hc hv hw hcb hs hl hd

theorem distLoop_spec (hr : ∀ o, kb o ≠ none → o ≠ q → Reach g dist (w q) (w o)) (fuel : ℕ) (last : Bool) (b : AABB K)
    (t : DState σ K O) (ht : Good P d big ps t)
    (hb : last = true ∨ t.md < big → b = (w q).expand ⟨t.md, t.md, t.md⟩) {x : Except Fault (DState σ K O × Bool)}
    (hx : distLoop g dist eqv big w m on cb q fuel last b t = some x) :
    ∃ r, x = .ok r ∧ Found P d big ps q (fun o => kb o ≠ none) t r := by
  induction fuel generalizing last b t with
  | zero => simp [distLoop] at hx
  | succ fuel ih =>
    obtain ⟨l, e, h1, h2⟩ := lists_spec hn hi hc hv w hw b
    have hp := pass_spec (dist := dist) (w := w) hcb hs q l (fun o ho => hl o ((h2 hex).2 o ho)) hd t ht
    rw [distLoop, e] at hx
    simp only at hx
    generalize (if (distScan dist w on cb q l.1 t).2 then distScan dist w on cb q l.1 t
        else distScan dist w on cb q l.2 (distScan dist w on cb q l.1 t).1) = r at hx hp
    have hfin : last = true ∨ t.md < big → r.2 = false → Found P d big ps q (fun o => kb o ≠ none) t (r.1, false) := by
      intro hlast hf
      refine ⟨hp.good, hp.le, by simp, fun _ o ho hoq => ?_⟩
      by_cases hm : g.Meet (w o) b
      · exact hp.all hf o (h1 o ho hm) hoq
      · have : ¬ dist (w q) (w o) < t.md := fun h => hm (by rw [hb hlast]; exact hr o ho hoq _ h)
        exact hp.le.trans ((not_lt.mp this).trans (hd _ (hl o ho hoq)))
    have hcomp : ∀ {r'}, Found P d big ps q (fun o => kb o ≠ none) r.1 r' →
        Found P d big ps q (fun o => kb o ≠ none) t r' := fun h => ⟨h.good, h.le.trans hp.le, h.stop, h.all⟩
    split at hx
    · rename_i hst
      refine ⟨_, (Option.some.inj hx).symm, hp.good, hp.le, fun _ => hp.stop hst, by simp⟩
    · rename_i hst
      rw [Bool.not_eq_true] at hst
      split at hx
      · rename_i hlast
        exact ⟨_, (Option.some.inj hx).symm, hfin (.inl hlast) hst⟩
      · rename_i hlast
        split at hx
        · rename_i hlt
          exact ⟨_, (Option.some.inj hx).symm, hfin (.inr hlt) hst⟩
        · rename_i hlt
          split at hx
          · obtain ⟨r', e', f⟩ := ih _ _ _ hp.good (fun _ => rfl) hx
            exact ⟨r', e', hcomp f⟩
          · rename_i hne
            have hnb : ¬ r.1.md < big := fun h => hlt (lt_of_le_of_lt (not_lt.mp hne) h)
            have hbb : ∀ b' : AABB K, false = true ∨ r.1.md < big → b' = (w q).expand ⟨r.1.md, r.1.md, r.1.md⟩ :=
              fun _ h => h.elim (by simp) (fun h => absurd h hnb)
            split at hx
            · obtain ⟨r', e', f⟩ := ih _ _ _ hp.good (hbb _) hx
              exact ⟨r', e', hcomp f⟩
            · obtain ⟨r', e', f⟩ := ih _ _ _ hp.good (hbb _) hx
              exact ⟨r', e', hcomp f⟩

theorem distQ_spec (hr : ∀ o, kb o ≠ none → o ≠ q → Reach g dist (w q) (w o)) (fuel : ℕ)
    (t : DState σ K O) (ht : Good P d big ps t) {x : Except Fault (DState σ K O × Bool)}
    (hx : distQ g dist eqv big w m on cb fuel q t = some x) :
    ∃ r, x = .ok r ∧ Found P d big ps q (fun o => kb o ≠ none) t r := by
  refine distLoop_spec hn hi hex hc hv hw hcb hs q hl hd hr fuel _ _ t ht ?_ hx
  intro h
  rcases h with h | h
  · simp at h
  · rw [if_pos h]

/-- Once something nearer than `big` has been seen, at most two passes are left; before that the box grows until it
covers any given object. -/
theorem distLoop_terminates (heq : eqv (w q) (w q) = true) (hsolid : ∀ i, (w q).lo.get i < (w q).hi.get i)
    (o : O) (ho : kb o ≠ none) (hoq : o ≠ q) (hfin : d q o < big) (N : ℕ)
    (hN : ∀ b : AABB K, (∀ i, b.lo.get i ≤ (w q).lo.get i - N * (((w q).hi.get i - (w q).lo.get i) / 2) ∧
      (w q).hi.get i + N * (((w q).hi.get i - (w q).lo.get i) / 2) ≤ b.hi.get i) → g.Meet (w o) b)
    (k j : ℕ) (hk : N ≤ j + k) (b : AABB K) (t : DState σ K O) (ht : Good P d big ps t) (hj : big ≤ t.md → j = 0 → b = w q)
    (hb : big ≤ t.md → ∀ i, b.lo.get i ≤ (w q).lo.get i - j * (((w q).hi.get i - (w q).lo.get i) / 2) ∧
      (w q).hi.get i + j * (((w q).hi.get i - (w q).lo.get i) / 2) ≤ b.hi.get i) :
    ∃ x, distLoop g dist eqv big w m on cb q (k + 2) false b t = some x := by
  induction k generalizing j b t with
  | zero =>
    obtain ⟨l, e, h1, h2⟩ := lists_spec hn hi hc hv w hw b
    have hp := pass_spec (dist := dist) (w := w) hcb hs q l (fun o ho => hl o ((h2 hex).2 o ho)) hd t ht
    rw [distLoop, e]
    simp only
    generalize (if (distScan dist w on cb q l.1 t).2 then distScan dist w on cb q l.1 t
        else distScan dist w on cb q l.2 (distScan dist w on cb q l.1 t).1) = r at hp
    split
    · exact ⟨_, rfl⟩
    · rename_i hst
      rw [Bool.not_eq_true] at hst
      rw [if_neg (by simp)]
      split
      · exact ⟨_, rfl⟩
      · rename_i hlt
        rw [not_lt] at hlt
        have hm : g.Meet (w o) b := hN b fun i => by
          have h3 : (0 : K) ≤ ((w q).hi.get i - (w q).lo.get i) / 2 := by have := hsolid i; linarith
          have hNj : (N : K) ≤ j := by exact_mod_cast (show N ≤ j by omega)
          have h4 := mul_le_mul_of_nonneg_right hNj h3
          have := hb hlt i
          constructor <;> linarith
        have := hp.all hst o (h1 o ho hm) hoq
        rw [if_pos (by linarith)]
        obtain ⟨l', e', -⟩ := lists_spec hn hi hc hv w hw ((w q).expand ⟨r.1.md, r.1.md, r.1.md⟩)
        rw [distLoop, e']
        simp only [if_true]
        repeat' split
        all_goals exact ⟨_, rfl⟩
  | succ k ih =>
    obtain ⟨l, e, h1, h2⟩ := lists_spec hn hi hc hv w hw b
    have hp := pass_spec (dist := dist) (w := w) hcb hs q l (fun o ho => hl o ((h2 hex).2 o ho)) hd t ht
    rw [distLoop, e]
    simp only
    generalize (if (distScan dist w on cb q l.1 t).2 then distScan dist w on cb q l.1 t
        else distScan dist w on cb q l.2 (distScan dist w on cb q l.1 t).1) = r at hp
    split
    · exact ⟨_, rfl⟩
    · rename_i hst
      rw [if_neg (by simp)]
      split
      · exact ⟨_, rfl⟩
      · rename_i hlt
        rw [not_lt] at hlt
        split
        · obtain ⟨l', e', -⟩ := lists_spec hn hi hc hv w hw ((w q).expand ⟨r.1.md, r.1.md, r.1.md⟩)
          rw [distLoop, e']
          simp only [if_true]
          repeat' split
          all_goals exact ⟨_, rfl⟩
        · split
          · refine ih (j + 1) (by omega) _ r.1 hp.good (fun _ h => absurd h (by omega)) fun _ i => ?_
            have hbi := hb hlt i
            push_cast
            have e1 : (b.expand ⟨((w q).hi.x - (w q).lo.x) / 2, ((w q).hi.y - (w q).lo.y) / 2,
                ((w q).hi.z - (w q).lo.z) / 2⟩).lo.get i = b.lo.get i - ((w q).hi.get i - (w q).lo.get i) / 2 := by
              fin_cases i <;> rfl
            have e2 : (b.expand ⟨((w q).hi.x - (w q).lo.x) / 2, ((w q).hi.y - (w q).lo.y) / 2,
                ((w q).hi.z - (w q).lo.z) / 2⟩).hi.get i = b.hi.get i + ((w q).hi.get i - (w q).lo.get i) / 2 := by
              fin_cases i <;> rfl
            rw [e1, e2]
            constructor <;> linarith
          · rename_i hne
            have hj0 : j ≠ 0 := fun h => hne (by rw [hj hlt h]; exact heq)
            refine ih (j + 1) (by omega) _ r.1 hp.good (fun _ h => absurd h (by omega)) fun _ i => ?_
            have hbi := hb hlt i
            push_cast
            have e1 : (b.expandRatio (w q) 2).lo.get i = b.lo.get i * 2 - (w q).lo.get i := by fin_cases i <;> rfl
            have e2 : (b.expandRatio (w q) 2).hi.get i = b.hi.get i * 2 - (w q).hi.get i := by fin_cases i <;> rfl
            rw [e1, e2]
            have h3 : (0 : K) ≤ ((w q).hi.get i - (w q).lo.get i) / 2 := by have := hsolid i; linarith
            have h4 : (1 : K) ≤ j := by exact_mod_cast Nat.one_le_iff_ne_zero.mpr hj0
            have h5 := mul_le_mul_of_nonneg_right h4 h3
            constructor <;> linarith

omit hi hex hw hcb hs hl hd hn in
/-- Every object with a proper part inside the scene limit, or outside it, is met by a large enough box. -/
theorem exists_cover (hsolid : ∀ i, (w q).lo.get i < (w q).hi.get i) (a : AABB K) (ha : g.Meet a a) :
    ∃ N : ℕ, ∀ b : AABB K, (∀ i, b.lo.get i ≤ (w q).lo.get i - N * (((w q).hi.get i - (w q).lo.get i) / 2) ∧
      (w q).hi.get i + N * (((w q).hi.get i - (w q).lo.get i) / 2) ≤ b.hi.get i) → g.Meet a b := by
  have : Archimedean K := FloorRing.archimedean K
  have h1 : ∀ i : Fin 3, ∃ N : ℕ, (w q).lo.get i - N * (((w q).hi.get i - (w q).lo.get i) / 2) ≤ a.lo.get i ∧
      a.hi.get i ≤ (w q).hi.get i + N * (((w q).hi.get i - (w q).lo.get i) / 2) := fun i => by
    have hpos : 0 < ((w q).hi.get i - (w q).lo.get i) / 2 := by have := hsolid i; linarith
    obtain ⟨N1, h1⟩ := Archimedean.arch ((w q).lo.get i - a.lo.get i) hpos
    obtain ⟨N2, h2⟩ := Archimedean.arch (a.hi.get i - (w q).hi.get i) hpos
    rw [nsmul_eq_mul] at h1 h2
    have c1 : (N1 : K) ≤ ((max N1 N2 : ℕ) : K) := by exact_mod_cast le_max_left _ _
    have c2 : (N2 : K) ≤ ((max N1 N2 : ℕ) : K) := by exact_mod_cast le_max_right _ _
    have := mul_le_mul_of_nonneg_right c1 hpos.le
    have := mul_le_mul_of_nonneg_right c2 hpos.le
    exact ⟨max N1 N2, by linarith, by linarith⟩
  choose f hf using h1
  refine ⟨max (f 0) (max (f 1) (f 2)), fun b hb => ?_⟩
  have hsub : ∀ p, p ∈ a.pts → p ∈ b.pts := fun p hp => by
    rw [AABB.mem_pts] at hp ⊢
    intro i
    have hfi : f i ≤ max (f 0) (max (f 1) (f 2)) := by fin_cases i <;> simp
    have c1 : (f i : K) ≤ ((max (f 0) (max (f 1) (f 2)) : ℕ) : K) := by exact_mod_cast hfi
    have hpos : 0 ≤ ((w q).hi.get i - (w q).lo.get i) / 2 := by have := hsolid i; linarith
    have := mul_le_mul_of_nonneg_right c1 hpos
    have := hp i; have := hf i; have := hb i
    constructor <;> linarith
  have hcm : g.common a b = g.common a a := by
    ext p
    simp only [Grid.common, Set.mem_ofPred_eq]
    constructor
    · rintro ⟨h1, -, h3⟩; exact ⟨h1, h1, h3⟩
    · rintro ⟨h1, -, h3⟩; exact ⟨h1, hsub p h1, h3⟩
  obtain ⟨⟨p, hp, -⟩, h2⟩ := ha
  refine ⟨⟨p, hp, hsub p hp⟩, ?_⟩
  rw [hcm]
  exact h2

theorem distQ_terminates (heq : eqv (w q) (w q) = true) (hsolid : ∀ i, (w q).lo.get i < (w q).hi.get i)
    (o : O) (ho : kb o ≠ none) (hoq : o ≠ q) (hfin : d q o < big) (hoo : g.Meet (w o) (w o)) :
    ∃ F, ∀ fuel ≥ F, ∀ t : DState σ K O, Good P d big ps t → ∃ x, distQ g dist eqv big w m on cb fuel q t = some x := by
  obtain ⟨N, hN⟩ := exists_cover (g := g) (w := w) hc hv q hsolid (w o) hoo
  refine ⟨N + 2, fun fuel hf t ht => ?_⟩
  have e : fuel = (fuel - 2) + 2 := by omega
  rw [distQ, e]
  refine distLoop_terminates hn hi hex hc hv hw hcb hs q hl hd heq hsolid o ho hoq hfin N hN _ 0 (by omega) _ t ht ?_ ?_
  · intro h _; rw [if_neg (not_lt.mpr h)]
  · intro h i; rw [if_neg (not_lt.mpr h)]; simp

omit hl hcb hs hd in
/-- If the query object is the only one registered the search never ends. -/
theorem distLoop_diverges (honly : ∀ o, kb o ≠ none → o = q) (fuel : ℕ) (b : AABB K) (t : DState σ K O)
    (ht : big ≤ t.md) : distLoop g dist eqv big w m on cb q fuel false b t = none := by
  have hsc : ∀ l : List O, (∀ o ∈ l, o = q) → ∀ t, distScan dist w on cb q l t = (t, false) := by
    intro l hl
    induction l with
    | nil => intro t; rfl
    | cons o l ih =>
      intro t
      rw [distScan, if_pos (hl o (List.mem_cons_self ..)).symm]
      exact ih (fun o ho => hl o (List.mem_cons_of_mem _ ho)) t
  induction fuel generalizing b with
  | zero => rfl
  | succ fuel ih =>
    obtain ⟨l, e, -, h2⟩ := lists_spec hn hi hc hv w hw b
    have hl1 : ∀ o ∈ l.1, o = q := fun o ho => honly o ((h2 hex).2 o (List.mem_append_left _ ho))
    have hl2 : ∀ o ∈ l.2, o = q := fun o ho => honly o ((h2 hex).2 o (List.mem_append_right _ ho))
    rw [distLoop, e]
    simp only [hsc _ hl1, hsc _ hl2, Bool.false_eq_true, if_false, if_neg (not_lt.mpr ht), lt_irrefl]
    split
    · exact ih _
    · exact ih _

end SHM
end Fcl
