import Verif.Base.Callback
import Mathlib.Order.Lattice
import Mathlib.Order.MinMax
import Mathlib.Data.List.ProdSigma

/-! Specification vocabulary for distance queries and for "all pairs". -/

namespace Fcl

/-- Call the distance callback on the listed pairs in order, threading the bound, until it says stop. -/
def runUntilD {σ D O : Type*} (cb : DCB σ D O) (s : σ) (md : D) : List (O × O) → σ × D × Bool
  | [] => (s, md, false)
  | p :: ps =>
    let r := cb s md p.1 p.2
    if r.2.2 then r else runUntilD cb r.1 r.2.1 ps

/-- All pairs of entries at two different positions, each unordered pair once. -/
def pairsUp {α : Type*} : List α → List (α × α)
  | [] => []
  | a :: l => l.map (fun b => (a, b)) ++ pairsUp l

/-- `P` relates the callback's data and the current bound (for instance "the data record the same
minimum as the bound"). The callback keeps it, and from data and bound so related never enlarges the
bound. -/
def DCB.NonInc {σ D O : Type*} [LE D] (cb : DCB σ D O) (P : σ → D → Prop) : Prop :=
  ∀ s md, P s md → ∀ a b, P (cb s md a b).1 (cb s md a b).2.1 ∧ (cb s md a b).2.1 ≤ md

/-- The callback tracks the minimum of `d`: from data and bound related by `P` (which it keeps) it
lowers the bound to `d a b` when that is smaller, and says stop only when the bound is at most `d` of
every pair in `ps`. -/
def DCB.Tracks {σ D O : Type*} [LinearOrder D] (cb : DCB σ D O) (P : σ → D → Prop) (d : O → O → D)
    (ps : List (O × O)) : Prop :=
  ∀ s md, P s md → ∀ a b, P (cb s md a b).1 (cb s md a b).2.1 ∧ (cb s md a b).2.1 = min md (d a b) ∧
    ((cb s md a b).2.2 = true → ∀ p ∈ ps, (cb s md a b).2.1 ≤ d p.1 p.2)

/-- Minimum of `d` over the pairs and `big`. -/
def minDist {D O : Type*} [LinearOrder D] (d : O → O → D) (big : D) (ps : List (O × O)) : D :=
  ps.foldr (fun p m => min (d p.1 p.2) m) big

theorem minDist_mem {D O : Type*} [LinearOrder D] (d : O → O → D) (big : D) (ps : List (O × O)) :
    minDist d big ps = big ∨ ∃ p ∈ ps, minDist d big ps = d p.1 p.2 := by
  induction ps with
  | nil => exact Or.inl rfl
  | cons p ps ih =>
    simp only [minDist, List.foldr_cons] at ih ⊢
    rcases min_choice (d p.1 p.2) (ps.foldr (fun p m => min (d p.1 p.2) m) big) with h | h
    · exact Or.inr ⟨p, List.mem_cons_self .., h⟩
    · rw [h]
      exact ih.imp_right fun ⟨q, hq, e⟩ => ⟨q, List.mem_cons_of_mem _ hq, e⟩

theorem minDist_le_big {D O : Type*} [LinearOrder D] (d : O → O → D) (big : D) (ps : List (O × O)) :
    minDist d big ps ≤ big := by
  induction ps with
  | nil => exact le_refl _
  | cons p ps ih => exact (min_le_right _ _).trans ih

theorem minDist_le {D O : Type*} [LinearOrder D] (d : O → O → D) (big : D) (ps : List (O × O)) :
    ∀ p ∈ ps, minDist d big ps ≤ d p.1 p.2 := by
  induction ps with
  | nil => simp
  | cons p ps ih =>
    intro q hq
    rcases List.mem_cons.1 hq with rfl | hq
    · exact min_le_left _ _
    · exact (min_le_right _ _).trans (ih q hq)

theorem le_minDist {D O : Type*} [LinearOrder D] (d : O → O → D) (big : D) (ps : List (O × O)) (x : D)
    (hb : x ≤ big) (h : ∀ p ∈ ps, x ≤ d p.1 p.2) : x ≤ minDist d big ps := by
  induction ps with
  | nil => exact hb
  | cons p ps ih => exact le_min (h p (by simp)) (ih (fun q hq => h q (by simp [hq])))

theorem runUntilD_append {σ D O : Type*} (cb : DCB σ D O) (s : σ) (md : D) (ps qs : List (O × O)) :
    runUntilD cb s md (ps ++ qs) =
      if (runUntilD cb s md ps).2.2 then runUntilD cb s md ps
      else runUntilD cb (runUntilD cb s md ps).1 (runUntilD cb s md ps).2.1 qs := by
  induction ps generalizing s md with
  | nil => simp [runUntilD]
  | cons p ps ih =>
    simp only [List.cons_append, runUntilD]
    by_cases h : (cb s md p.1 p.2).2.2
    · simp [h]
    · simp only [h, Bool.false_eq_true, if_false, ih]

theorem runUntilD_nonInc {σ D O : Type*} [Preorder D] {cb : DCB σ D O} {P : σ → D → Prop}
    (h : cb.NonInc P) {s : σ} {md : D} (hP : P s md) (ps : List (O × O)) :
    P (runUntilD cb s md ps).1 (runUntilD cb s md ps).2.1 ∧ (runUntilD cb s md ps).2.1 ≤ md := by
  induction ps generalizing s md with
  | nil => exact ⟨hP, le_refl _⟩
  | cons p ps ih =>
    obtain ⟨h1, h2⟩ := h s md hP p.1 p.2
    simp only [runUntilD]
    split
    · exact ⟨h1, h2⟩
    · exact ⟨(ih h1).1, (ih h1).2.trans h2⟩

theorem runUntilD_singleton {σ D O : Type*} (cb : DCB σ D O) (s : σ) (md : D) (p : O × O) :
    runUntilD cb s md [p] = cb s md p.1 p.2 := by
  simp only [runUntilD]
  split
  · rfl
  · rename_i h
    rw [Bool.not_eq_true] at h
    rw [← h]

theorem minDist_min {D O : Type*} [LinearOrder D] (d : O → O → D) (md x : D) (ps : List (O × O)) :
    minDist d (min md x) ps = min x (minDist d md ps) := by
  induction ps with
  | nil => exact min_comm _ _
  | cons q qs ih =>
    simp only [minDist, List.foldr_cons] at ih ⊢
    rw [ih]
    exact min_left_comm _ _ _

/-- A run of a tracking callback: the final bound is the minimum over the called pairs unless it
stopped, in which case it is at most `d` of every pair. -/
theorem runUntilD_tracks {σ D O : Type*} [LinearOrder D] {cb : DCB σ D O} {d : O → O → D}
    {all : List (O × O)} {P : σ → D → Prop} (h : cb.Tracks P d all) {s : σ} {md : D} (hP : P s md)
    (ps : List (O × O)) :
    minDist d md ps ≤ (runUntilD cb s md ps).2.1 ∧ (runUntilD cb s md ps).2.1 ≤ md ∧
    ((runUntilD cb s md ps).2.2 = false → (runUntilD cb s md ps).2.1 = minDist d md ps) ∧
    ((runUntilD cb s md ps).2.2 = true → ∀ p ∈ all, (runUntilD cb s md ps).2.1 ≤ d p.1 p.2) := by
  induction ps generalizing s md with
  | nil => simp [runUntilD, minDist]
  | cons p ps ih =>
    obtain ⟨h0, h1, h2⟩ := h s md hP p.1 p.2
    simp only [runUntilD]
    split
    · rename_i hs
      refine ⟨?_, ?_, fun hf => ?_, fun _ => h2 hs⟩
      · rw [h1]
        exact le_min ((min_le_right _ _).trans (minDist_le_big _ _ _)) (min_le_left _ _)
      · rw [h1]; exact min_le_left _ _
      · rw [hs] at hf; exact absurd hf (by simp)
    · obtain ⟨i1, i2, i3, i4⟩ := ih h0
      have e : minDist d (cb s md p.1 p.2).2.1 ps = minDist d md (p :: ps) := by
        rw [h1, minDist_min]; rfl
      rw [e] at i1 i3
      exact ⟨i1, i2.trans (by rw [h1]; exact min_le_left _ _), i3, i4⟩

/-- What a pruning distance traversal guarantees: called pairs and skipped pairs together are all
pairs, the result is that of the called pairs, and unless the callback stopped the search every skipped
pair has lower bound `lb` at least the final bound. -/
def Covers {σ D O α : Type*} [LE D] (P : σ → D → Prop) (cb : DCB σ D O) (lb : α → D)
    (obj : α → O × O) (all : List α) (f : σ → D → σ × D × Bool) : Prop :=
  ∀ s md, P s md → ∃ calls skipped : List α, (calls ++ skipped).Perm all ∧
    f s md = runUntilD cb s md (calls.map obj) ∧
    ((f s md).2.2 = false → ∀ x ∈ skipped, (f s md).2.1 ≤ lb x)

namespace Covers
variable {σ D O α : Type*} [LinearOrder D] {cb : DCB σ D O} {lb : α → D} {obj : α → O × O}
  {all A B : List α} {f g : σ → D → σ × D × Bool} {P : σ → D → Prop}

theorem perm (h : Covers P cb lb obj A f) (hp : A.Perm B) : Covers P cb lb obj B f := by
  intro s md hP
  obtain ⟨c, k, h1, h2, h3⟩ := h s md hP
  exact ⟨c, k, h1.trans hp, h2, h3⟩

theorem nil : Covers P cb lb obj [] (fun s md => (s, md, false)) := by
  intro s md hP
  exact ⟨[], [], List.Perm.refl _, rfl, by simp⟩

theorem one (x : α) : Covers P cb lb obj [x] (fun s md => cb s md (obj x).1 (obj x).2) := by
  intro s md hP
  exact ⟨[x], [], List.Perm.refl _, (runUntilD_singleton cb s md (obj x)).symm, by simp⟩

theorem skip (d : D) (h : Covers P cb lb obj A f) (hd : ∀ x ∈ A, d ≤ lb x) :
    Covers P cb lb obj A (fun s md => if d < md then f s md else (s, md, false)) := by
  intro s md hP
  by_cases hlt : d < md
  · simp only [hlt, if_true]; exact h s md hP
  · simp only [hlt, if_false]
    refine ⟨[], A, List.Perm.refl _, rfl, fun _ x hx => (not_lt.1 hlt).trans (hd x hx)⟩

theorem seq (hc : cb.NonInc P) (hf : Covers P cb lb obj A f) (hg : Covers P cb lb obj B g) :
    Covers P cb lb obj (A ++ B)
      (fun s md => if (f s md).2.2 then ((f s md).1, (f s md).2.1, true) else g (f s md).1 (f s md).2.1) := by
  intro s md hP
  obtain ⟨c, k, h1, h2, h3⟩ := hf s md hP
  have hP' : P (f s md).1 (f s md).2.1 := by rw [h2]; exact (runUntilD_nonInc hc hP _).1
  obtain ⟨c', k', h1', h2', h3'⟩ := hg (f s md).1 (f s md).2.1 hP'
  by_cases hs : (f s md).2.2
  · simp only [hs, if_true]
    refine ⟨c, k ++ B, ?_, ?_, by simp⟩
    · rw [← List.append_assoc]; exact h1.append_right B
    · rw [← h2]
      conv_rhs => rw [← Prod.eta (f s md), ← Prod.eta (f s md).2]
      rw [hs]
  · simp only [hs, Bool.false_eq_true, if_false]
    refine ⟨c ++ c', k ++ k', ?_, ?_, ?_⟩
    · have : (c ++ c' ++ (k ++ k')).Perm ((c ++ k) ++ (c' ++ k')) := by
        simp only [List.append_assoc]
        apply List.Perm.append_left
        simp only [← List.append_assoc]
        apply List.Perm.append_right
        exact List.perm_append_comm
      exact this.trans (h1.append h1')
    · rw [List.map_append, runUntilD_append, ← h2]
      simp only [hs, Bool.false_eq_true, if_false]
      exact h2'
    · intro hstop x hx
      rcases List.mem_append.1 hx with hx | hx
      · refine le_trans ?_ (h3 (by simpa using hs) x hx)
        rw [h2']; exact (runUntilD_nonInc hc hP' _).2
      · exact h3' hstop x hx

theorem inv (hf : Covers P cb lb obj A f) (hc : cb.NonInc P) {s : σ} {md : D} (hP : P s md) :
    P (f s md).1 (f s md).2.1 := by
  obtain ⟨c, k, -, h2, -⟩ := hf s md hP
  rw [h2]; exact (runUntilD_nonInc hc hP _).1

/-- Consequence for a callback that tracks the minimum of `d`, when `lb` is a lower bound of `d`. -/
theorem minimum (hf : Covers P cb lb obj A f) {d : O → O → D}
    (ht : cb.Tracks P d (A.map obj)) (hlb : ∀ x ∈ A, lb x ≤ d (obj x).1 (obj x).2) {s : σ} {md : D}
    (hP : P s md) : (f s md).2.1 = minDist d md (A.map obj) := by
  obtain ⟨c, k, h1, h2, h3⟩ := hf s md hP
  obtain ⟨t1, t2, t3, t4⟩ := runUntilD_tracks ht hP (c.map obj)
  rw [← h2] at t1 t2 t3 t4
  apply le_antisymm
  · apply le_minDist _ _ _ _ t2
    intro p hp
    cases hs : (f s md).2.2 with
    | true => exact t4 hs p hp
    | false =>
      obtain ⟨x, hx, rfl⟩ := List.mem_map.1 hp
      rcases List.mem_append.1 (h1.mem_iff.2 hx) with hxc | hxk
      · rw [t3 hs]; exact minDist_le _ _ _ _ (List.mem_map.2 ⟨x, hxc, rfl⟩)
      · exact (h3 hs x hxk).trans (hlb x hx)
  · refine le_trans ?_ t1
    apply le_minDist _ _ _ _ (minDist_le_big _ _ _)
    intro p hp
    obtain ⟨x, hx, rfl⟩ := List.mem_map.1 hp
    exact minDist_le _ _ _ _ (List.mem_map.2 ⟨x, h1.mem_iff.1 (by simp [hx]), rfl⟩)

end Covers

theorem DCB.Tracks.nonInc {σ D O : Type*} [LinearOrder D] {cb : DCB σ D O} {d : O → O → D}
    {ps : List (O × O)} {P : σ → D → Prop} (h : cb.Tracks P d ps) : cb.NonInc P := fun s md hP a b => by
  obtain ⟨h0, h1, -⟩ := h s md hP a b
  exact ⟨h0, by rw [h1]; exact min_le_left _ _⟩

/-- The same with a smaller list of pairs. -/
theorem DCB.Tracks.subset {σ D O : Type*} [LinearOrder D] {cb : DCB σ D O} {d : O → O → D}
    {ps qs : List (O × O)} {P : σ → D → Prop} (h : cb.Tracks P d ps) (hs : ∀ p ∈ qs, p ∈ ps) :
    cb.Tracks P d qs := fun s md hP a b => by
  obtain ⟨h0, h1, h2⟩ := h s md hP a b
  exact ⟨h0, h1, fun hst p hp => h2 hst p (hs p hp)⟩

theorem minDist_perm {D O : Type*} [LinearOrder D] (d : O → O → D) (big : D) {ps qs : List (O × O)}
    (h : ps.Perm qs) : minDist d big ps = minDist d big qs := by
  apply le_antisymm
  · exact le_minDist _ _ _ _ (minDist_le_big _ _ _) fun p hp => minDist_le _ _ _ _ (h.mem_iff.2 hp)
  · exact le_minDist _ _ _ _ (minDist_le_big _ _ _) fun p hp => minDist_le _ _ _ _ (h.mem_iff.1 hp)

end Fcl
