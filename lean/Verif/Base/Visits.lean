import Verif.Base.DistCallback

/-! A distance search that may visit a pair more than once. -/

namespace Fcl

/-- From state `s` and bound `md`, the result `r` comes from calling the callback on pairs of `all` only,
and unless the callback stopped the search, every pair of `all` was called or has `lb` at least the final
bound. -/
def Visits {σ D O : Type*} [LE D] (cb : DCB σ D O) (lb : O × O → D) (all : O × O → Prop) (s : σ) (md : D)
    (r : σ × D × Bool) : Prop :=
  ∃ calls : List (O × O), (∀ c ∈ calls, all c) ∧ r = runUntilD cb s md calls ∧
    (r.2.2 = false → ∀ p, all p → p ∈ calls ∨ r.2.1 ≤ lb p)

namespace Visits
variable {σ D O : Type*} [LinearOrder D] {cb : DCB σ D O} {lb : O × O → D} {all A B : O × O → Prop}
  {P : σ → D → Prop}

theorem minimum {s : σ} {md : D} {r : σ × D × Bool} (h : Visits cb lb all s md r) {d : O → O → D}
    {ps : List (O × O)} (hps : ∀ p, all p ↔ p ∈ ps) (ht : cb.Tracks P d ps) (hP : P s md)
    (hlb : ∀ p ∈ ps, lb p ≤ d p.1 p.2) : r.2.1 = minDist d md ps := by
  obtain ⟨c, h1, h2, h3⟩ := h
  obtain ⟨t1, t2, t3, t4⟩ := runUntilD_tracks ht hP c
  rw [← h2] at t1 t2 t3 t4
  apply le_antisymm
  · apply le_minDist _ _ _ _ t2
    intro p hp
    cases hs : r.2.2 with
    | true => exact t4 hs p hp
    | false =>
      rcases h3 hs p ((hps p).2 hp) with hxc | hxk
      · rw [t3 hs]; exact minDist_le _ _ _ _ hxc
      · exact hxk.trans (hlb p hp)
  · refine le_trans ?_ t1
    apply le_minDist _ _ _ _ (minDist_le_big _ _ _)
    intro p hp
    exact minDist_le _ _ _ _ ((hps p).1 (h1 p hp))

/-- Two searches one after the other; the second is not made if the first was stopped. -/
theorem seq (hc : cb.NonInc P) {s : σ} {md : D} (hP : P s md) {r r' : σ × D × Bool} (h : Visits cb lb A s md r)
    (hr : r.2.2 = false) (h' : Visits cb lb B r.1 r.2.1 r') : Visits cb lb (fun p => A p ∨ B p) s md r' := by
  obtain ⟨c, h1, h2, h3⟩ := h
  obtain ⟨c', h1', h2', h3'⟩ := h'
  have hPr : P r.1 r.2.1 := by rw [h2]; exact (runUntilD_nonInc hc hP _).1
  refine ⟨c ++ c', ?_, ?_, ?_⟩
  · intro p hp
    rcases List.mem_append.1 hp with hp | hp
    · exact Or.inl (h1 p hp)
    · exact Or.inr (h1' p hp)
  · rw [runUntilD_append, ← h2, hr, h2']; rfl
  · intro hs p hp
    have hle : r'.2.1 ≤ r.2.1 := by rw [h2']; exact (runUntilD_nonInc hc hPr _).2
    rcases hp with hp | hp
    · rcases h3 hr p hp with hx | hx
      · exact Or.inl (List.mem_append_left _ hx)
      · exact Or.inr (hle.trans hx)
    · rcases h3' hs p hp with hx | hx
      · exact Or.inl (List.mem_append_right _ hx)
      · exact Or.inr hx

theorem congr {s : σ} {md : D} {r : σ × D × Bool} (h : Visits cb lb A s md r) (hAB : ∀ p, A p ↔ B p) :
    Visits cb lb B s md r := by
  have : A = B := funext fun p => propext (hAB p)
  rwa [← this]

/-- A stopped search counts as a search of any larger set. -/
theorem stop {s : σ} {md : D} {r : σ × D × Bool} (h : Visits cb lb A s md r) (hr : r.2.2 = true)
    (hAB : ∀ p, A p → B p) : Visits cb lb B s md r := by
  obtain ⟨c, h1, h2, _⟩ := h
  exact ⟨c, fun p hp => hAB p (h1 p hp), h2, fun hs => by rw [hr] at hs; exact absurd hs (by simp)⟩

theorem nil (s : σ) (md : D) : Visits cb lb (fun _ => False) s md (s, md, false) :=
  ⟨[], by simp, rfl, by simp⟩

theorem nonInc (hc : cb.NonInc P) {s : σ} {md : D} (hP : P s md) {r : σ × D × Bool}
    (h : Visits cb lb A s md r) : r.2.1 ≤ md := by
  obtain ⟨c, _, h2, _⟩ := h
  rw [h2]; exact (runUntilD_nonInc hc hP _).2

theorem inv (hc : cb.NonInc P) {s : σ} {md : D} (hP : P s md) {r : σ × D × Bool}
    (h : Visits cb lb A s md r) : P r.1 r.2.1 := by
  obtain ⟨c, _, h2, _⟩ := h
  rw [h2]; exact (runUntilD_nonInc hc hP _).1

end Visits
end Fcl
