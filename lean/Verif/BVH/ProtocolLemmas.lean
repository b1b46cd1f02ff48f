import Verif.BVH.ProtocolSpec
import Verif.Props.BVH

/-! # Lemmas on the calls of `BVHModel` -/

namespace Fcl
set_option linter.unusedSectionVars false

section arrays
variable {α : Type*}

theorem regrow_eq {a : List (Option α)} {n len : ℕ} (h1 : n ≤ a.length) (h2 : n ≤ len) :
    regrow a n len = some (a.take n ++ List.replicate (len - n) none) := if_pos ⟨h1, h2⟩

theorem writeAll_eq (a : List (Option α)) (i : ℕ) (xs : List α) (h : i + xs.length ≤ a.length) :
    writeAll a i xs = some (a.take i ++ xs.map some ++ a.drop (i + xs.length)) := by
  induction xs generalizing a i with
  | nil => simp [writeAll]
  | cons x xs ih =>
    simp only [List.length_cons] at h
    rw [writeAll, if_pos (by omega), ih _ _ (by simp; omega)]
    congr 1
    have hlt : i < a.length := by omega
    have e1 : (a.set i (some x)).take (i + 1) = a.take i ++ [some x] := by
      rw [List.take_add_one, List.take_set_of_le (le_refl i), List.getElem?_set_self hlt]; rfl
    have e2 : (a.set i (some x)).drop (i + 1 + xs.length) = a.drop (i + 1 + xs.length) :=
      List.drop_set_of_lt (by omega)
    rw [e1, e2]
    simp only [List.map_cons, List.length_cons, List.append_assoc, List.cons_append, List.nil_append]
    rw [show i + 1 + xs.length = i + (xs.length + 1) by omega]

theorem readAll_map (l : List α) : readAll (l.map some) = some l := by
  induction l with
  | nil => rfl
  | cons x l ih => simp [readAll, ih]

/-- Appending to an array with `n` elements in use. -/
theorem write_next {a : List (Option α)} {xs ys : List α} (h : a.take xs.length = xs.map some)
    (hl : xs.length + ys.length ≤ a.length) :
    ∃ b, writeAll a xs.length ys = some b ∧ b.length = a.length ∧
      b.take (xs.length + ys.length) = (xs ++ ys).map some := by
  refine ⟨_, writeAll_eq a _ ys hl, ?_, ?_⟩
  · simp; omega
  · rw [h, List.append_assoc, ← List.append_assoc, List.take_left' (by simp)]
    simp

/-- Appending with growing first. -/
theorem grow_write {a : List (Option α)} {xs ys : List α} {al len : ℕ} {c : Prop} [Decidable c]
    (h : a.take xs.length = xs.map some) (hal : al ≤ a.length) (hn : xs.length ≤ a.length)
    (h1 : c → xs.length + ys.length ≤ len) (h2 : ¬ c → xs.length + ys.length ≤ al) :
    ∃ a' al' b, (if c then (regrow a xs.length len).map (·, len) else some (a, al)) = some (a', al') ∧
      writeAll a' xs.length ys = some b ∧ b.take (xs.length + ys.length) = (xs ++ ys).map some ∧
      (a.length = al → b.length = al') ∧ al' ≤ b.length ∧ xs.length + ys.length ≤ al' := by
  by_cases hc : c
  · have hle := h1 hc
    rw [if_pos hc, regrow_eq hn (by omega)]
    obtain ⟨b, e, hl, ht⟩ := write_next (a := a.take xs.length ++ List.replicate (len - xs.length) none) (xs := xs)
      (ys := ys) (by rw [List.take_left' (by simp; omega), h]) (by simp; omega)
    have : b.length = len := by rw [hl]; simp; omega
    exact ⟨_, len, b, rfl, e, ht, fun _ => this, this.ge, hle⟩
  · have hle := h2 hc
    rw [if_neg hc]
    obtain ⟨b, e, hl, ht⟩ := write_next (ys := ys) h (by omega)
    exact ⟨_, al, b, rfl, e, ht, fun h => hl.trans h, by omega, hle⟩

end arrays

section
variable {V K : Type*} [Field K] [LinearOrder K] [IsStrictOrderedRing K]

theorem take_len {α : Type*} {a : List (Option α)} {n : ℕ} {xs : List α} (h : a.take n = xs.map some) (hn : n = xs.length) :
    n ≤ a.length := by
  have := congrArg List.length h
  simp at this
  omega

theorem geom_spec {m : BModel V K} {vs : List (V3 K)} {ts : List (ℕ × ℕ × ℕ)} (h : m.Data vs ts) (hr : InRange vs ts) :
    m.geom? false = some ⟨vs, none, ts⟩ ∧ (m.prev = none → m.geom? true = some ⟨vs, none, ts⟩) ∧
      ∀ old : List (V3 K), m.prev = some (old.map some) → old.length = vs.length →
        m.geom? true = some ⟨vs, some old, ts⟩ := by
  have hv := take_len h.verts h.numV
  have ht := take_len h.tris h.numT
  have hall : (ts.all fun t => t.1 < vs.length && t.2.1 < vs.length && t.2.2 < vs.length) = true := by
    rw [List.all_eq_true]
    intro t htm
    have := hr t htm
    simp [this]
  have hneg : ¬ (m.verts.length < m.numV ∨ m.tris.length < m.numT) := by omega
  refine ⟨?_, fun hp => ?_, fun old hp hl => ?_⟩
  · simp only [BModel.geom?, if_neg hneg, h.verts, h.tris, readAll_map, hall, if_true]
    cases m.prev <;> rfl
  · simp only [BModel.geom?, if_neg hneg, h.verts, h.tris, readAll_map, hall, if_true, hp]
  · have e : (old.map some).take m.numV = old.map some := List.take_of_length_le (by simp [hl, h.numV])
    have hlt : ¬ (old.map some).length < m.numV := by simp [hl, h.numV]
    simp only [BModel.geom?, if_neg hneg, h.verts, h.tris, readAll_map, hall, if_true, hp, if_neg hlt, e]
    rfl

theorem numPrims_prev (vs : List (V3 K)) (ts : List (ℕ × ℕ × ℕ)) (old : Option (List (V3 K))) :
    Geom.numPrims ⟨vs, old, ts⟩ = Geom.numPrims ⟨vs, none, ts⟩ := rfl

theorem numPrims_length {vs vs' : List (V3 K)} (ts : List (ℕ × ℕ × ℕ)) (h : vs.length = vs'.length) :
    Geom.numPrims ⟨vs, none, ts⟩ = Geom.numPrims ⟨vs', none, ts⟩ := by
  simp only [Geom.numPrims, Geom.isMesh, h]
  rfl

theorem numPrims_pos {vs : List (V3 K)} {ts : List (ℕ × ℕ × ℕ)} (h : vs ≠ []) :
    1 ≤ Geom.numPrims ⟨vs, none, ts⟩ := by
  have := List.length_pos_of_ne_nil h
  cases ts <;> simp [Geom.numPrims, Geom.isMesh] <;> omega

variable {o : BVOps V K} {pts : V → Set (V3 K)} {right : Geom K → V → List ℕ → ℕ → Bool}

/-- `buildTree` on arrays that are large enough. -/
theorem build_holds (hs : o.Sound pts) {m : BModel V K} {vs : List (V3 K)} {ts : List (ℕ × ℕ × ℕ)} (h : m.Data vs ts)
    (hr : InRange vs ts) (hne : vs ≠ []) (hb : m.bvs.length = 2 * Geom.numPrims ⟨vs, none, ts⟩ - 1)
    (hp : Geom.numPrims ⟨vs, none, ts⟩ ≤ m.prims.length) :
    ∃ b : Built V, m.build (o.type right) = some { m with bvs := b.bvs, numBvs := b.numBvs, prims := b.prims } ∧
      BModel.Holds { m with bvs := b.bvs, numBvs := b.numBvs, prims := b.prims } (Geom.numPrims ⟨vs, none, ts⟩)
        (Enclosing (Encloses pts ⟨vs, none, ts⟩)) := by
  have hpos := numPrims_pos (ts := ts) hne
  obtain ⟨bvs', prims', t, ids, e, hl, hpl, ht, hids, -, hpr, -, hfit, -⟩ :=
    C31_build (o.builder ⟨vs, none, ts⟩ (right ⟨vs, none, ts⟩)) hpos le_rfl hb.ge hp
  have hv : m.numV ≠ 0 := by
    rw [h.numV]; exact fun h => hne (List.length_eq_zero_iff.1 h)
  refine ⟨⟨bvs', _, prims'⟩, ?_, rfl, hl.trans hb, by rw [hpl]; exact hp, hpos, ids, t, ht, hids, hpr, ?_⟩
  · simp only [BModel.build, if_neg hv, (geom_spec h hr).1]
    rw [show (o.type right).builder ⟨vs, none, ts⟩ = o.builder ⟨vs, none, ts⟩ (right ⟨vs, none, ts⟩) from rfl, e]
  · exact C31_enclosing _ hfit fun l p hp => fit_encloses hs hp

/-- `refitTree` on a hierarchy. -/
theorem refit_holds (hs : o.Sound pts) (bottomup : Bool) {m : BModel V K} {vs : List (V3 K)} {ts : List (ℕ × ℕ × ℕ)}
    {old : Option (List (V3 K))} (hv : m.numV ≠ 0) (hg : m.geom? true = some ⟨vs, old, ts⟩) {P : BT V ℕ → Prop}
    (hh : m.Holds (Geom.numPrims ⟨vs, none, ts⟩) P) :
    ∃ b, m.refit (o.type right) bottomup = some { m with bvs := b } ∧
      BModel.Holds { m with bvs := b } (Geom.numPrims ⟨vs, none, ts⟩) (Enclosing (Encloses pts ⟨vs, old, ts⟩)) := by
  obtain ⟨h1, h2, h3, h4, ids, t, ht, hids, hpr, -⟩ := hh
  cases bottomup with
  | true =>
    obtain ⟨bvs', t', e, hst, ht', hpr', hE⟩ := C32_bottomup_mesh hs ⟨vs, old, ts⟩ ht (hids.nodup_iff.2 List.nodup_range)
      (le_refl (Geom.numPrims ⟨vs, none, ts⟩))
    refine ⟨bvs', ?_, h1, hst.1.trans h2, h3, h4, ids, t', ht', hids, hpr' ▸ hpr, hE⟩
    simp only [BModel.refit, if_neg hv, hg, if_true]
    rw [numPrims_prev, show (o.type right).leafFit ⟨vs, old, ts⟩ = o.leafFit ⟨vs, old, ts⟩ from rfl,
      show (o.type right).merge = o.merge from rfl, e]
  | false =>
    obtain ⟨bvs', t', e, hst, ht', hpr', hE⟩ := C32_topdown_mesh hs ⟨vs, old, ts⟩ ht hids h2
    refine ⟨bvs', ?_, h1, hst.1.trans h2, h3, h4, ids, t', ht', hids, hpr' ▸ hpr, hE⟩
    simp only [BModel.refit, if_neg hv, hg, Bool.false_eq_true, if_false]
    rw [show (o.type right).fit ⟨vs, old, ts⟩ = o.fit ⟨vs, old, ts⟩ from rfl, h1, e]

end
end Fcl
