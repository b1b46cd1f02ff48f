import Verif.BVH.ProtocolLemmas

/-! # Every allowed call does what the specification says -/

namespace Fcl
set_option linter.unusedSectionVars false
variable {V K : Type*} [Field K] [LinearOrder K] [IsStrictOrderedRing K]
variable {o : BVOps V K} {pts : V → Set (V3 K)} {right : Geom K → V → List ℕ → ℕ → Bool}
variable {junk : BVNode V} {junkIdx : ℕ}

open BModel

theorem holds_take {m : BModel V K} {n : ℕ} {P : BT V ℕ → Prop} (h : m.Holds n P) (m' : BModel V K) (hb : m'.bvs = m.bvs)
    (hn : m'.numBvs = m.numBvs) (hp : m'.prims = m.prims.take n) : m'.Holds n P := by
  obtain ⟨h1, h2, h3, h4, ids, t, ht, hids, hpr, hP⟩ := h
  refine ⟨hn.trans h1, by rw [hb]; exact h2, by rw [hp]; simp; exact h3, h4, ids, t, ?_, hids, hpr, hP⟩
  refine ht.congr (fun i _ => by rw [hb]) fun i _ hi => ?_
  rw [hp, List.getElem?_take_of_lt (by omega)]

theorem Rep.verts_ne {m : BModel V K} {vs : List (V3 K)} {ts : List (ℕ × ℕ × ℕ)} {P : BT V ℕ → Prop} (hr : InRange vs ts)
    (h : m.Holds (Geom.numPrims ⟨vs, none, ts⟩) P) : vs ≠ [] := by
  rintro rfl
  have h4 := h.2.2.2.1
  cases ts with
  | nil => simp [Geom.numPrims, Geom.isMesh] at h4
  | cons t ts => simpa using (hr t (by simp)).1

theorem numPrims_eq {vs : List (V3 K)} {ts : List (ℕ × ℕ × ℕ)} :
    Geom.numPrims ⟨vs, none, ts⟩ = if ts.length = 0 then vs.length else ts.length := by
  cases ts <;> simp [Geom.numPrims, Geom.isMesh]

theorem Holds.mono {m m' : BModel V K} {n n' : ℕ} {P Q : BT V ℕ → Prop} (h : m.Holds n P) (hn : n = n') (hb : m'.bvs = m.bvs)
    (hp : m'.prims = m.prims) (hnb : m'.numBvs = m.numBvs) (hPQ : ∀ t, P t → Q t) : m'.Holds n' Q := by
  subst hn
  obtain ⟨h1, h2, h3, h4, ids, t, ht, hids, hpr, hP⟩ := h
  exact ⟨hnb.trans h1, by rw [hb]; exact h2, by rw [hp]; exact h3, h4, ids, t, by rw [hb, hp]; exact ht, hids, hpr, hPQ t hP⟩

theorem step_begin {m : BModel V K} {a : Abs K} (h : m.Rep pts a) (nt nv : ℤ) :
    ∃ m', m.beginModel nt nv = ((a.step (.beginModel nt nv)).1, m') ∧ m'.Rep pts (a.step (.beginModel nt nv)).2 := by
  have key : ∀ b : Abs K, m.state ≠ .empty →
      ∃ m', m.beginModel nt nv = (.outOfSequence, m') ∧ m'.Rep pts (.empty : Abs K) := by
    intro _ hs
    refine ⟨(m.beginModel nt nv).2, ?_, ?_⟩
    · simp [beginModel, hs]
    · simp only [beginModel, hs, ne_eq, not_false_iff, if_true]
      generalize (if nv ≤ 0 then 8 else nv.toNat) = kv
      generalize (if nt < 0 then 8 else nt.toNat) = kt
      split <;> exact ⟨rfl, ⟨rfl, rfl, by simp, by simp⟩, rfl, rfl, rfl, rfl⟩
  cases a with
  | empty =>
    obtain ⟨h1, ⟨d1, d2, -, -⟩, h3, h4, h5, h6⟩ := h
    simp only [List.length_nil] at d1 d2
    refine ⟨(m.beginModel nt nv).2, ?_, ?_⟩
    · simp [beginModel, h1, Abs.step]
    · simp only [beginModel, h1, Abs.step, ne_eq, not_true_eq_false, if_false]
      have hnv : 1 ≤ (if nv ≤ 0 then 8 else nv.toNat) := by split <;> omega
      generalize (if nv ≤ 0 then 8 else nv.toNat) = kv at *
      generalize (if nt < 0 then 8 else nt.toNat) = kt at *
      split
      · exact ⟨rfl, ⟨d1, d2, by simp [d1], by simp [d2]⟩, h3, h4, h5, h6, by simp, by simp, by simp [d2], hnv⟩
      · rename_i hk
        exact ⟨rfl, ⟨d1, d2, by simp [d1], by simp [d2]⟩, h3, h4, h5, h6, by simp, by simp; omega, by simp [d2], hnv⟩
  | building vs ts => exact key .empty (by rw [h.1]; simp)
  | ready vs ts => exact key .empty (by rw [h.1]; simp)
  | replacing vs k ts => exact key .empty (by rw [h.1]; simp)
  | updating vs k ts => exact key .empty (by rw [h.1]; simp)
  | updated vs k ts => exact key .empty (by rw [h.1]; simp)

theorem step_addVertex {m : BModel V K} {a : Abs K} (h : m.Rep pts a) (p : V3 K) :
    ∃ m', m.addVertex p = some ((a.add [p] []).1, m') ∧ m'.Rep pts (a.add [p] []).2 := by
  cases a with
  | building vs ts =>
    obtain ⟨h1, ⟨d1, d2, d3, d4⟩, h3, h4, h5, h6, h7, h8, h9, h10⟩ := h
    rw [d1] at d3
    have hn : vs.length ≤ m.verts.length := take_len d3 rfl
    obtain ⟨a', al', b, e1, e2, e3, e4, e5, e6⟩ := grow_write (ys := [p]) (al := m.vAlloc) (len := m.vAlloc * 2)
      (c := m.numV ≥ m.vAlloc) d3 h7.ge hn (fun _ => by simp; omega) (fun _ => by simp; omega)
    refine ⟨{ m with verts := b, vAlloc := al', numV := m.numV + 1 }, ?_, ?_⟩
    · simp only [addVertex, h1, ne_eq, not_true_eq_false, if_false]
      rw [← d1] at e1 e2
      simp only [e1, e2]
      rfl
    · refine ⟨h1, ⟨by simp [d1], by simpa using d2, by simpa [d1] using e3, by simpa using d4⟩, h3, h4, h5, h6, e4 h7, h8, h9, ?_⟩
      show 1 ≤ al'
      simp at e6; omega
  | empty => exact ⟨m, by simp [addVertex, h.1, Abs.add], h⟩
  | ready vs ts => exact ⟨m, by simp [addVertex, h.1, Abs.add], h⟩
  | replacing vs k ts => exact ⟨m, by simp [addVertex, h.1, Abs.add], h⟩
  | updating vs k ts => exact ⟨m, by simp [addVertex, h.1, Abs.add], h⟩
  | updated vs k ts => exact ⟨m, by simp [addVertex, h.1, Abs.add], h⟩

theorem step_addTriangle {m : BModel V K} {a : Abs K} (h : m.Rep pts a) (p1 p2 p3 : V3 K) (ha : a.isBuilding ∨ a.isReady) :
    ∃ m', m.addTriangle p1 p2 p3 = some ((a.add [p1, p2, p3] [(0, 1, 2)]).1, m') ∧
      m'.Rep pts (a.add [p1, p2, p3] [(0, 1, 2)]).2 := by
  cases a with
  | building vs ts =>
    obtain ⟨h1, ⟨d1, d2, d3, d4⟩, h3, h4, h5, h6, h7, h8, h9, h10⟩ := h
    rw [d1] at d3
    rw [d2] at d4
    have hn : vs.length ≤ m.verts.length := take_len d3 rfl
    have hn' : ts.length ≤ m.tris.length := take_len d4 rfl
    obtain ⟨a', al', b, e1, e2, e3, e4, e5, e6⟩ := grow_write (ys := [p1, p2, p3]) (al := m.vAlloc) (len := m.vAlloc * 2 + 2)
      (c := m.numV + 2 ≥ m.vAlloc) d3 h7.ge hn (fun _ => by simp; omega) (fun _ => by simp; omega)
    obtain ⟨c', cl', d, f1, f2, f3, f4, f5, f6⟩ := grow_write (ys := [(m.numV, m.numV + 1, m.numV + 2)]) (al := m.tAlloc)
      (len := (if m.tAlloc = 0 then 1 else m.tAlloc) * 2) (c := m.numT ≥ m.tAlloc) d4 h8 hn'
      (fun _ => by simp; split <;> omega) (fun _ => by simp; omega)
    refine ⟨{ m with verts := b, vAlloc := al', numV := m.numV + 3, tris := d, tAlloc := cl', numT := m.numT + 1 }, ?_, ?_⟩
    · simp only [addTriangle, h1, reduceCtorEq, if_false]
      rw [← d1] at e1 e2
      rw [← d2] at f1 f2
      simp only [e1, e2, f1, f2]
      rfl
    · simp only [List.length_cons, List.length_nil, Nat.zero_add, Nat.reduceAdd] at e3 e6 f3 f6
      refine ⟨h1, ⟨by simp [d1], by simp [d2], by simpa [d1] using e3, ?_⟩, h3, h4, h5, h6, e4 h7, f5, ?_, ?_⟩
      · simpa [d2, d1, Nat.add_comm] using f3
      · show m.numT + 1 ≤ cl'; omega
      · show 1 ≤ al'; omega
  | ready vs ts => exact ⟨m, by simp [addTriangle, h.1, Abs.add], h⟩
  | empty => simp [Abs.isBuilding, Abs.isReady] at ha
  | replacing vs k ts => simp [Abs.isBuilding, Abs.isReady] at ha
  | updating vs k ts => simp [Abs.isBuilding, Abs.isReady] at ha
  | updated vs k ts => simp [Abs.isBuilding, Abs.isReady] at ha

theorem step_addPoints {m : BModel V K} {a : Abs K} (h : m.Rep pts a) (ps : List (V3 K)) (ha : a.isBuilding ∨ a.isReady) :
    ∃ m', m.addPoints ps = some ((a.add ps []).1, m') ∧ m'.Rep pts (a.add ps []).2 := by
  cases a with
  | building vs ts =>
    obtain ⟨h1, ⟨d1, d2, d3, d4⟩, h3, h4, h5, h6, h7, h8, h9, h10⟩ := h
    rw [d1] at d3
    have hn : vs.length ≤ m.verts.length := take_len d3 rfl
    obtain ⟨a', al', b, e1, e2, e3, e4, e5, e6⟩ := grow_write (ys := ps) (al := m.vAlloc) (len := m.vAlloc * 2 + ps.length - 1)
      (c := m.numV + ps.length ≥ m.vAlloc + 1) d3 h7.ge hn (fun _ => by omega) (fun _ => by omega)
    refine ⟨{ m with verts := b, vAlloc := al', numV := m.numV + ps.length }, ?_, ?_⟩
    · simp only [addPoints, h1, reduceCtorEq, if_false]
      rw [← d1] at e1 e2
      simp only [e1, e2]
      rfl
    · refine ⟨h1, ⟨by simp [d1], by simpa using d2, by simpa [d1] using e3, by simpa using d4⟩, h3, h4, h5, h6, e4 h7, h8, h9, ?_⟩
      show 1 ≤ al'
      by_cases hc : m.numV + ps.length ≥ m.vAlloc + 1
      · rw [if_pos hc] at e1
        have := congrArg (Option.map Prod.snd) e1
        rw [regrow_eq hn (by omega)] at this
        simp at this
        omega
      · rw [if_neg hc] at e1
        have := congrArg (Option.map Prod.snd) e1
        simp at this
        omega
  | ready vs ts => exact ⟨m, by simp [addPoints, h.1, Abs.add], h⟩
  | empty => simp [Abs.isBuilding, Abs.isReady] at ha
  | replacing vs k ts => simp [Abs.isBuilding, Abs.isReady] at ha
  | updating vs k ts => simp [Abs.isBuilding, Abs.isReady] at ha
  | updated vs k ts => simp [Abs.isBuilding, Abs.isReady] at ha

theorem step_addMesh {m : BModel V K} {a : Abs K} (h : m.Rep pts a) (ps : List (V3 K)) (new : List (ℕ × ℕ × ℕ))
    (ha : a.isBuilding ∨ a.isReady) :
    ∃ m', m.addMesh ps new = some ((a.add ps new).1, m') ∧ m'.Rep pts (a.add ps new).2 := by
  cases a with
  | building vs ts =>
    obtain ⟨h1, ⟨d1, d2, d3, d4⟩, h3, h4, h5, h6, h7, h8, h9, h10⟩ := h
    rw [d1] at d3
    rw [d2] at d4
    have hn : vs.length ≤ m.verts.length := take_len d3 rfl
    have hn' : ts.length ≤ m.tris.length := take_len d4 rfl
    obtain ⟨a', al', b, e1, e2, e3, e4, e5, e6⟩ := grow_write (ys := ps) (al := m.vAlloc) (len := m.vAlloc * 2 + ps.length - 1)
      (c := m.numV + ps.length ≥ m.vAlloc + 1) d3 h7.ge hn (fun _ => by omega) (fun _ => by omega)
    obtain ⟨c', cl', d, f1, f2, f3, f4, f5, f6⟩ := grow_write
      (ys := new.map fun t => (t.1 + m.numV, t.2.1 + m.numV, t.2.2 + m.numV)) (al := m.tAlloc)
      (len := (if m.tAlloc = 0 then 1 else m.tAlloc) * 2 + new.length - 1) (c := m.numT + new.length ≥ m.tAlloc + 1) d4 h8 hn'
      (fun _ => by simp; split <;> omega) (fun _ => by simp; omega)
    refine ⟨{ m with verts := b, vAlloc := al', numV := m.numV + ps.length, tris := d, tAlloc := cl',
                     numT := m.numT + new.length }, ?_, ?_⟩
    · simp only [addMesh, h1, reduceCtorEq, if_false]
      rw [← d1] at e1 e2
      rw [← d2] at f1 f2
      simp only [e1, e2, f1, f2]
      rfl
    · simp only [List.length_map] at f3 f6
      refine ⟨h1, ⟨by simp [d1], by simp [d2], by simpa [d1] using e3, ?_⟩, h3, h4, h5, h6, e4 h7, f5, ?_, ?_⟩
      · simpa [d2, d1] using f3
      · show m.numT + new.length ≤ cl'; omega
      · show 1 ≤ al'
        by_cases hc : m.numV + ps.length ≥ m.vAlloc + 1
        · rw [if_pos hc] at e1
          have := congrArg (Option.map Prod.snd) e1
          rw [regrow_eq hn (by omega)] at this
          simp at this
          omega
        · rw [if_neg hc] at e1
          have := congrArg (Option.map Prod.snd) e1
          simp at this
          omega
  | ready vs ts => exact ⟨m, by simp [addMesh, h.1, Abs.add], h⟩
  | empty => simp [Abs.isBuilding, Abs.isReady] at ha
  | replacing vs k ts => simp [Abs.isBuilding, Abs.isReady] at ha
  | updating vs k ts => simp [Abs.isBuilding, Abs.isReady] at ha
  | updated vs k ts => simp [Abs.isBuilding, Abs.isReady] at ha

theorem take_take_self {α : Type*} (a : List (Option α)) {n : ℕ} {xs : List α} (h : a.take n = xs.map some) (c : Prop) [Decidable c]
    {al : ℕ} (hn : n ≤ a.length) :
    ∃ b bl, (if c then (regrow a n n).map (·, n) else some (a, al)) = some (b, bl) ∧ b.take n = xs.map some ∧
      (c → b.length = n) ∧ (¬ c → b = a) := by
  by_cases hc : c
  · rw [if_pos hc, regrow_eq hn le_rfl]
    exact ⟨_, n, rfl, by rw [Nat.sub_self, List.replicate_zero, List.append_nil, List.take_take, min_self, h], fun _ => by simpa using hn, fun h => absurd hc h⟩
  · rw [if_neg hc]
    exact ⟨a, al, rfl, h, fun h => absurd h hc, fun _ => rfl⟩

theorem step_end (hs : o.Sound pts) {m : BModel V K} {a : Abs K} (h : m.Rep pts a) (ha : a.Allowed .endModel) :
    ∃ m', m.endModel (o.type right) junk junkIdx = some ((a.step .endModel).1, m') ∧ m'.Rep pts (a.step .endModel).2 := by
  cases a with
  | building vs ts =>
    obtain ⟨h1, ⟨d1, d2, d3, d4⟩, h3, h4, h5, h6, h7, h8, h9, h10⟩ := h
    by_cases hv : vs = []
    · subst hv
      have ht : ts = [] := by
        cases ts with
        | nil => rfl
        | cons t ts => exact absurd (ha t (by simp)).1 (by simp)
      subst ht
      simp only [List.length_nil] at d1 d2
      refine ⟨m, ?_, h1, ⟨d1, d2, d3, d4⟩, h3, h4, h5, h6, h7, h8, h9, h10⟩
      simp [endModel, h1, d1, d2, Abs.step]
    · have hstep : (Abs.building vs ts).step .endModel = (.ok, .ready vs ts) := by
        cases vs with
        | nil => exact absurd rfl hv
        | cons => rfl
      rw [hstep]
      have hr : InRange vs ts := ha
      have hnv : m.numV ≠ 0 := by rw [d1]; exact fun h => hv (List.length_eq_zero_iff.1 h)
      have hlv := take_len d3 d1
      have hlt := take_len d4 d2
      obtain ⟨b, bl, e1, e2, e3, e4⟩ := take_take_self m.verts d3 (m.vAlloc > m.numV) (al := m.vAlloc) hlv
      obtain ⟨c, cl, f1, f2, -, -⟩ := take_take_self m.tris d4 (m.tAlloc > m.numT) (al := m.tAlloc) hlt
      have hbl : b.length = m.numV := by
        by_cases hc : m.vAlloc > m.numV
        · exact e3 hc
        · rw [e4 hc]; omega
      have hnp : Geom.numPrims ⟨vs, none, ts⟩ = if m.numT = 0 then m.numV else m.numT := by rw [numPrims_eq, d1, d2]
      have hn2 : (if m.numT = 0 then 2 * m.numV - 1 else 2 * m.numT - 1) = 2 * Geom.numPrims ⟨vs, none, ts⟩ - 1 := by
        rw [hnp]; split <;> rfl
      obtain ⟨B, g1, g2⟩ := build_holds (o := o) (right := right) hs
        (m := { m with tris := c, tAlloc := cl, verts := b, vAlloc := bl,
                       bvs := List.replicate (if m.numT = 0 then 2 * m.numV - 1 else 2 * m.numT - 1) junk,
                       prims := List.replicate (if m.numT = 0 then 2 * m.numV - 1 else 2 * m.numT - 1) junkIdx, numBvs := 0 })
        (vs := vs) (ts := ts) ⟨d1, d2, e2, f2⟩ hr hv (by simp [hn2]) (by
          have := numPrims_pos (ts := ts) hv
          simp only [List.length_replicate, hn2]; omega)
      refine ⟨{ m with tris := c, tAlloc := cl, verts := b, vAlloc := bl, bvs := B.bvs, numBvs := B.numBvs, prims := B.prims,
                       state := .processed }, ?_, ?_⟩
      · simp only [endModel, h1, ne_eq, not_true_eq_false, if_false]
        rw [if_neg (by omega)]
        simp only [h1] at g1
        simp only [f1, e1, g1]
      · exact ⟨rfl, ⟨d1, d2, e2, f2⟩, h3, hbl.trans d1, hr, Holds.mono g2 rfl rfl rfl rfl fun _ h => h⟩
  | empty => exact ⟨m, by simp [endModel, h.1, Abs.step], h⟩
  | ready vs ts => exact ⟨m, by simp [endModel, h.1, Abs.step], h⟩
  | replacing vs k ts => exact ⟨m, by simp [endModel, h.1, Abs.step], h⟩
  | updating vs k ts => exact ⟨m, by simp [endModel, h.1, Abs.step], h⟩
  | updated vs k ts => exact ⟨m, by simp [endModel, h.1, Abs.step], h⟩

theorem step_beginReplace {m : BModel V K} {a : Abs K} (h : m.Rep pts a) :
    ∃ m', m.beginReplace = ((a.step .beginReplace).1, m') ∧ m'.Rep pts (a.step .beginReplace).2 := by
  cases a with
  | ready vs ts =>
    obtain ⟨h1, ⟨d1, d2, d3, d4⟩, h3, h4, h5, h6⟩ := h
    refine ⟨?_, ?_, ?_⟩
    rotate_left
    · simp only [beginReplace, h1, ne_eq, not_true_eq_false, if_false]; rfl
    · exact ⟨rfl, ⟨d1, d2, d3, d4⟩, rfl, rfl, Nat.zero_le _, h4, h5, Holds.mono h6 rfl rfl rfl rfl fun _ _ => trivial⟩
  | empty => exact ⟨m, by simp [beginReplace, h.1, Abs.step], h⟩
  | building vs ts => exact ⟨m, by simp [beginReplace, h.1, Abs.step], h⟩
  | replacing vs k ts => exact ⟨m, by simp [beginReplace, h.1, Abs.step], h⟩
  | updating vs k ts => exact ⟨m, by simp [beginReplace, h.1, Abs.step], h⟩
  | updated vs k ts => exact ⟨m, by simp [beginReplace, h.1, Abs.step], h⟩

theorem step_replace {m : BModel V K} {a : Abs K} (h : m.Rep pts a) (ps : List (V3 K)) (ha : a.isReplacing → ps.length ≤ a.room) :
    ∃ m', m.replace ps = some ((a.replace ps).1, m') ∧ m'.Rep pts (a.replace ps).2 := by
  cases a with
  | replacing vs k ts =>
    obtain ⟨h1, ⟨d1, d2, d3, d4⟩, h3, h4, h5, h6, h7, h8⟩ := h
    have hle : ps.length ≤ vs.length - k := ha rfl
    have hve : m.verts = vs.map some := by
      rw [← d3, List.take_of_length_le (by omega)]
    have hw := writeAll_eq m.verts k ps (by omega)
    have hlen : (vs.take k ++ ps ++ vs.drop (k + ps.length)).length = vs.length := by simp; omega
    refine ⟨{ m with verts := m.verts.take k ++ ps.map some ++ m.verts.drop (k + ps.length), numUpd := some (k + ps.length) },
      ?_, ?_⟩
    · simp only [replace, overwrite, h1, ne_eq, not_true_eq_false, if_false, h4, hw]; rfl
    · have hE : m.verts.take k ++ ps.map some ++ m.verts.drop (k + ps.length) =
          (vs.take k ++ ps ++ vs.drop (k + ps.length)).map some := by rw [hve]; simp [List.map_take, List.map_drop]
      refine ⟨h1, ⟨d1.trans hlen.symm, d2, ?_, d4⟩, h3, rfl, ?_, ?_, ?_, ?_⟩
      · show (_ : List _).take m.numV = _
        rw [hE, d1, List.take_of_length_le (by rw [List.length_map, hlen])]
      · rw [hlen]; omega
      · show (_ : List _).length = _
        rw [hE, List.length_map]
      · intro t ht; rw [hlen]; exact h7 t ht
      · exact Holds.mono h8 (numPrims_length ts hlen.symm) rfl rfl rfl fun _ h => h
  | empty => exact ⟨m, by simp [replace, h.1, Abs.replace], h⟩
  | building vs ts => exact ⟨m, by simp [replace, h.1, Abs.replace], h⟩
  | ready vs ts => exact ⟨m, by simp [replace, h.1, Abs.replace], h⟩
  | updating vs k ts => exact ⟨m, by simp [replace, h.1, Abs.replace], h⟩
  | updated vs k ts => exact ⟨m, by simp [replace, h.1, Abs.replace], h⟩

theorem step_endReplace (hs : o.Sound pts) {m : BModel V K} {a : Abs K} (h : m.Rep pts a) (rf bu : Bool) :
    ∃ m', m.endReplace (o.type right) rf bu = some ((a.step (.endReplace rf bu)).1, m') ∧
      m'.Rep pts (a.step (.endReplace rf bu)).2 := by
  cases a with
  | replacing vs k ts =>
    have h0 := h
    obtain ⟨h1, ⟨d1, d2, d3, d4⟩, h3, h4, h5, h6, h7, h8⟩ := h
    by_cases hk : k = vs.length
    · have hstep : (Abs.replacing vs k ts).step (.endReplace rf bu) = (.ok, .ready vs ts) := by simp [Abs.step, hk]
      rw [hstep]
      have hne := Rep.verts_ne h7 h8
      have hnv : m.numV ≠ 0 := by rw [d1]; exact fun h => hne (List.length_eq_zero_iff.1 h)
      cases rf with
      | true =>
        obtain ⟨b, e, hb⟩ := refit_holds (right := right) hs bu hnv ((geom_spec ⟨d1, d2, d3, d4⟩ h7).2.1 h3) h8
        refine ⟨{ m with bvs := b, state := .processed }, ?_, ?_⟩
        · simp only [endReplace, h1, ne_eq, not_true_eq_false, if_false, h4, hk, ← d1, e, if_true]
        · exact ⟨rfl, ⟨d1, d2, d3, d4⟩, h3, h6, h7, Holds.mono hb rfl rfl rfl rfl fun _ h => h⟩
      | false =>
        obtain ⟨B, e, hb⟩ := build_holds (right := right) hs ⟨d1, d2, d3, d4⟩ h7 hne h8.2.1 h8.2.2.1
        refine ⟨{ m with bvs := B.bvs, numBvs := B.numBvs, prims := B.prims, state := .processed }, ?_, ?_⟩
        · simp only [endReplace, h1, ne_eq, not_true_eq_false, if_false, h4, hk, ← d1, e, Bool.false_eq_true]
        · exact ⟨rfl, ⟨d1, d2, d3, d4⟩, h3, h6, h7, Holds.mono hb rfl rfl rfl rfl fun _ h => h⟩
    · have hstep : (Abs.replacing vs k ts).step (.endReplace rf bu) = (.incorrectData, .replacing vs k ts) := by
        simp [Abs.step, hk]
      rw [hstep]
      refine ⟨m, ?_, h0⟩
      simp only [endReplace, h1, ne_eq, not_true_eq_false, if_false, h4, d1, hk, not_false_iff, if_true]
  | empty => exact ⟨m, by simp [endReplace, h.1, Abs.step], h⟩
  | building vs ts => exact ⟨m, by simp [endReplace, h.1, Abs.step], h⟩
  | ready vs ts => exact ⟨m, by simp [endReplace, h.1, Abs.step], h⟩
  | updating vs k ts => exact ⟨m, by simp [endReplace, h.1, Abs.step], h⟩
  | updated vs k ts => exact ⟨m, by simp [endReplace, h.1, Abs.step], h⟩

theorem step_beginUpdate {m : BModel V K} {a : Abs K} (h : m.Rep pts a) :
    ∃ m', m.beginUpdate = ((a.step .beginUpdate).1, m') ∧ m'.Rep pts (a.step .beginUpdate).2 := by
  cases a with
  | ready vs ts =>
    obtain ⟨h1, ⟨d1, d2, d3, d4⟩, h3, h4, h5, h6⟩ := h
    have hve : m.verts = vs.map some := by rw [← d3, List.take_of_length_le (by omega)]
    refine ⟨?_, ?_, ?_⟩
    rotate_left
    · simp only [beginUpdate, h1, ne_eq, not_true_eq_false, false_and, if_false, h3]; rfl
    · exact ⟨rfl, d1, d2, by simp [hve], rfl, Nat.zero_le _, by simp [d1], by simp, d4, h5,
        Holds.mono h6 rfl rfl rfl rfl fun _ _ => trivial⟩
  | updated old vs ts =>
    obtain ⟨h1, ⟨d1, d2, d3, d4⟩, h3, h4, h5, h6, h7⟩ := h
    have hve : m.verts = vs.map some := by rw [← d3, List.take_of_length_le (by omega)]
    refine ⟨?_, ?_, ?_⟩
    rotate_left
    · simp only [beginUpdate, h1, ne_eq, not_true_eq_false, and_false, if_false, h3]; rfl
    · exact ⟨rfl, d1, d2, by simp [hve], rfl, Nat.zero_le _, by simp [h4], by simp, d4, h6,
        Holds.mono h7 rfl rfl rfl rfl fun _ _ => trivial⟩
  | empty => exact ⟨m, by simp [beginUpdate, h.1, Abs.step], h⟩
  | building vs ts => exact ⟨m, by simp [beginUpdate, h.1, Abs.step], h⟩
  | replacing vs k ts => exact ⟨m, by simp [beginUpdate, h.1, Abs.step], h⟩
  | updating vs k ts => exact ⟨m, by simp [beginUpdate, h.1, Abs.step], h⟩

theorem step_update {m : BModel V K} {a : Abs K} (h : m.Rep pts a) (ps : List (V3 K)) (ha : a.isUpdating → ps.length ≤ a.room) :
    ∃ m', m.update ps = some ((a.update ps).1, m') ∧ m'.Rep pts (a.update ps).2 := by
  cases a with
  | updating old given ts =>
    obtain ⟨h1, d1, d2, h3, h4, h5, h6, h7, h8, h9, h10⟩ := h
    have hle : ps.length ≤ old.length - given.length := ha rfl
    obtain ⟨b, e1, e2, e3⟩ := write_next (ys := ps) h7 (by omega)
    refine ⟨{ m with verts := b, numUpd := some (given.length + ps.length) }, ?_, ?_⟩
    · simp only [update, overwrite, h1, ne_eq, not_true_eq_false, if_false, h4, e1]; rfl
    · exact ⟨h1, d1, d2, h3, by simp, by simp; omega, e2.trans h6, by simpa using e3, h8, h9,
        Holds.mono h10 rfl rfl rfl rfl fun _ h => h⟩
  | empty => exact ⟨m, by simp [update, h.1, Abs.update], h⟩
  | building vs ts => exact ⟨m, by simp [update, h.1, Abs.update], h⟩
  | ready vs ts => exact ⟨m, by simp [update, h.1, Abs.update], h⟩
  | replacing vs k ts => exact ⟨m, by simp [update, h.1, Abs.update], h⟩
  | updated vs k ts => exact ⟨m, by simp [update, h.1, Abs.update], h⟩

theorem step_endUpdate (hs : o.Sound pts) {m : BModel V K} {a : Abs K} (h : m.Rep pts a) (rf bu : Bool) :
    ∃ m', m.endUpdate (o.type right) rf bu = some ((a.step (.endUpdate rf bu)).1, m') ∧
      m'.Rep pts (a.step (.endUpdate rf bu)).2 := by
  cases a with
  | updating old given ts =>
    have h0 := h
    obtain ⟨h1, d1, d2, h3, h4, h5, h6, h7, h8, h9, h10⟩ := h
    by_cases hk : given.length = old.length
    · have hstep : (Abs.updating old given ts).step (.endUpdate rf bu) = (.ok, .updated old given ts) := by simp [Abs.step, hk]
      rw [hstep]
      have hD : m.Data given ts := ⟨d1.trans hk.symm, d2, by rw [d1, ← hk]; exact h7, h8⟩
      have hR : InRange given ts := by intro t ht; rw [hk]; exact h9 t ht
      have hH : m.Holds (Geom.numPrims ⟨given, none, ts⟩) fun _ => True :=
        Holds.mono h10 (numPrims_length ts hk.symm) rfl rfl rfl fun _ h => h
      have hne := Rep.verts_ne hR hH
      have hnv : m.numV ≠ 0 := by rw [hD.numV]; exact fun h => hne (List.length_eq_zero_iff.1 h)
      have hg := (geom_spec hD hR).2.2 old h3 hk.symm
      cases rf with
      | true =>
        obtain ⟨b, e, hb⟩ := refit_holds (right := right) hs bu hnv hg hH
        refine ⟨{ m with bvs := b, state := .updated }, ?_, ?_⟩
        · simp only [endUpdate, h1, ne_eq, not_true_eq_false, if_false, h4, hk, ← d1, e, if_true]
        · exact ⟨rfl, ⟨hD.1, hD.2, hD.3, hD.4⟩, h3, hk.symm, h6.trans hk.symm, hR, Holds.mono hb rfl rfl rfl rfl fun _ h => h⟩
      | false =>
        obtain ⟨B, e, hb⟩ := build_holds (right := right) hs hD hR hne hH.2.1 hH.2.2.1
        obtain ⟨b, e', hb'⟩ := refit_holds (right := right)
          (m := { m with bvs := B.bvs, numBvs := B.numBvs, prims := B.prims }) hs bu hnv hg hb
        refine ⟨{ m with bvs := b, numBvs := B.numBvs, prims := B.prims, state := .updated }, ?_, ?_⟩
        · have E := (congrArg (fun x => x.bind (BModel.refit (o.type right) bu)) e).trans e'
          simp only [endUpdate, h1, ne_eq, not_true_eq_false, if_false, h4, hk, ← d1, Bool.false_eq_true, E]
        · exact ⟨rfl, ⟨hD.1, hD.2, hD.3, hD.4⟩, h3, hk.symm, h6.trans hk.symm, hR, Holds.mono hb' rfl rfl rfl rfl fun _ h => h⟩
    · have hstep : (Abs.updating old given ts).step (.endUpdate rf bu) = (.incorrectData, .updating old given ts) := by
        simp [Abs.step, hk]
      rw [hstep]
      refine ⟨m, ?_, h0⟩
      simp only [endUpdate, h1, ne_eq, not_true_eq_false, if_false, h4, d1, hk, not_false_iff, if_true]
  | empty => exact ⟨m, by simp [endUpdate, h.1, Abs.step], h⟩
  | building vs ts => exact ⟨m, by simp [endUpdate, h.1, Abs.step], h⟩
  | ready vs ts => exact ⟨m, by simp [endUpdate, h.1, Abs.step], h⟩
  | replacing vs k ts => exact ⟨m, by simp [endUpdate, h.1, Abs.step], h⟩
  | updated vs k ts => exact ⟨m, by simp [endUpdate, h.1, Abs.step], h⟩

theorem copy_eq {m : BModel V K} (h1 : m.numV ≤ m.verts.length) (h2 : m.numT ≤ m.tris.length) (h3 : m.numBvs ≤ m.bvs.length)
    (h4 : m.prims ≠ [] → (if m.numV = 0 then 0 else if m.numT = 0 then m.numV else m.numT) ≤ m.prims.length)
    (h5 : ∀ old, m.prev = some old → m.numV ≤ old.length) :
    m.copy = some { m with verts := m.verts.take m.numV, vAlloc := m.numV, tris := m.tris.take m.numT, tAlloc := m.numT,
                           prev := m.prev.map (·.take m.numV), numUpd := none, bvs := m.bvs.take m.numBvs,
                           prims := m.prims.take (if m.numV = 0 then 0 else if m.numT = 0 then m.numV else m.numT) } := by
  have hp : ¬ (m.prev.any fun old => old.length < m.numV) = true := by
    cases hpv : m.prev with
    | none => simp
    | some old => simpa using h5 old hpv
  simp only [copy]
  rw [if_neg]
  rintro (h | h | h | ⟨ha, hb⟩ | h)
  · omega
  · omega
  · omega
  · have := h4 ha; omega
  · exact hp h

theorem step_copy {m : BModel V K} {a : Abs K} (h : m.Rep pts a) (ha : a.Allowed .copy) :
    ∃ m', m.copy = some m' ∧ m'.Rep pts a := by
  cases a with
  | empty =>
    obtain ⟨h1, ⟨d1, d2, d3, d4⟩, h3, h4, h5, h6⟩ := h
    refine ⟨_, copy_eq (take_len d3 d1) (take_len d4 d2) (by omega) (fun h => absurd h5 h) (by simp [h3]), ?_⟩
    exact ⟨h1, ⟨d1, d2, by rw [List.take_take, min_self, d3], by rw [List.take_take, min_self, d4]⟩, by simp [h3], by simp [h4], by simp [h5], h6⟩
  | building vs ts =>
    obtain ⟨h1, ⟨d1, d2, d3, d4⟩, h3, h4, h5, h6, h7, h8, h9, h10⟩ := h
    have hv := take_len d3 d1
    have ht := take_len d4 d2
    have hne : vs ≠ [] := ha
    have := List.length_pos_of_ne_nil hne
    refine ⟨_, copy_eq hv ht (by omega) (fun h => absurd h5 h) (by simp [h3]), ?_⟩
    exact ⟨h1, ⟨d1, d2, by rw [List.take_take, min_self, d3], by rw [List.take_take, min_self, d4]⟩, by simp [h3], by simp [h4], by simp [h5], h6,
      by simpa using hv, by simpa using ht, le_rfl, by simp only; omega⟩
  | ready vs ts =>
    obtain ⟨h1, ⟨d1, d2, d3, d4⟩, h3, h4, h5, h6⟩ := h
    have hne := Rep.verts_ne h5 h6
    have hnv : m.numV ≠ 0 := by rw [d1]; exact fun h => hne (List.length_eq_zero_iff.1 h)
    have hnp : Geom.numPrims ⟨vs, none, ts⟩ = if m.numV = 0 then 0 else if m.numT = 0 then m.numV else m.numT := by
      rw [numPrims_eq, if_neg hnv, d1, d2]
    refine ⟨_, copy_eq (take_len d3 d1) (take_len d4 d2) (by rw [h6.1, h6.2.1]) (fun _ => hnp ▸ h6.2.2.1) (by simp [h3]), ?_⟩
    refine ⟨h1, ⟨d1, d2, by rw [List.take_take, min_self, d3], by rw [List.take_take, min_self, d4]⟩, by simp [h3], by simp [d1, h4], h5, ?_⟩
    refine holds_take h6 _ ?_ rfl ?_
    · show m.bvs.take _ = _; rw [h6.1, List.take_of_length_le (by rw [h6.2.1])]
    · show m.prims.take _ = _; rw [hnp]
  | replacing vs k ts => exact ha.elim
  | updating vs k ts => exact ha.elim
  | updated old vs ts =>
    obtain ⟨h1, ⟨d1, d2, d3, d4⟩, h3, h4, h5, h6, h7⟩ := h
    have hne := Rep.verts_ne h6 h7
    have hnv : m.numV ≠ 0 := by rw [d1]; exact fun h => hne (List.length_eq_zero_iff.1 h)
    have hnp : Geom.numPrims ⟨vs, none, ts⟩ = if m.numV = 0 then 0 else if m.numT = 0 then m.numV else m.numT := by
      rw [numPrims_eq, if_neg hnv, d1, d2]
    refine ⟨_, copy_eq (take_len d3 d1) (take_len d4 d2) (by rw [h7.1, h7.2.1]) (fun _ => hnp ▸ h7.2.2.1)
      (by rintro l hl; rw [h3] at hl; cases hl; simp; omega), ?_⟩
    refine ⟨h1, ⟨d1, d2, by rw [List.take_take, min_self, d3], by rw [List.take_take, min_self, d4]⟩, ?_, h4, by simp [d1, h5], h6, ?_⟩
    · show m.prev.map _ = _
      rw [h3, Option.map_some, List.take_of_length_le (by simp; omega)]
    refine holds_take h7 _ ?_ rfl ?_
    · show m.bvs.take _ = _; rw [h7.1, List.take_of_length_le (by rw [h7.2.1])]
    · show m.prims.take _ = _; rw [hnp]

/-- All calls. -/
theorem step_call (hs : o.Sound pts) {m : BModel V K} {a : Abs K} (h : m.Rep pts a) (c : BCall K) (ha : a.Allowed c) :
    ∃ m', m.call (o.type right) junk junkIdx c = some ((a.step c).1, m') ∧ m'.Rep pts (a.step c).2 := by
  cases c with
  | beginModel nt nv =>
    obtain ⟨m', e, h'⟩ := step_begin h nt nv
    exact ⟨m', congrArg some e, h'⟩
  | addVertex p => exact step_addVertex h p
  | addTriangle p1 p2 p3 => exact step_addTriangle h p1 p2 p3 ha
  | addPoints ps => exact step_addPoints h ps ha
  | addMesh ps ts => exact step_addMesh h ps ts ha
  | endModel => exact step_end hs h ha
  | beginReplace =>
    obtain ⟨m', e, h'⟩ := step_beginReplace h
    exact ⟨m', congrArg some e, h'⟩
  | replaceVertex p => exact step_replace h [p] ha
  | replaceTriangle p1 p2 p3 => exact step_replace h [p1, p2, p3] ha
  | replaceSub ps => exact step_replace h ps ha
  | endReplace r b => exact step_endReplace hs h r b
  | beginUpdate =>
    obtain ⟨m', e, h'⟩ := step_beginUpdate h
    exact ⟨m', congrArg some e, h'⟩
  | updateVertex p => exact step_update h [p] ha
  | updateTriangle p1 p2 p3 => exact step_update h [p1, p2, p3] ha
  | updateSub ps => exact step_update h ps ha
  | endUpdate r b => exact step_endUpdate hs h r b
  | copy =>
    obtain ⟨m', e, h'⟩ := step_copy h ha
    exact ⟨m', by simp only [call, e]; rfl, h'⟩

theorem rep_fresh : (BModel.fresh : BModel V K).Rep pts .empty :=
  ⟨rfl, ⟨rfl, rfl, rfl, rfl⟩, rfl, rfl, rfl, rfl⟩

end Fcl
