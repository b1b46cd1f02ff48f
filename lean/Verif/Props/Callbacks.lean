import Verif.Narrow.Results
import Verif.Props.DynTree
import Verif.Props.SSaP
import Verif.Props.Naive

/-! # C29: the default callbacks, and C56: complete queries with them -/

namespace Fcl
set_option linter.unusedSectionVars false

/-- Specification of what the callbacks rely on: `fcl::collide` keeps the contacts already found; unless
the request was satisfied before the call, it adds a contact exactly when the two objects collide; and it
adds all the `avail a b` contacts the pair has, up to the requested number. -/
structure HonestCollide {O C K : Type*} (q : CollRequest)
    (collide : O → O → CollResult C K → CollResult C K) (hits : O → O → Prop) (avail : O → O → ℕ) :
    Prop where
  keeps : ∀ a b r, r.contacts <+: (collide a b r).contacts
  finds : ∀ a b r, q.isSatisfied r = false → ((collide a b r).contacts ≠ r.contacts ↔ hits a b)
  enough : ∀ a b r, min q.numMax (r.numContacts + avail a b) ≤ (collide a b r).numContacts

/-- Specification: `fcl::distance` does nothing when the request is satisfied (`min_distance ≤ 0`), and
otherwise lowers `min_distance` to the distance `d a b` of the pair if that is smaller. -/
structure HonestDistance {O K V G : Type*} [LinearOrder K] [Zero K]
    (distance : O → O → DistResult K V G → DistResult K V G) (d : O → O → K) : Prop where
  idle : ∀ a b r, distSatisfied r = true → distance a b r = r
  lowers : ∀ a b r, distSatisfied r = false → (distance a b r).minDist = min r.minDist (d a b)

section collide
variable {O C K : Type*} {q : CollRequest} {collide : O → O → CollResult C K → CollResult C K}
  {hits : O → O → Prop} {avail : O → O → ℕ}

/-- Once `done` is set, a call does nothing and asks to stop. -/
theorem C29_done (s : CollData C K) (hs : s.done = true) (a b : O) :
    defaultCollide q collide s a b = (s, true) := by
  simp [defaultCollide, hs]

theorem isCollision_iff (r : CollResult C K) : r.isCollision = true ↔ r.contacts ≠ [] := by
  simp [CollResult.isCollision, List.length_pos_iff]

/-- C29, `DefaultCollisionFunction` on any sequence of pairs: the query stops early only when the request
is satisfied, and then further calls do nothing; a collision is reported exactly when there was one before
or some pair of the whole sequence collides; the requested number of contacts is reached whenever the pairs
of the whole sequence have that many. -/
theorem C29_collide (hc : HonestCollide q collide hits avail) (s : CollData C K) (hs : s.done = false)
    (ps : List (O × O)) :
    let r := runUntil (defaultCollide q collide) s ps
    (r.2 = true → q.isSatisfied r.1.result = true) ∧ r.1.done = r.2 ∧
    (r.1.result.isCollision = true ↔
      s.result.isCollision = true ∨ ∃ p ∈ ps, hits p.1 p.2) ∧
    min q.numMax (s.result.numContacts + (ps.map (fun p => avail p.1 p.2)).sum) ≤
      r.1.result.numContacts := by
  induction ps generalizing s with
  | nil => simp [hs]
  | cons p ps ih =>
    have hk := hc.keeps p.1 p.2 s.result
    have hf := hc.finds p.1 p.2 s.result
    have he := hc.enough p.1 p.2 s.result
    have hcol : (collide p.1 p.2 s.result).isCollision = true ↔
        s.result.isCollision = true ∨ hits p.1 p.2 ∧ (collide p.1 p.2 s.result).isCollision = true := by
      constructor
      · intro h
        by_cases h0 : s.result.isCollision = true
        · exact Or.inl h0
        · have hns : q.isSatisfied s.result = false := by
            unfold CollRequest.isSatisfied
            rw [Bool.not_eq_true] at h0
            simp [h0]
          refine Or.inr ⟨(hf hns).1 ?_, h⟩
          rw [isCollision_iff, not_not] at h0
          rw [isCollision_iff] at h
          rw [h0]; exact h
      · rintro (h | h)
        · rw [isCollision_iff] at h ⊢
          intro h'
          rw [h'] at hk
          exact h (List.prefix_nil.1 hk)
        · exact h.2
    have hhit : hits p.1 p.2 → (collide p.1 p.2 s.result).isCollision = true := by
      intro h
      by_cases h0 : s.result.isCollision = true
      · exact hcol.2 (Or.inl h0)
      · have hns : q.isSatisfied s.result = false := by
          unfold CollRequest.isSatisfied
          rw [Bool.not_eq_true] at h0
          simp [h0]
        have := (hf hns).2 h
        rw [isCollision_iff, not_not] at h0
        rw [isCollision_iff]
        rwa [h0] at this
    by_cases hsat : (!q.enableCost && (collide p.1 p.2 s.result).isCollision &&
        decide ((collide p.1 p.2 s.result).numContacts ≥ q.numMax)) = true
    · have e : defaultCollide q collide s p.1 p.2 = (⟨collide p.1 p.2 s.result, true⟩, true) := by
        simp only [defaultCollide, hs, hsat, Bool.false_eq_true, if_false, if_true]
      simp only [runUntil, e, if_true]
      have hc1 : (collide p.1 p.2 s.result).isCollision = true := by
        simp only [Bool.and_eq_true] at hsat; exact hsat.1.2
      refine ⟨fun _ => hsat, trivial, ⟨fun _ => ?_, fun _ => hc1⟩, ?_⟩
      · rcases hcol.1 hc1 with h | h
        · exact Or.inl h
        · exact Or.inr ⟨p, List.mem_cons_self .., h.1⟩
      · simp only [Bool.and_eq_true, decide_eq_true_iff] at hsat
        exact (min_le_left _ _).trans hsat.2
    · have e : defaultCollide q collide s p.1 p.2 = (⟨collide p.1 p.2 s.result, false⟩, false) := by
        simp only [defaultCollide, hs, hsat, Bool.false_eq_true, if_false]
      simp only [runUntil, e, Bool.false_eq_true, if_false]
      obtain ⟨i1, i2, i3, i4⟩ := ih ⟨collide p.1 p.2 s.result, false⟩ rfl
      refine ⟨i1, i2, ?_, ?_⟩
      · rw [i3]
        constructor
        · rintro (h | ⟨x, hx, h⟩)
          · rcases hcol.1 h with h | h
            · exact Or.inl h
            · exact Or.inr ⟨p, List.mem_cons_self .., h.1⟩
          · exact Or.inr ⟨x, List.mem_cons_of_mem _ hx, h⟩
        · rintro (h | ⟨x, hx, h⟩)
          · exact Or.inl (hcol.2 (Or.inl h))
          · rcases List.mem_cons.1 hx with rfl | hx
            · exact Or.inl (hhit h)
            · exact Or.inr ⟨x, hx, h⟩
      · refine le_trans ?_ i4
        simp only [List.map_cons, List.sum_cons]
        omega

/-- C29: with cost computation enabled the query never stops early. -/
theorem C29_collide_cost (hq : q.enableCost = true) (s : CollData C K) (hs : s.done = false)
    (ps : List (O × O)) :
    (runUntil (defaultCollide q collide) s ps).2 = false ∧
    (runUntil (defaultCollide q collide) s ps).1.result =
      ps.foldl (fun r p => collide p.1 p.2 r) s.result := by
  induction ps generalizing s with
  | nil => exact ⟨rfl, rfl⟩
  | cons p ps ih =>
    have e : defaultCollide q collide s p.1 p.2 = (⟨collide p.1 p.2 s.result, false⟩, false) := by
      simp [defaultCollide, hs, hq]
    simp only [runUntil, e, Bool.false_eq_true, if_false]
    exact ih _ rfl

/-- C29: the continuous collision callback never stops early on its own, so every pair is processed. -/
theorem C29_continuous {R : Type*} (coll : O → O → R → R) (r : R) (ps : List (O × O)) :
    runUntil (defaultContinuous coll) (r, false) ps = ((ps.foldl (fun r p => coll p.1 p.2 r) r, false), false) := by
  induction ps generalizing r with
  | nil => rfl
  | cons p ps ih => exact ih _

end collide

section distance
variable {O K V G : Type*} [LinearOrder K] [Zero K]
  {distance : O → O → DistResult K V G → DistResult K V G} {d : O → O → K}

/-- C29: once `done` is set, `DefaultDistanceFunction` reports the recorded minimum, asks to stop and
changes nothing; likewise the continuous callback. -/
theorem C29_distance_done (s : DistData K V G) (hs : s.done = true) (md : K) (a b : O) :
    defaultDistance distance s md a b = (s, s.result.minDist, true) := by
  simp [defaultDistance, hs]

omit [LinearOrder K] [Zero K] in
theorem C29_continuous_done {R : Type*} (coll : O → O → R → R) (r : R) (a b : O) :
    defaultContinuous coll (r, true) a b = ((r, true), true) := rfl

/-- C29, `DefaultDistanceFunction` on any sequence of pairs, from a bound that agrees with the record: the
recorded minimum agrees with the bound at the end; some initial part of the sequence was examined, the
result is the minimum over it, and it is the whole sequence unless the result is non-positive; the result
is non-positive exactly when it was at the start or some pair of the whole sequence is in contact. -/
theorem C29_distance (hd : HonestDistance distance d) (s : DistData K V G) (hs : s.done = false)
    (ps : List (O × O)) :
    let r := runUntilD (defaultDistance distance) s s.result.minDist ps
    r.1.result.minDist = r.2.1 ∧
    (∃ qs, qs <+: ps ∧ (0 < s.result.minDist → r.2.1 = minDist d s.result.minDist qs) ∧
      (qs = ps ∨ r.2.1 ≤ 0)) ∧
    (r.2.1 ≤ 0 ↔ s.result.minDist ≤ 0 ∨ ∃ p ∈ ps, d p.1 p.2 ≤ 0) := by
  induction ps generalizing s with
  | nil => exact ⟨rfl, ⟨[], List.prefix_refl _, fun _ => rfl, Or.inl rfl⟩, by simp [runUntilD]⟩
  | cons p ps ih =>
    have hm : (distance p.1 p.2 s.result).minDist ≤ 0 ↔ s.result.minDist ≤ 0 ∨ d p.1 p.2 ≤ 0 := by
      by_cases h0 : s.result.minDist ≤ 0
      · rw [hd.idle p.1 p.2 s.result (by simpa [distSatisfied] using h0)]; simp [h0]
      · rw [hd.lowers p.1 p.2 s.result (by simpa [distSatisfied] using h0), min_le_iff]
    have hpos : 0 < s.result.minDist → (distance p.1 p.2 s.result).minDist = min s.result.minDist (d p.1 p.2) :=
      fun h => hd.lowers _ _ _ (by simpa [distSatisfied] using h)
    by_cases hz : (distance p.1 p.2 s.result).minDist ≤ 0
    · have e : defaultDistance distance s s.result.minDist p.1 p.2 =
          (⟨distance p.1 p.2 s.result, false⟩, (distance p.1 p.2 s.result).minDist, true) := by
        simp [defaultDistance, hs, hz]
      simp only [runUntilD, e, if_true]
      refine ⟨trivial, ⟨[p], by simp, fun h => ?_, Or.inr hz⟩, ⟨fun _ => ?_, fun _ => hz⟩⟩
      · rw [hpos h, min_comm]; rfl
      · exact (hm.1 hz).imp_right fun h => ⟨p, List.mem_cons_self .., h⟩
    · have e : defaultDistance distance s s.result.minDist p.1 p.2 =
          (⟨distance p.1 p.2 s.result, false⟩, (distance p.1 p.2 s.result).minDist, false) := by
        simp [defaultDistance, hs, hz]
      simp only [runUntilD, e, Bool.false_eq_true, if_false]
      obtain ⟨i1, ⟨qs, i2, i3, i4⟩, i5⟩ := ih ⟨distance p.1 p.2 s.result, false⟩ rfl
      refine ⟨i1, ⟨p :: qs, by simpa using i2, fun h => ?_, ?_⟩, ?_⟩
      · rw [i3 (not_le.1 hz)]
        show minDist d (distance p.1 p.2 s.result).minDist qs = _
        rw [hpos h, minDist_min]; rfl
      · exact i4.imp_left fun h => by rw [h]
      · rw [i5]
        constructor
        · rintro (h | ⟨x, hx, h⟩)
          · exact absurd h hz
          · exact Or.inr ⟨x, List.mem_cons_of_mem _ hx, h⟩
        · rintro (h | ⟨x, hx, h⟩)
          · exact absurd (hm.2 (Or.inl h)) hz
          · rcases List.mem_cons.1 hx with rfl | hx
            · exact absurd (hm.2 (Or.inr h)) hz
            · exact Or.inr ⟨x, hx, h⟩

/-- C29: after `DefaultDistanceFunction` has asked to stop, a further call changes nothing and asks to stop
again with the same bound. -/
theorem C29_distance_after_stop (hd : HonestDistance distance d) (s : DistData K V G) (md : K) (a b : O)
    (h : (defaultDistance distance s md a b).2.2 = true) (a' b' : O) :
    defaultDistance distance (defaultDistance distance s md a b).1 (defaultDistance distance s md a b).2.1 a' b'
      = defaultDistance distance s md a b := by
  by_cases hs : s.done = true
  · simp [defaultDistance, hs]
  · rw [Bool.not_eq_true] at hs
    by_cases hz : (distance a b s.result).minDist ≤ 0
    · have e : defaultDistance distance s md a b =
          (⟨distance a b s.result, false⟩, (distance a b s.result).minDist, true) := by
        simp [defaultDistance, hs, hz]
      rw [e]
      simp only [defaultDistance, Bool.false_eq_true, if_false]
      rw [hd.idle a' b' _ (by simpa [distSatisfied] using hz)]
      simp [hz]
    · simp [defaultDistance, hs, hz] at h

/-- The library's own distance callback meets the hypothesis of the manager theorems (C10, C12, C15) when
distances are not negative and the record agrees with the bound, as it does when a query starts. -/
theorem C29_distance_tracks (hd : HonestDistance distance d) (hn : ∀ a b, 0 ≤ d a b) (ps : List (O × O)) :
    (defaultDistance distance).Tracks (fun s md => s.done = false ∧ s.result.minDist = md) d ps := by
  rintro s md ⟨hs, rfl⟩ a b
  have hm : (distance a b s.result).minDist = min s.result.minDist (d a b) := by
    by_cases h0 : s.result.minDist ≤ 0
    · rw [hd.idle a b s.result (by simpa [distSatisfied] using h0), min_eq_left (h0.trans (hn a b))]
    · exact hd.lowers a b s.result (by simpa [distSatisfied] using h0)
  by_cases hz : (distance a b s.result).minDist ≤ 0
  · have e : defaultDistance distance s s.result.minDist a b =
        (⟨distance a b s.result, false⟩, (distance a b s.result).minDist, true) := by
      simp [defaultDistance, hs, hz]
    rw [e]
    exact ⟨⟨rfl, rfl⟩, hm, fun _ p _ => hz.trans (hn _ _)⟩
  · have e : defaultDistance distance s s.result.minDist a b =
        (⟨distance a b s.result, false⟩, (distance a b s.result).minDist, false) := by
      simp [defaultDistance, hs, hz]
    rw [e]
    exact ⟨⟨rfl, rfl⟩, hm, by simp⟩

end distance

/-! ### Non-vacuity -/
namespace CallbackExample

/-- Objects are numbers, two of them collide when their difference is at most one, one contact each. -/
def coll (a b : ℕ) (r : CollResult (ℕ × ℕ) ℤ) : CollResult (ℕ × ℕ) ℤ :=
  if a ≤ b + 1 ∧ b ≤ a + 1 then r.addContact (a, b) else r

theorem coll_honest (q : CollRequest) : HonestCollide q coll (fun a b => a ≤ b + 1 ∧ b ≤ a + 1)
    (fun a b => if a ≤ b + 1 ∧ b ≤ a + 1 then 1 else 0) where
  keeps a b r := by
    unfold coll
    split
    · exact List.prefix_append _ _
    · exact List.prefix_refl _
  finds a b r _ := by
    unfold coll
    split
    · rename_i h; simp [CollResult.addContact, h]
    · rename_i h; simp [h]
  enough a b r := by
    unfold coll
    split <;> simp [CollResult.addContact, CollResult.numContacts]

/-- A concrete run: stop after two contacts, the third colliding pair is not examined. -/
example : let r := (runUntil (defaultCollide ⟨2, false⟩ coll) ⟨CollResult.empty, false⟩
      [(1, 5), (1, 2), (3, 9), (4, 4), (5, 6)]);
    (r.1.result.contacts, r.2) = ([(1, 2), (4, 4)], true) := by decide

/-- Distance of numbers. -/
def dst (a b : ℕ) (r : DistResult ℤ ℕ ℕ) : DistResult ℤ ℕ ℕ :=
  if distSatisfied r then r else r.update ⟨|(a : ℤ) - b|, some a, some b, -1, -1, some (a, b)⟩

theorem dst_honest : HonestDistance dst (fun a b => |(a : ℤ) - b|) where
  idle a b r h := by simp [dst, h]
  lowers a b r h := by
    simp only [dst, h, Bool.false_eq_true, if_false, DistResult.update]
    split
    · rename_i h'; exact (min_eq_right h'.le).symm
    · rename_i h'; exact (min_eq_left (not_lt.1 h')).symm

example : let r := (runUntilD (defaultDistance dst) ⟨DistResult.init 100 (0, 0), false⟩ 100
      [(1, 5), (1, 4), (3, 3), (4, 4)]);
    (r.1.result.minDist, r.1.result.nearest, r.2) = (0, (3, 3), 0, true) := by decide

end CallbackExample

/-! ## C56: whole queries -/

section whole
open HTree Mgr
variable {K O C : Type*} [LinearOrder K] [DecidableEq O] {q : CollRequest}
  {collide : O → O → CollResult C K → CollResult C K} {hits : O → O → Prop} {avail : O → O → ℕ}

/-- A fresh `DefaultCollisionData`. -/
def CollData.fresh : CollData C K := ⟨CollResult.empty, false⟩

theorem found_iff (hc : HonestCollide q collide hits avail) (ps : List (O × O)) :
    (runUntil (defaultCollide q collide) CollData.fresh ps).1.result.isCollision = true ↔
      ∃ p ∈ ps, hits p.1 p.2 := by
  obtain ⟨-, -, h, -⟩ := C29_collide hc CollData.fresh rfl ps
  rw [h]
  simp [CollData.fresh, CollResult.empty, CollResult.isCollision]

/-- C56, dynamic tree, `collide(obj)` with the default callback: if colliding objects have overlapping
boxes, the query reports a collision exactly when some registered object collides with the query object,
whatever the history and however early the search stops. -/
theorem C56_tree_object (hc : HonestCollide q collide hits avail) {cs : List (MgrCall K O)} {r : Reg K O}
    (h : History cs [] r) (cfg : Cfg K O) (w : O → AABB K) (o : O)
    (hbox : ∀ e ∈ r, hits e.1 o → e.2.overlap (w o) = true) :
    ∃ m, (Mgr.empty : Mgr K O).run cs = some m ∧
      ∃ data, m.collideObj cfg w (defaultCollide q collide) o CollData.fresh = some data ∧
        (data.result.isCollision = true ↔ ∃ e ∈ r, hits e.1 o) := by
  obtain ⟨m, h1, ps, h2, h3⟩ := C07_collide_object h cfg w o
  refine ⟨m, h1, _, h3 _ _ _, ?_⟩
  rw [found_iff hc]
  constructor
  · rintro ⟨p, hp, hh⟩
    obtain ⟨e, he, rfl⟩ := List.mem_map.1 (h2.mem_iff.1 hp)
    exact ⟨e, (List.mem_filter.1 he).1, hh⟩
  · rintro ⟨e, he, hh⟩
    exact ⟨(e.1, o), h2.mem_iff.2 (List.mem_map.2 ⟨e, List.mem_filter.2 ⟨he, hbox e he hh⟩, rfl⟩), hh⟩

/-- C56, dynamic tree, `collide()` among the registered objects. -/
theorem C56_tree_self (hc : HonestCollide q collide hits avail) (hsym : ∀ a b, hits a b → hits b a)
    {cs : List (MgrCall K O)} {r : Reg K O} (h : History cs [] r) (cfg : Cfg K O)
    (hbox : ∀ e ∈ r, ∀ f ∈ r, hits e.1 f.1 → e.2.overlap f.2 = true) :
    ∃ m, (Mgr.empty : Mgr K O).run cs = some m ∧
      ∃ data, m.collideAll cfg (defaultCollide q collide) CollData.fresh = some data ∧
        (data.result.isCollision = true ↔ ∃ e ∈ r, ∃ f ∈ r, e.1 ≠ f.1 ∧ hits e.1 f.1) := by
  obtain ⟨m, h1, l, ps, hl, hnd, h2, h3⟩ := C08_collide_self h cfg
  refine ⟨m, h1, _, h3 _ _ _, ?_⟩
  rw [found_iff hc]
  have hln : l.Nodup := List.Nodup.of_map _ hnd
  obtain ⟨-, s2, s3⟩ := C08_pairs_spec l hln
  constructor
  · rintro ⟨p, hp, hh⟩
    obtain ⟨x, hx, rfl⟩ := List.mem_map.1 (h2.mem_iff.1 hp)
    obtain ⟨k1, k2, k3⟩ := s3 x (List.mem_filter.1 hx).1
    refine ⟨x.1, hl.mem_iff.1 k1, x.2, hl.mem_iff.1 k2, fun e => k3 ?_, hh⟩
    exact List.inj_on_of_nodup_map hnd k1 k2 e
  · rintro ⟨e, he, f, hf, hne, hh⟩
    have mk : ∀ e f : O × AABB K, (e, f) ∈ pairsUp l → hits e.1 f.1 → e ∈ r → f ∈ r →
        ∃ p ∈ ps, hits p.1 p.2 := fun e f hp hh he hf =>
      ⟨(e.1, f.1), h2.mem_iff.2 (List.mem_map.2 ⟨(e, f), List.mem_filter.2 ⟨hp, hbox e he f hf hh⟩, rfl⟩), hh⟩
    rcases s2 e (hl.mem_iff.2 he) f (hl.mem_iff.2 hf) (fun h => hne (by rw [h])) with k | k
    · exact mk e f k.1 hh he hf
    · exact mk f e k.1 (hsym _ _ hh) hf he

/-- C56, dynamic tree, `collide(other_manager)`. -/
theorem C56_tree_managers (hc : HonestCollide q collide hits avail) {cs cs' : List (MgrCall K O)}
    {r r' : Reg K O} (h : History cs [] r) (h' : History cs' [] r') (cfg : Cfg K O)
    (hbox : ∀ e ∈ r, ∀ f ∈ r', hits e.1 f.1 → e.2.overlap f.2 = true) :
    ∃ m m', (Mgr.empty : Mgr K O).run cs = some m ∧ (Mgr.empty : Mgr K O).run cs' = some m' ∧
      ∃ data, m.collideOther cfg (defaultCollide q collide) m' CollData.fresh = some data ∧
        (data.result.isCollision = true ↔ ∃ e ∈ r, ∃ f ∈ r', hits e.1 f.1) := by
  obtain ⟨m, m', h1, h1', ps, h2, h3⟩ := C09_collide_managers h h' cfg
  refine ⟨m, m', h1, h1', _, h3 _ _ _, ?_⟩
  rw [found_iff hc]
  constructor
  · rintro ⟨p, hp, hh⟩
    obtain ⟨x, hx, rfl⟩ := List.mem_map.1 (h2.mem_iff.1 hp)
    have := List.mem_product.1 (List.mem_filter.1 hx).1
    exact ⟨x.1, this.1, x.2, this.2, hh⟩
  · rintro ⟨e, he, f, hf, hh⟩
    exact ⟨(e.1, f.1), h2.mem_iff.2 (List.mem_map.2 ⟨(e, f), List.mem_filter.2
      ⟨List.mem_product.2 ⟨he, hf⟩, hbox e he f hf hh⟩, rfl⟩), hh⟩

/-- C56, SSaP manager, `collide(obj)`. -/
theorem C56_ssap_object (hc : HonestCollide q collide hits avail) {h : List (SCall K O)} (hh : SHistory h)
    {w : O → AABB K} (hu : UpToDate h w) (o : O)
    (hbox : ∀ e, regd e h = true → hits e o → (w e).overlap (w o) = true) :
    ((SSaP.run h).collideObj w (defaultCollide q collide) o CollData.fresh).result.isCollision = true ↔
      ∃ e, regd e h = true ∧ e ≠ o ∧ hits e o := by
  obtain ⟨l, -, h2, h3⟩ := C13_ssap hh hu o
  rw [h3, found_iff hc]
  constructor
  · rintro ⟨p, hp, hx⟩
    obtain ⟨e, he, rfl⟩ := List.mem_map.1 hp
    obtain ⟨k1, k2, -⟩ := (h2 e).1 he
    exact ⟨e, k1, k2, hx⟩
  · rintro ⟨e, k1, k2, hx⟩
    exact ⟨(e, o), List.mem_map.2 ⟨e, (h2 e).2 ⟨k1, k2, hbox e k1 hx⟩, rfl⟩, hx⟩

/-- C56, brute force manager, `collide(obj)`. -/
theorem C56_naive_object (hc : HonestCollide q collide hits avail) (h : List (MgrOp O)) (o : O) :
    ((Naive.run h).collideObj (defaultCollide q collide) o CollData.fresh).result.isCollision = true ↔
      ∃ e, registered e h = true ∧ hits o e := by
  rw [C12_collide_object, found_iff hc]
  constructor
  · rintro ⟨p, hp, hx⟩
    obtain ⟨e, he, rfl⟩ := List.mem_map.1 hp
    exact ⟨e, ((C12_objects h).1 e).1 he, hx⟩
  · rintro ⟨e, k1, hx⟩
    exact ⟨(o, e), List.mem_map.2 ⟨e, ((C12_objects h).1 e).2 k1, rfl⟩, hx⟩

/-- C56: the three managers give the same yes/no answer for the same scene, although they examine
different candidate pairs in different orders. -/
theorem C56_managers_agree (hc : HonestCollide q collide hits avail) (hsym : ∀ a b, hits a b → hits b a)
    {cs : List (MgrCall K O)} {r : Reg K O} (ht : History cs [] r) (cfg : Cfg K O)
    {h : List (SCall K O)} (hh : SHistory h) {w : O → AABB K} (hu : UpToDate h w) (hn : List (MgrOp O))
    (o : O) (hr : ∀ e, (∃ b, (e, b) ∈ r) ↔ regd e h = true) (hr' : ∀ e, registered e hn = regd e h)
    (ho : regd o h = false) (hwb : ∀ e ∈ r, (w e.1).hi = e.2.hi ∧ (w e.1).lo = e.2.lo)
    (hbox : ∀ e, regd e h = true → hits e o → (w e).overlap (w o) = true) :
    ∃ m data, (Mgr.empty : Mgr K O).run cs = some m ∧
      m.collideObj cfg w (defaultCollide q collide) o CollData.fresh = some data ∧
      data.result.isCollision =
        ((SSaP.run h).collideObj w (defaultCollide q collide) o CollData.fresh).result.isCollision ∧
      data.result.isCollision =
        ((Naive.run hn).collideObj (defaultCollide q collide) o CollData.fresh).result.isCollision := by
  obtain ⟨m, h1, data, h2, h3⟩ := C56_tree_object hc ht cfg w o (by
    intro e he hx
    have : w e.1 = e.2 := by
      obtain ⟨e1, e2⟩ := hwb e he
      cases hw : w e.1; cases he2 : e.2
      rw [hw, he2] at e1 e2
      simp only at e1 e2
      rw [e1, e2]
    rw [← this]
    exact hbox e.1 ((hr e.1).1 ⟨e.2, he⟩) hx)
  refine ⟨m, data, h1, h2, ?_, ?_⟩
  · rw [Bool.eq_iff_iff, h3, C56_ssap_object hc hh hu o hbox]
    constructor
    · rintro ⟨e, he, hx⟩
      have := (hr e.1).1 ⟨e.2, he⟩
      refine ⟨e.1, this, ?_, hx⟩
      rintro rfl
      rw [ho] at this
      exact absurd this (by simp)
    · rintro ⟨e, k1, -, hx⟩
      obtain ⟨b, hb⟩ := (hr e).2 k1
      exact ⟨(e, b), hb, hx⟩
  · rw [Bool.eq_iff_iff, h3, C56_naive_object hc hn o]
    constructor
    · rintro ⟨e, he, hx⟩
      exact ⟨e.1, by rw [hr']; exact (hr e.1).1 ⟨e.2, he⟩, hsym _ _ hx⟩
    · rintro ⟨e, k1, hx⟩
      rw [hr'] at k1
      obtain ⟨b, hb⟩ := (hr e).2 k1
      exact ⟨(e, b), hb, hsym _ _ hx⟩

/-- Non-vacuity of C56: on the example history of the tree manager, cubes collide when their numbers
differ by at most one, and such cubes have overlapping boxes as far as object 7 is concerned. -/
example : ∃ m, (Mgr.empty : Mgr ℤ ℕ).run DynExample.calls = some m ∧
    ∃ data, m.collideObj DynExample.cfg (fun _ => DynExample.cube 6)
        (defaultCollide ⟨1, false⟩ CallbackExample.coll) 6 CollData.fresh = some data ∧
      data.result.isCollision = true := by
  obtain ⟨m, h1, data, h2, h3⟩ := C56_tree_object (CallbackExample.coll_honest ⟨1, false⟩)
    DynExample.history DynExample.cfg (fun _ => DynExample.cube 6) 6 (by decide)
  exact ⟨m, h1, data, h2, h3.2 ⟨(5, DynExample.cube 5), by decide, by decide⟩⟩

end whole

section wholeDist
open HTree Mgr
variable {K O V G : Type*} [LinearOrder K] [Zero K] [DecidableEq O] [AABB.ArithOps K] [AABB.LawfulArith K]
  {distance : O → O → DistResult K V G → DistResult K V G} {d : O → O → K}

/-- A fresh `DefaultDistanceData`. -/
def DistData.fresh (big : K) (junk : V × V) : DistData K V G := ⟨DistResult.init big junk, false⟩

/-- C56, dynamic tree, `distance(obj)` with the default callback: the recorded minimum is the smallest
distance from the query object to a registered object. -/
theorem C56_tree_distance_object (hd : HonestDistance distance d) (hn : ∀ a b, 0 ≤ d a b)
    {cs : List (MgrCall K O)} {r : Reg K O} (h : History cs [] r) (hv : ∀ e ∈ r, e.2.Valid)
    (w : O → AABB K) (q : O) (hq : (w q).Valid) (hbox : ∀ e ∈ r, (w q).distance e.2 ≤ d e.1 q)
    (big : K) (junk : V × V) :
    ∃ m, (Mgr.empty : Mgr K O).run cs = some m ∧
      ∃ res, m.distanceObj big AABB.distance w (defaultDistance distance) q (DistData.fresh big junk) = some res ∧
        (∀ e ∈ r, res.1.result.minDist ≤ d e.1 q) ∧ res.1.result.minDist ≤ big ∧
        (res.1.result.minDist = big ∨ ∃ e ∈ r, res.1.result.minDist = d e.1 q) := by
  obtain ⟨m, h1, res, h2, ⟨-, h3⟩, h4⟩ := C10_distance_object h hv w q hq big d hbox
    (defaultDistance distance) _ (C29_distance_tracks hd hn _) (DistData.fresh big junk) ⟨rfl, rfl⟩
  refine ⟨m, h1, res, h2, ?_, ?_, ?_⟩
  · intro e he
    rw [h3, h4]
    exact minDist_le d big _ (e.1, q) (List.mem_map.2 ⟨e, he, rfl⟩)
  · rw [h3, h4]; exact minDist_le_big _ _ _
  · rw [h3, h4]
    rcases minDist_mem d big (r.map (fun e => (e.1, q))) with h | ⟨p, hp, h⟩
    · exact Or.inl h
    · obtain ⟨e, he, rfl⟩ := List.mem_map.1 hp
      exact Or.inr ⟨e, he, h⟩

/-- C56, dynamic tree, `distance()` among the registered objects. -/
theorem C56_tree_distance_self (hd : HonestDistance distance d) (hn : ∀ a b, 0 ≤ d a b)
    (hsym : ∀ a b, d a b = d b a)
    {cs : List (MgrCall K O)} {r : Reg K O} (h : History cs [] r) (hv : ∀ e ∈ r, e.2.Valid) (cfg : Cfg K O)
    (hbox : ∀ e ∈ r, ∀ f ∈ r, e.2.distance f.2 ≤ d e.1 f.1) (big : K) (junk : V × V) :
    ∃ m, (Mgr.empty : Mgr K O).run cs = some m ∧
      ∃ res, m.distanceAll cfg big AABB.distance (defaultDistance distance) (DistData.fresh big junk) = some res ∧
        (∀ e ∈ r, ∀ f ∈ r, e.1 ≠ f.1 → res.1.result.minDist ≤ d e.1 f.1) ∧ res.1.result.minDist ≤ big ∧
        (res.1.result.minDist = big ∨ ∃ e ∈ r, ∃ f ∈ r, e.1 ≠ f.1 ∧ res.1.result.minDist = d e.1 f.1) := by
  obtain ⟨m, h1, l, hl, res, h2, ⟨-, h3⟩, h4⟩ := C10_distance_self h hv cfg big d hbox
    (defaultDistance distance) _ (C29_distance_tracks hd hn _) (DistData.fresh big junk) ⟨rfl, rfl⟩
  obtain ⟨-, -, ⟨os, -, o1, o2⟩, -⟩ := C05_objects h
  have hnd : (r.map (·.1)).Nodup := o1.nodup_iff.1 o2
  have hld : (l.map (·.1)).Nodup := (hl.map _).nodup_iff.2 hnd
  obtain ⟨-, s2, s3⟩ := C08_pairs_spec l (List.Nodup.of_map _ hld)
  refine ⟨m, h1, res, h2, ?_, ?_, ?_⟩
  · intro e he f hf hne
    rw [h3, h4]
    rcases s2 e (hl.mem_iff.2 he) f (hl.mem_iff.2 hf) (fun h => hne (by rw [h])) with k | k
    · exact minDist_le d big _ (e.1, f.1) (List.mem_map.2 ⟨(e, f), k.1, rfl⟩)
    · rw [hsym]
      exact minDist_le d big _ (f.1, e.1) (List.mem_map.2 ⟨(f, e), k.1, rfl⟩)
  · rw [h3, h4]; exact minDist_le_big _ _ _
  · rw [h3, h4]
    rcases minDist_mem d big ((pairsUp l).map (fun p => (p.1.1, p.2.1))) with h | ⟨p, hp, h⟩
    · exact Or.inl h
    · obtain ⟨x, hx, rfl⟩ := List.mem_map.1 hp
      obtain ⟨k1, k2, k3⟩ := s3 x hx
      exact Or.inr ⟨x.1, hl.mem_iff.1 k1, x.2, hl.mem_iff.1 k2,
        fun e => k3 (List.inj_on_of_nodup_map hld k1 k2 e), h⟩

/-- C56, dynamic tree, `distance(other_manager)`. -/
theorem C56_tree_distance_managers (hd : HonestDistance distance d) (hn : ∀ a b, 0 ≤ d a b)
    {cs cs' : List (MgrCall K O)} {r r' : Reg K O} (h : History cs [] r) (h' : History cs' [] r')
    (hv : ∀ e ∈ r, e.2.Valid) (hv' : ∀ e ∈ r', e.2.Valid) (cfg : Cfg K O)
    (hbox : ∀ e ∈ r, ∀ f ∈ r', e.2.distance f.2 ≤ d e.1 f.1) (big : K) (junk : V × V) :
    ∃ m m', (Mgr.empty : Mgr K O).run cs = some m ∧ (Mgr.empty : Mgr K O).run cs' = some m' ∧
      ∃ res, m.distanceOther cfg big AABB.distance (defaultDistance distance) m' (DistData.fresh big junk) =
          some res ∧
        (∀ e ∈ r, ∀ f ∈ r', res.1.result.minDist ≤ d e.1 f.1) ∧ res.1.result.minDist ≤ big ∧
        (res.1.result.minDist = big ∨ ∃ e ∈ r, ∃ f ∈ r', res.1.result.minDist = d e.1 f.1) := by
  obtain ⟨m, m', h1, h1', res, h2, ⟨-, h3⟩, h4⟩ := C10_distance_managers h h' hv hv' cfg big d hbox
    (defaultDistance distance) _ (C29_distance_tracks hd hn _) (DistData.fresh big junk) ⟨rfl, rfl⟩
  refine ⟨m, m', h1, h1', res, h2, ?_, ?_, ?_⟩
  · intro e he f hf
    rw [h3, h4]
    exact minDist_le d big _ (e.1, f.1) (List.mem_map.2 ⟨(e, f), List.mem_product.2 ⟨he, hf⟩, rfl⟩)
  · rw [h3, h4]; exact minDist_le_big _ _ _
  · rw [h3, h4]
    rcases minDist_mem d big ((r.product r').map (fun p => (p.1.1, p.2.1))) with h | ⟨p, hp, h⟩
    · exact Or.inl h
    · obtain ⟨x, hx, rfl⟩ := List.mem_map.1 hp
      have := List.mem_product.1 hx
      exact Or.inr ⟨x.1, this.1, x.2, this.2, h⟩

end wholeDist

end Fcl
