import Verif.Octree.SolverSpec
import Verif.Props.Octree
import Verif.Props.OBB
import Verif.Props.AABB

/-!
# Lemmas on the queries of octrees
-/

namespace Fcl
namespace Octree
open ConvertBV

/-! ### Searching -/

section
variable {I : Type*} {q : MeshRequest} {Must Must' : Path → I → Prop} {May May' : OContact I → Prop}

/-- One call of a recursive search: it has found what it must, or it says stop because the limit is reached. -/
structure Found (q : MeshRequest) (Must : Path → I → Prop) (May : OContact I → Prop) (r : OResult I) (x : OResult I × Bool) : Prop where
  rep : Reports q.req.numMax Must May r x.1
  stop : x.2 = true → q.req.numMax ≤ x.1.contacts.length

theorem Found.none (h : ∀ b1 b2, ¬ Must b1 b2) (r : OResult I) : Found q Must May r (r, false) :=
  ⟨⟨⟨[], by simp, by simp, fun _ b1 b2 k => absurd k (h b1 b2)⟩, le_max_left _ _⟩, by simp⟩

/-- Costs do not matter. -/
theorem Found.costs {r : OResult I} {x : OResult I × Bool} (h : ∀ b1 b2, ¬ Must b1 b2) (hx : x.1.contacts = r.contacts) (hs : x.2 = false) :
    Found q Must May r x :=
  ⟨⟨⟨[], by simp [hx], by simp, fun _ b1 b2 k => absurd k (h b1 b2)⟩, by rw [hx]; exact le_max_left _ _⟩, by simp [hs]⟩

theorem Found.mono {r : OResult I} {x : OResult I × Bool} (h : Found q Must May r x) (hm : ∀ b1 b2, Must' b1 b2 → Must b1 b2)
    (hM : ∀ c, May c → May' c) : Found q Must' May' r x := by
  obtain ⟨⟨⟨new, e, s, a⟩, b⟩, st⟩ := h
  exact ⟨⟨⟨new, e, fun c hc => hM c (s c hc), fun hl b1 b2 k => a hl b1 b2 (hm b1 b2 k)⟩, b⟩, st⟩

/-- One call after another. -/
theorem Found.seq {Must1 Must2 : Path → I → Prop} {f g : OResult I → OResult I × Bool}
    (hf : ∀ r, Found q Must1 May r (f r)) (hg : ∀ r, Found q Must2 May r (g r)) (r : OResult I) :
    Found q (fun a b => Must1 a b ∨ Must2 a b) May r (if (f r).2 then ((f r).1, true) else g (f r).1) := by
  obtain ⟨⟨⟨n1, e1, s1, a1⟩, b1⟩, t1⟩ := hf r
  by_cases c : (f r).2 = true
  · rw [if_pos c]
    have := t1 c
    exact ⟨⟨⟨n1, e1, s1, fun hl => absurd hl (Nat.not_lt.2 this)⟩, b1⟩, fun _ => this⟩
  · rw [if_neg c]
    obtain ⟨⟨⟨n2, e2, s2, a2⟩, b2⟩, t2⟩ := hg (f r).1
    refine ⟨⟨⟨n1 ++ n2, by rw [e2, e1, List.append_assoc], ?_, ?_⟩, ?_⟩, t2⟩
    · intro c hc
      rcases List.mem_append.1 hc with h | h
      · exact s1 c h
      · exact s2 c h
    · intro hl x y h
      rcases h with h | h
      · obtain ⟨c, hc, h'⟩ := a1 (by rw [e2, List.length_append] at hl; omega) x y h
        exact ⟨c, List.mem_append_left _ hc, h'⟩
      · obtain ⟨c, hc, h'⟩ := a2 hl x y h
        exact ⟨c, List.mem_append_right _ hc, h'⟩
    · omega

theorem Found.loop {ι : Type*} {M : ι → Path → I → Prop} {f : ι → OResult I → OResult I × Bool} :
    ∀ {l : List ι}, (∀ i ∈ l, ∀ r, Found q (M i) May r (f i r)) → ∀ r, Found q (fun a b => ∃ i ∈ l, M i a b) May r (until' f l r)
  | [], _, r => Found.none (by simp) r
  | i :: l, h, r => by
    have := Found.seq (h i (by simp)) (Found.loop (l := l) fun j hj => h j (by simp [hj])) r
    rw [until']
    exact this.mono (fun a b k => by simpa using k) (fun _ => id)

end

/-! ### Adding contacts -/

section
variable {I : Type*}

theorem foldl_contacts (mk : CPoint → OContact I) : ∀ (l : List CPoint) (r : OResult I),
    (l.foldl (fun r c => r.addContact (mk c)) r).contacts = r.contacts ++ l.map mk
  | [], r => by simp
  | c :: l, r => by
    rw [List.foldl_cons, foldl_contacts mk l]
    simp [CollResult.addContact]

/-- One contact is added if there is space. -/
theorem addOne_found {q : MeshRequest} {Must : Path → I → Prop} {May : OContact I → Prop} {c : OContact I} (hM : May c)
    (hm : ∀ b1 b2, Must b1 b2 → c.b1 = b1 ∧ c.b2 = b2) (r : OResult I) (f : OResult I → OResult I) (hf : ∀ r, (f r).contacts = r.contacts) :
    Found q Must May r (f (addOne q c r), q.req.isSatisfied (f (addOne q c r))) := by
  refine ⟨?_, fun h => ?_⟩
  · rw [addOne]
    by_cases h : r.numContacts < q.req.numMax
    · rw [if_pos h]
      rw [CollResult.numContacts] at h
      refine ⟨⟨[c], by simp [hf, CollResult.addContact], by simpa using hM, fun _ b1 b2 k => ⟨c, by simp, hm b1 b2 k⟩⟩, ?_⟩
      simp only [hf, CollResult.addContact, List.length_append, List.length_singleton]
      omega
    · rw [if_neg h]
      rw [CollResult.numContacts] at h
      refine ⟨⟨[], by simp [hf], by simp, fun hl => ?_⟩, by rw [hf]; exact le_max_left _ _⟩
      rw [hf] at hl
      exact absurd hl h
  · simp only [CollRequest.isSatisfied, Bool.and_eq_true, CollResult.numContacts] at h
    exact of_decide_eq_true h.2

/-- The contacts of the solver are added as far as there is space. -/
theorem addPoints_found {q : MeshRequest} {pick : ℕ → List CPoint → List CPoint} (hp : LawfulPick pick) {Must : Path → I → Prop}
    {May : OContact I → Prop} {o1 o2 : ℕ} {b1 : Path} {b2 : I} {cs : List CPoint} (hn : cs ≠ [])
    (hM : ∀ k ∈ cs, May ⟨o1, o2, b1, b2, some k⟩) (hm : ∀ x y, Must x y → b1 = x ∧ b2 = y) (r : OResult I)
    (f : OResult I → OResult I) (hf : ∀ r, (f r).contacts = r.contacts) :
    Found q Must May r (f (addPoints pick q o1 o2 b1 b2 cs r), q.req.isSatisfied (f (addPoints pick q o1 o2 b1 b2 cs r))) := by
  refine ⟨?_, fun h => ?_⟩
  · rw [addPoints]
    by_cases h : q.req.numMax > r.numContacts
    · rw [if_pos h]
      rw [CollResult.numContacts] at h
      have key : ∀ l : List CPoint, l ≠ [] → (∀ k ∈ l, k ∈ cs) → l.length ≤ q.req.numMax - r.numContacts →
          Reports q.req.numMax Must May r (f (l.foldl (fun r c => r.addContact ⟨o1, o2, b1, b2, some c⟩) r)) := by
        intro l hl hk hlen
        rw [CollResult.numContacts] at hlen
        have e := foldl_contacts (fun c => (⟨o1, o2, b1, b2, some c⟩ : OContact I)) l r
        refine ⟨⟨_, by rw [hf, e], ?_, ?_⟩, by rw [hf, e, List.length_append, List.length_map]; omega⟩
        · intro c hc
          obtain ⟨k, hk', rfl⟩ := List.mem_map.1 hc
          exact hM k (hk k hk')
        · intro _ x y hxy
          obtain ⟨k, l', rfl⟩ := List.exists_cons_of_ne_nil hl
          exact ⟨_, List.mem_map.2 ⟨k, by simp, rfl⟩, hm x y hxy⟩
      by_cases h' : q.req.numMax - r.numContacts < cs.length
      · simp only [if_pos h']
        obtain ⟨hlen, rest, hperm, -⟩ := hp _ _ h'
        refine key _ ?_ ?_ hlen.le
        · intro e
          rw [e] at hlen
          simp only [List.length_nil, CollResult.numContacts] at hlen
          omega
        · exact fun k hk => hperm.subset (List.mem_append_left _ hk)
      · simp only [if_neg h']
        exact key cs hn (fun _ => id) (Nat.not_lt.1 h')
    · rw [if_neg h]
      rw [CollResult.numContacts] at h
      refine ⟨⟨[], by simp [hf], by simp, fun hl => ?_⟩, by rw [hf]; exact le_max_left _ _⟩
      rw [hf] at hl
      exact absurd hl h
  · simp only [CollRequest.isSatisfied, Bool.and_eq_true, CollResult.numContacts] at h
    exact of_decide_eq_true h.2

/-- No contact: the flag is right too. -/
theorem found_nothing {q : MeshRequest} {Must : Path → I → Prop} {May : OContact I → Prop} (h : ∀ b1 b2, ¬ Must b1 b2) (r r' : OResult I)
    (hr : r'.contacts = r.contacts) : Found q Must May r (r', q.req.isSatisfied r') := by
  refine ⟨⟨⟨[], by simp [hr], by simp, fun _ b1 b2 k => absurd k (h b1 b2)⟩, by rw [hr]; exact le_max_left _ _⟩, fun h => ?_⟩
  simp only [CollRequest.isSatisfied, Bool.and_eq_true, CollResult.numContacts] at h
  exact of_decide_eq_true h.2

end

/-! ### Cells -/

theorem mem_eight (i : Fin 8) : i ∈ eight := List.mem_finRange i

theorem Node.leafAt_le : ∀ {n : Node} {l : Path} {u w : ℝ}, n.Consistent → n.leafAt l = some w → n.logOdds = some u → w ≤ u
  | .null, _, _, _, _, h, _ => by simp [Node.leafAt] at h
  | .leaf v, [], _, _, _, h, k => by
    simp only [Node.leafAt, Node.logOdds, Option.some.injEq] at h k
    linarith
  | .leaf _, _ :: _, _, _, _, h, _ => by simp [Node.leafAt] at h
  | .inner _ _, [], _, _, _, h, _ => by simp [Node.leafAt] at h
  | .inner v c, i :: l, u, w, hc, h, k => by
    simp only [Node.leafAt] at h
    simp only [Node.logOdds, Option.some.injEq] at k
    rcases e : (c i).logOdds with _ | u'
    · rcases e' : c i with _ | v' | ⟨v', c'⟩
      · rw [e'] at h; simp [Node.leafAt] at h
      · rw [e'] at e; simp [Node.logOdds] at e
      · rw [e'] at e; simp [Node.logOdds] at e
    · have := (hc i).2 u' e
      have := Node.leafAt_le (hc i).1 h e
      linarith

theorem Node.leafAt_here {n : Node} {l : Path} {w : ℝ} (h : n.leafAt l = some w) : n.here = true := by
  cases n with
  | null => simp [Node.leafAt] at h
  | leaf => rfl
  | inner => rfl

theorem Node.leafAt_inner {v : ℝ} {c : Fin 8 → Node} {l : Path} {w : ℝ} :
    (Node.inner v c).leafAt l = some w ↔ ∃ i l', l = i :: l' ∧ (c i).leafAt l' = some w := by
  cases l with
  | nil => simp [Node.leafAt]
  | cons i l => simp [Node.leafAt]

theorem Node.leafAt_leaf {v : ℝ} {l : Path} {w : ℝ} : (Node.leaf v).leafAt l = some w ↔ l = [] ∧ w = v := by
  cases l with
  | nil => simp [Node.leafAt, eq_comm]
  | cons i l => simp [Node.leafAt]

/-- The cell at the end of a way from a box. -/
noncomputable abbrev cellOf (b : AABB ℝ) (l : Path) : AABB ℝ := cell b (l.map Fin.val)

theorem cellOf_sub {b : AABB ℝ} (hb : b.Valid) (l : Path) : (cellOf b l).pts ⊆ b.pts := fun p hp =>
  (C49_cells_tile hb l.length p).2 ⟨l.map Fin.val, by simp, fun i hi => by
    obtain ⟨j, -, rfl⟩ := List.mem_map.1 hi; exact j.2, hp⟩

theorem placed_mono {X : Pose ℝ} {A B : Set (V3 ℝ)} (h : A ⊆ B) : PlacedAt X A ⊆ PlacedAt X B := fun p hp => by
  obtain ⟨q, hq, rfl⟩ := placedAt_iff.1 hp
  exact placedAt_iff.2 ⟨q, h hq, rfl⟩

/-- A box with inner points. -/
def Fat (b : AABB ℝ) : Prop := b.lo.x < b.hi.x ∧ b.lo.y < b.hi.y ∧ b.lo.z < b.hi.z

theorem Fat.valid {b : AABB ℝ} (h : Fat b) : b.Valid := ⟨h.1.le, h.2.1.le, h.2.2.le⟩

theorem half_lt {lo hi : ℝ} (h : lo < hi) (b : Bool) : (half b lo hi).1 < (half b lo hi).2 := by
  cases b <;> simp only [half, Bool.false_eq_true, if_false, if_true] <;> linarith

theorem Fat.child {b : AABB ℝ} (h : Fat b) (i : ℕ) : Fat (childBV b i) := ⟨half_lt h.1 _, half_lt h.2.1 _, half_lt h.2.2 _⟩

theorem Fat.cell : ∀ {l : Path} {b : AABB ℝ}, Fat b → Fat (cellOf b l)
  | [], _, h => h
  | i :: l, _, h => Fat.cell (l := l) (h.child i)

theorem Tree.WF.fat {t : Tree} (h : t.WF) : Fat t.bv := by
  have : 0 < (2 : ℝ) ^ t.depth * t.resolution / 2 := by have := h.resolution; positivity
  refine ⟨?_, ?_, ?_⟩ <;> simp only [Tree.bv, rootBV] <;> linarith

theorem one_orthonormal : (M3.one : M3 ℝ).Orthonormal := M3.orthonormal_one

theorem Fat.ok {b : AABB ℝ} (h : Fat b) {X : Pose ℝ} (hX : X.Rigid) : PBox.Ok (ConstructBox.aabbAt b X) := by
  refine ⟨?_, ?_, ?_, ?_⟩
  · show (X.R.mul M3.one).Orthonormal
    exact M3.Orthonormal.mul hX M3.orthonormal_one
  · simp only [ConstructBox.aabbAt]; have := h.1; simp; linarith
  · simp only [ConstructBox.aabbAt]; have := h.2.1; simp; linarith
  · simp only [ConstructBox.aabbAt]; have := h.2.2; simp; linarith

/-- The test of oriented boxes does not miss a common point. -/
theorem overlap_of_touch {b : AABB ℝ} {X : Pose ℝ} (hX : X.Rigid) {o : OBB ℝ} (ho : o.WF) {p : V3 ℝ} (h1 : p ∈ PlacedAt X b.pts) (h2 : p ∈ o.pts) :
    (aabbOBB b X).overlap o = true := by
  obtain ⟨w, e⟩ := C90_aabb_obb hX b
  exact OBB.C45_overlap w ho (by rw [e]; exact h1) h2

/-- An inner node that is free, or uncertain, has no occupied leaf below it. -/
theorem no_leaf {thr : Thresholds} {n : Node} (hn : n.Consistent) {u : ℝ} (hu : n.logOdds = some u) (hc : ¬ (thr.isFree u ∧ thr.isOccupied u))
    (h : thr.isFree u ∨ thr.isUncertain u ∨ ¬ thr.isOccupied u) {l : Path} {w : ℝ} (hl : n.leafAt l = some w) : ¬ thr.isOccupied w := by
  have := Node.leafAt_le hn hl hu
  intro hw
  have occ : thr.isOccupied u := le_trans hw this
  rcases h with h | h | h
  · exact hc ⟨h, occ⟩
  · exact h.1 occ
  · exact h occ

theorem Node.Clear.here {thr : Thresholds} {n : Node} (h : n.Clear thr) {u : ℝ} (hu : n.logOdds = some u) : ¬ (thr.isFree u ∧ thr.isOccupied u) := by
  cases n with
  | null => simp [Node.logOdds] at hu
  | leaf v => simp only [Node.logOdds, Option.some.injEq] at hu; subst hu; exact h
  | inner v c => simp only [Node.logOdds, Option.some.injEq] at hu; subst hu; exact h.1

theorem Node.clear_of_lt {thr : Thresholds} (h : thr.free < thr.occ) : ∀ n : Node, n.Clear thr
  | .null => trivial
  | .leaf _ => fun k => absurd (le_trans k.2 k.1) (not_le.2 h)
  | .inner _ c => ⟨fun k => absurd (le_trans k.2 k.1) (not_le.2 h), fun i => Node.clear_of_lt h (c i)⟩

end Octree
end Fcl
