import Verif.Octree.SolverLemmas

/-!
# Lemmas on the distance queries of octrees
-/

namespace Fcl
namespace Octree
open ConvertBV

section
variable {I : Type*} {Cand Cand' : Path → I → Prop} {val : Path → I → ℝ × V3 ℝ × V3 ℝ} {o1 o2 : ℕ}

/-- One call of a recursive search for the smallest value. -/
structure DFound (o1 o2 : ℕ) (Cand : Path → I → Prop) (val : Path → I → ℝ × V3 ℝ × V3 ℝ) (r : ODist I) (x : ODist I × Bool) : Prop where
  origin : x.1 = r ∨ ∃ p i, Cand p i ∧ (val p i).1 < r.minDist ∧ x.1 = ⟨(val p i).1, some ⟨o1, o2, p, i, (val p i).2⟩⟩
  least : x.1.minDist ≤ 0 ∨ ∀ p i, Cand p i → x.1.minDist ≤ (val p i).1
  stop : x.2 = true → x.1.minDist ≤ 0

theorem DFound.le {r : ODist I} {x : ODist I × Bool} (h : DFound o1 o2 Cand val r x) : x.1.minDist ≤ r.minDist := by
  rcases h.origin with e | ⟨p, i, -, h, e⟩
  · rw [e]
  · rw [e]; exact h.le

theorem DFound.mono {r : ODist I} {x : ODist I × Bool} (h : DFound o1 o2 Cand val r x) (hc : ∀ p i, Cand p i ↔ Cand' p i) :
    DFound o1 o2 Cand' val r x := by
  have : Cand = Cand' := by funext p i; exact propext (hc p i)
  rw [← this]; exact h

theorem DFound.none (h : ∀ p i, ¬ Cand p i) (r : ODist I) : DFound o1 o2 Cand val r (r, false) :=
  ⟨Or.inl rfl, Or.inr fun p i k => absurd k (h p i), by simp⟩

/-- Everything left out is not smaller than a bound that is not smaller than what there is. -/
theorem DFound.prune {L : ℝ} {r : ODist I} (hL : ∀ p i, Cand p i → L ≤ 0 ∨ L ≤ (val p i).1) (h : ¬ L < r.minDist) :
    DFound o1 o2 Cand val r (r, false) := by
  refine ⟨Or.inl rfl, ?_, by simp⟩
  rw [not_lt] at h
  by_cases k : r.minDist ≤ 0
  · exact Or.inl k
  · exact Or.inr fun p i hc => (hL p i hc).elim (fun k' => absurd (h.trans k') k) h.trans

theorem DFound.seq {C1 C2 : Path → I → Prop} {f g : ODist I → ODist I × Bool} (hf : ∀ r, DFound o1 o2 C1 val r (f r))
    (hg : ∀ r, DFound o1 o2 C2 val r (g r)) (r : ODist I) :
    DFound o1 o2 (fun p i => C1 p i ∨ C2 p i) val r (if (f r).2 then ((f r).1, true) else g (f r).1) := by
  have h1 := hf r
  by_cases c : (f r).2 = true
  · rw [if_pos c]
    have := h1.stop c
    refine ⟨h1.origin.imp id fun ⟨p, i, k, r⟩ => ⟨p, i, Or.inl k, r⟩, Or.inl this, fun _ => this⟩
  · rw [if_neg c]
    have h2 := hg (f r).1
    refine ⟨?_, ?_, h2.stop⟩
    · rcases h2.origin with e | ⟨p, i, k, l, e⟩
      · rw [e]
        exact h1.origin.imp id fun ⟨p, i, k, r⟩ => ⟨p, i, Or.inl k, r⟩
      · exact Or.inr ⟨p, i, Or.inr k, l.trans_le h1.le, e⟩
    · rcases h2.least with l2 | l2
      · exact Or.inl l2
      · rcases h1.least with l1 | l1
        · exact Or.inl (h2.le.trans l1)
        · exact Or.inr fun p i k => k.elim (fun k => h2.le.trans (l1 p i k)) (l2 p i)

theorem DFound.loop {ι : Type*} {C : ι → Path → I → Prop} {f : ι → ODist I → ODist I × Bool} :
    ∀ {l : List ι}, (∀ i ∈ l, ∀ r, DFound o1 o2 (C i) val r (f i r)) → ∀ r, DFound o1 o2 (fun a b => ∃ i ∈ l, C i a b) val r (until' f l r)
  | [], _, r => DFound.none (by simp) r
  | i :: l, h, r => by
    have := DFound.seq (h i (by simp)) (DFound.loop (l := l) fun j hj => h j (by simp [hj])) r
    rw [until']
    exact this.mono (fun a b => by simp)

/-- One pair. -/
theorem DFound.one {p : Path} {i : I} (hC : ∀ p' i', Cand p' i' ↔ p' = p ∧ i' = i) (r : ODist I) :
    DFound o1 o2 Cand val r (r.update (val p i).1 ⟨o1, o2, p, i, (val p i).2⟩, (r.update (val p i).1 ⟨o1, o2, p, i, (val p i).2⟩).isSatisfied) := by
  refine ⟨?_, Or.inr ?_, ?_⟩
  · rw [ODist.update]
    split_ifs with c
    · exact Or.inr ⟨p, i, (hC p i).2 ⟨rfl, rfl⟩, c, rfl⟩
    · exact Or.inl rfl
  · intro p' i' h
    obtain ⟨rfl, rfl⟩ := (hC p' i').1 h
    rw [ODist.update]
    split_ifs with c
    · exact le_rfl
    · exact not_lt.1 c
  · intro h
    exact of_decide_eq_true h

/-- From the values to the point sets. -/
theorem DFound.measures {A : Path → Set (V3 ℝ)} {B : I → Set (V3 ℝ)} (hv : ∀ p i, Cand p i → (Touch (A p) (B i) → (val p i).1 = -1) ∧
    (¬ Touch (A p) (B i) → 0 < (val p i).1 ∧ IsDist (A p) (B i) (val p i).1 (val p i).2.1 (val p i).2.2)) {r : ODist I} {x : ODist I × Bool}
    (hr : 0 < r.minDist) (h : DFound o1 o2 Cand val r x) : Measures o1 o2 Cand A B r x.1 := by
  refine ⟨?_, ?_⟩
  · rintro ⟨p, i, hc, ht⟩
    have l : x.1.minDist ≤ 0 := h.least.elim id fun k => by
      have := k p i hc
      rw [(hv p i hc).1 ht] at this
      linarith
    rcases h.origin with e | ⟨p', i', hc', -, e⟩
    · rw [e] at l; exact absurd l (not_le.2 hr)
    · rw [e] at l
      have t' : Touch (A p') (B i') := by
        by_contra n
        exact absurd ((hv p' i' hc').2 n).1 (not_lt.2 l)
      rw [e]
      exact ⟨(hv p' i' hc').1 t', _, rfl, rfl, rfl, hc', t'⟩
  · intro no
    have far : ∀ p i, Cand p i → 0 < (val p i).1 ∧ IsDist (A p) (B i) (val p i).1 (val p i).2.1 (val p i).2.2 :=
      fun p i hc => (hv p i hc).2 fun t => no ⟨p, i, hc, t⟩
    have pos : 0 < x.1.minDist := by
      rcases h.origin with e | ⟨p', i', hc', -, e⟩
      · rw [e]; exact hr
      · rw [e]; exact (far p' i' hc').1
    refine ⟨fun p i hc a ha b hb => ?_, ?_⟩
    · rcases h.least with l | l
      · exact absurd l (not_le.2 pos)
      · exact (l p i hc).trans ((far p i hc).2.least a ha b hb)
    · rcases h.origin with e | ⟨p', i', hc', lt, e⟩
      · exact Or.inl e
      · refine Or.inr ⟨by rw [e]; exact lt, pos, _, by rw [e], rfl, rfl, hc', ?_⟩
        rw [e]; exact (far p' i' hc').2

end

/-- What the values of an exact solver are bounded by. -/
theorem exact_bound {dist : PBox → ℝ × V3 ℝ × V3 ℝ} {B : Set (V3 ℝ)} (hd : DistExact dist B) {b : PBox} (hb : b.Ok) {a c : AABB ℝ}
    (ha : BoxPts b ⊆ a.pts) (hc : B ⊆ c.pts) : a.distance c ≤ 0 ∨ a.distance c ≤ (dist b).1 := by
  by_cases t : Touch (BoxPts b) B
  · obtain ⟨x, h1, h2⟩ := t
    have := C03_distance_lower_bound a c x x (ha h1) (hc h2)
    rw [V3.dist_self] at this
    exact Or.inl this
  · obtain ⟨-, h⟩ := (hd b hb).2 t
    right
    rw [← h.attained]
    exact C03_distance_lower_bound a c _ _ (ha h.left) (hc h.right)

theorem cell_aabb {X : Pose ℝ} (hX : X.Rigid) {b : AABB ℝ} (hb : Fat b) (l : Path) :
    BoxPts (ConstructBox.aabbAt (cellOf b l) X) ⊆ (aabbAABB b X).pts := by
  rw [C90_box_aabb_at]
  exact (placed_mono (cellOf_sub hb.valid l)).trans (C90_aabb_aabb hX b)

/-! ### Octree and shape -/

section
variable {thr : Thresholds} {s : ShapeSide} {o1 o2 : ℕ} {tf1 : Pose ℝ} {B : Set (V3 ℝ)}

/-- The occupied leaves below a node. -/
def candS (thr : Thresholds) (n : Node) (p b1 : Path) (_ : Unit) : Prop := ∃ l v, b1 = p ++ l ∧ n.leafAt l = some v ∧ thr.isOccupied v

theorem candS_inner {v : ℝ} {c : Fin 8 → Node} {p b1 : Path} {u : Unit} : (∃ i ∈ eight, candS thr (c i) (p ++ [i]) b1 u) ↔ candS thr (.inner v c) p b1 u := by
  constructor
  · rintro ⟨i, -, l, w, e, hl, hw⟩
    exact ⟨i :: l, w, by simp [e], Node.leafAt_inner.2 ⟨i, l, rfl, hl⟩, hw⟩
  · rintro ⟨l, w, e, hl, hw⟩
    obtain ⟨i, l', rfl, hl'⟩ := Node.leafAt_inner.1 hl
    exact ⟨i, mem_eight i, l', w, by simp [e], hl', hw⟩

theorem candS_stop {n : Node} {v : ℝ} (hv : n.logOdds = some v) (hc : n.Consistent) (h : ¬ thr.isOccupied v) {p b1 : Path} {u : Unit} : ¬ candS thr n p b1 u := by
  rintro ⟨l, w, -, hl, hw⟩
  exact h (le_trans hw (Node.leafAt_le hc hl hv))

theorem cell_append (b : AABB ℝ) : ∀ p l : List ℕ, cell b (p ++ l) = cell (cell b p) l
  | [], _ => rfl
  | i :: p, l => cell_append (childBV b i) p l

/-- The box of the cell at the end of a way. -/
noncomputable abbrev boxAt (root : AABB ℝ) (tf1 : Pose ℝ) (p : Path) : PBox := ConstructBox.aabbAt (cellOf root p) tf1

theorem cellOf_append (b : AABB ℝ) (p l : Path) : cellOf b (p ++ l) = cellOf (cellOf b p) l := by
  rw [cellOf, cellOf, cellOf, List.map_append, cell_append]

theorem shapeDist_found {root : AABB ℝ} (hr : Fat root) (hX : tf1.Rigid) (hd : DistExact s.dist B) (hB : B ⊆ s.aabb.pts) :
    ∀ (n : Node) (p : Path), n.Consistent → ∀ r, DFound o1 o2 (candS thr n p) (fun b1 _ => s.dist (boxAt root tf1 b1)) r
      (shapeDistRec thr s o1 o2 tf1 n (cellOf root p) p r) := by
  intro n
  induction n with
  | null =>
    intro p _ r
    refine DFound.none ?_ r
    rintro b1 b2 ⟨l, v, -, hl, -⟩
    simp [Node.leafAt] at hl
  | leaf v =>
    intro p hc r
    rw [shapeDistRec]
    by_cases c : thr.isOccupied v
    · rw [if_pos c]
      refine DFound.one (val := fun b1 _ => s.dist (boxAt root tf1 b1)) (p := p) (i := ()) (fun p' _ => ?_) r
      constructor
      · rintro ⟨l, w, e, hl, -⟩
        obtain ⟨rfl, rfl⟩ := Node.leafAt_leaf.1 hl
        exact ⟨by simp [e], rfl⟩
      · rintro ⟨rfl, -⟩
        exact ⟨[], v, by simp, by simp [Node.leafAt], c⟩
    · rw [if_neg c]
      exact DFound.none (fun _ _ => candS_stop rfl hc c) r
  | inner v c ih =>
    intro p hc r
    rw [shapeDistRec]
    by_cases c1 : ¬ thr.isOccupied v
    · rw [if_pos c1]
      exact DFound.none (fun _ _ => candS_stop rfl hc c1) r
    rw [if_neg c1]
    refine (DFound.loop (l := eight) (C := fun i => candS thr (c i) (p ++ [i])) (fun i _ r => ?_) r).mono (fun _ _ => candS_inner)
    have cb : childBV (cellOf root p) i = cellOf root (p ++ [i]) := by rw [cellOf_append]; rfl
    by_cases c2 : (c i).here = true
    · rw [if_pos c2, cb]
      by_cases c3 : (aabbAABB (cellOf root (p ++ [i])) tf1).distance s.aabb < r.minDist
      · rw [if_pos c3]
        exact ih i _ (hc i).1 r
      · rw [if_neg c3]
        refine DFound.prune (fun b1 _ hc => ?_) c3
        obtain ⟨l, w, rfl, -⟩ := hc
        refine exact_bound hd (hr.cell.ok hX) ?_ hB
        rw [cellOf_append]
        exact cell_aabb hX hr.cell l
    · rw [if_neg c2]
      refine DFound.none (fun b1 b2 h => c2 ?_) r
      obtain ⟨l, w, -, hl, -⟩ := h
      exact Node.leafAt_here hl

end

/-! ### Octree and mesh -/

section
variable {V : Type*} {thr : Thresholds} {m : MeshSide V} {o1 o2 : ℕ} {tf1 : Pose ℝ} {T : ℕ → Set (V3 ℝ)}

/-- The occupied leaves below a node, with the triangles below a node of the hierarchy. -/
def candM (thr : Thresholds) (n : Node) (p : Path) (h : BT V ℕ) (b1 : Path) (k : ℕ) : Prop := k ∈ h.prims ∧ candS thr n p b1 ()

theorem candM_inner {v : ℝ} {c : Fin 8 → Node} {p b1 : Path} {h : BT V ℕ} {k : ℕ} :
    (∃ i ∈ eight, candM thr (c i) (p ++ [i]) h b1 k) ↔ candM thr (.inner v c) p h b1 k := by
  rw [candM, ← candS_inner]
  constructor
  · rintro ⟨i, hi, hk, h⟩
    exact ⟨hk, i, hi, h⟩
  · rintro ⟨hk, i, hi, h⟩
    exact ⟨i, hi, hk, h⟩

theorem candM_node {n : Node} {p b1 : Path} {w : V} {x y : BT V ℕ} {k : ℕ} :
    (candM thr n p x b1 k ∨ candM thr n p y b1 k) ↔ candM thr n p (.node w x y) b1 k := by
  simp only [candM, BT.prims, List.mem_append, or_and_right]

theorem meshBound {root : AABB ℝ} (hr : Fat root) (hX : tf1.Rigid) (hd : ∀ k, DistExact (fun b => m.dist b k) (T k)) {n : Node} {p : Path} {h : BT V ℕ}
    (he : m.EnclosesAABB T h) (b1 : Path) (k : ℕ) (hc : candM thr n p h b1 k) :
    (aabbAABB (cellOf root p) tf1).distance (m.toAABB h.bv) ≤ 0 ∨
      (aabbAABB (cellOf root p) tf1).distance (m.toAABB h.bv) ≤ (m.dist (boxAt root tf1 b1) k).1 := by
  obtain ⟨hk, l, w, rfl, -⟩ := hc
  refine exact_bound (hd k) (hr.cell.ok hX) ?_ (he h (.refl h) k hk)
  rw [cellOf_append]
  exact cell_aabb hX hr.cell l

theorem meshDist_found {root : AABB ℝ} (hr : Fat root) (hX : tf1.Rigid) (hd : ∀ k, DistExact (fun b => m.dist b k) (T k)) :
    ∀ (n : Node) (p : Path), n.Consistent → ∀ h : BT V ℕ, m.EnclosesAABB T h → ∀ r,
      DFound o1 o2 (candM thr n p h) (fun b1 k => m.dist (boxAt root tf1 b1) k) r (meshDistRec thr m o1 o2 tf1 n (cellOf root p) p h r) := by
  intro n
  induction n with
  | null =>
    intro p _ h _ r
    refine DFound.none ?_ r
    rintro b1 b2 ⟨-, l, v, -, hl, -⟩
    simp [Node.leafAt] at hl
  | leaf v =>
    intro p hc h
    show m.EnclosesAABB T h → ∀ r, DFound o1 o2 _ _ r (meshDistLeafRec thr m o1 o2 tf1 v (cellOf root p) p h r)
    induction h with
    | leaf w k =>
      intro _ r
      rw [meshDistLeafRec, meshDistLeaf]
      by_cases c : thr.isOccupied v
      · rw [if_pos c]
        refine DFound.one (val := fun b1 k => m.dist (boxAt root tf1 b1) k) (p := p) (i := k) (fun p' k' => ?_) r
        constructor
        · rintro ⟨hk, l, w, e, hl, -⟩
          obtain ⟨rfl, rfl⟩ := Node.leafAt_leaf.1 hl
          exact ⟨by simp [e], by simpa [BT.prims] using hk⟩
        · rintro ⟨rfl, rfl⟩
          exact ⟨by simp [BT.prims], [], v, by simp, by simp [Node.leafAt], c⟩
      · rw [if_neg c]
        exact DFound.none (fun _ _ h => candS_stop rfl hc c h.2) r
    | node w x y ihx ihy =>
      intro he r
      rw [meshDistLeafRec]
      by_cases c : ¬ thr.isOccupied v
      · rw [if_pos c]
        exact DFound.none (fun _ _ h => candS_stop rfl hc c h.2) r
      rw [if_neg c]
      have go : ∀ z : BT V ℕ, m.EnclosesAABB T z → (∀ r, DFound o1 o2 (candM thr (.leaf v) p z) (fun b1 k => m.dist (boxAt root tf1 b1) k) r
          (meshDistLeafRec thr m o1 o2 tf1 v (cellOf root p) p z r)) → ∀ r, DFound o1 o2 (candM thr (.leaf v) p z) (fun b1 k => m.dist (boxAt root tf1 b1) k) r
          (meshDistGo m tf1 (cellOf root p) z.bv (meshDistLeafRec thr m o1 o2 tf1 v (cellOf root p) p z) r) := by
        intro z hz hf r
        rw [meshDistGo]
        split_ifs with c3
        · exact hf r
        · exact DFound.prune (meshBound hr hX hd hz) c3
      exact (DFound.seq (go x (fun u hu => he u (.left hu)) (ihx fun u hu => he u (.left hu)))
        (go y (fun u hu => he u (.right hu)) (ihy fun u hu => he u (.right hu))) r).mono (fun _ _ => candM_node)
  | inner v c ih =>
    intro p hc h
    show m.EnclosesAABB T h → ∀ r, DFound o1 o2 _ _ r (meshDistInnerRec thr m tf1 v (cellOf root p) (fun i => (c i).here)
      (fun i => meshDistRec thr m o1 o2 tf1 (c i) (childBV (cellOf root p) i) (p ++ [i])) h r)
    have cb : ∀ i : Fin 8, childBV (cellOf root p) i = cellOf root (p ++ [i]) := fun i => by rw [cellOf_append]; rfl
    have kids : ∀ h : BT V ℕ, m.EnclosesAABB T h → ∀ r, DFound o1 o2 (candM thr (.inner v c) p h) (fun b1 k => m.dist (boxAt root tf1 b1) k) r
        (meshDistKids m tf1 (cellOf root p) (fun i => (c i).here) (fun i => meshDistRec thr m o1 o2 tf1 (c i) (childBV (cellOf root p) i) (p ++ [i])) h r) := by
      intro h he r
      rw [meshDistKids]
      refine (DFound.loop (l := eight) (C := fun i => candM thr (c i) (p ++ [i]) h) (fun i _ r => ?_) r).mono (fun _ _ => candM_inner)
      by_cases c2 : (c i).here = true
      · rw [if_pos c2, cb i]
        by_cases c3 : (aabbAABB (cellOf root (p ++ [i])) tf1).distance (m.toAABB h.bv) < r.minDist
        · rw [if_pos c3]
          exact ih i _ (hc i).1 h he r
        · rw [if_neg c3]
          exact DFound.prune (meshBound hr hX hd he) c3
      · rw [if_neg c2]
        refine DFound.none (fun b1 b2 h => c2 ?_) r
        obtain ⟨-, l, w, -, hl, -⟩ := h
        exact Node.leafAt_here hl
    induction h with
    | leaf w k =>
      intro he r
      rw [meshDistInnerRec]
      by_cases c1 : ¬ thr.isOccupied v
      · rw [if_pos c1]
        exact DFound.none (fun _ _ h => candS_stop rfl hc c1 h.2) r
      rw [if_neg c1]
      exact kids _ he r
    | node w x y ihx ihy =>
      intro he r
      rw [meshDistInnerRec]
      by_cases c1 : ¬ thr.isOccupied v
      · rw [if_pos c1]
        exact DFound.none (fun _ _ h => candS_stop rfl hc c1 h.2) r
      rw [if_neg c1]
      by_cases c2 : m.larger (cellOf root p) w = true
      · rw [if_pos c2]
        exact kids _ he r
      rw [if_neg c2]
      have go : ∀ z : BT V ℕ, m.EnclosesAABB T z → (∀ r, DFound o1 o2 (candM thr (.inner v c) p z) (fun b1 k => m.dist (boxAt root tf1 b1) k) r
          (meshDistInnerRec thr m tf1 v (cellOf root p) (fun i => (c i).here)
            (fun i => meshDistRec thr m o1 o2 tf1 (c i) (childBV (cellOf root p) i) (p ++ [i])) z r)) →
          ∀ r, DFound o1 o2 (candM thr (.inner v c) p z) (fun b1 k => m.dist (boxAt root tf1 b1) k) r
          (meshDistGo m tf1 (cellOf root p) z.bv (meshDistInnerRec thr m tf1 v (cellOf root p) (fun i => (c i).here)
            (fun i => meshDistRec thr m o1 o2 tf1 (c i) (childBV (cellOf root p) i) (p ++ [i])) z) r) := by
        intro z hz hf r
        rw [meshDistGo]
        split_ifs with c3
        · exact hf r
        · exact DFound.prune (meshBound hr hX hd hz) c3
      exact (DFound.seq (go x (fun u hu => he u (.left hu)) (ihx fun u hu => he u (.left hu)))
        (go y (fun u hu => he u (.right hu)) (ihy fun u hu => he u (.right hu))) r).mono (fun _ _ => candM_node)

end

/-! ### Two octrees -/

section
variable {e : PairEnv}

/-- The pairs of occupied leaves below two nodes. -/
def candP (e : PairEnv) (n1 : Node) (p1 : Path) (n2 : Node) (p2 : Path) (x y : Path) : Prop := candS e.thr1 n1 p1 x () ∧ candS e.thr2 n2 p2 y ()

variable {n1 n2 : Node} {p1 p2 x y : Path}

theorem candP_left {v : ℝ} {c : Fin 8 → Node} : (∃ i ∈ eight, candP e (c i) (p1 ++ [i]) n2 p2 x y) ↔ candP e (.inner v c) p1 n2 p2 x y := by
  rw [candP, ← candS_inner]
  constructor
  · rintro ⟨i, hi, h1, h2⟩
    exact ⟨⟨i, hi, h1⟩, h2⟩
  · rintro ⟨⟨i, hi, h1⟩, h2⟩
    exact ⟨i, hi, h1, h2⟩

theorem candP_right {v : ℝ} {c : Fin 8 → Node} : (∃ i ∈ eight, candP e n1 p1 (c i) (p2 ++ [i]) x y) ↔ candP e n1 p1 (.inner v c) p2 x y := by
  rw [candP, ← candS_inner (c := c)]
  constructor
  · rintro ⟨i, hi, h1, h2⟩
    exact ⟨h1, i, hi, h2⟩
  · rintro ⟨h1, i, hi, h2⟩
    exact ⟨i, hi, h1, h2⟩

theorem candS_null {thr : Thresholds} {p b1 : Path} {u : Unit} : ¬ candS thr .null p b1 u := by
  rintro ⟨l, v, -, hl, -⟩
  simp [Node.leafAt] at hl

theorem candP_stop {v1 v2 : ℝ} (hv1 : n1.logOdds = some v1) (hv2 : n2.logOdds = some v2) (hc1 : n1.Consistent) (hc2 : n2.Consistent)
    (h : ¬ e.thr1.isOccupied v1 ∨ ¬ e.thr2.isOccupied v2) : ¬ candP e n1 p1 n2 p2 x y := by
  rintro ⟨k1, k2⟩
  exact h.elim (fun h => candS_stop hv1 hc1 h k1) (fun h => candS_stop hv2 hc2 h k2)

theorem pairBound {root1 root2 : AABB ℝ} (hr1 : Fat root1) (hr2 : Fat root2) (hX1 : e.tf1.Rigid) (hX2 : e.tf2.Rigid) (hd : e.side.DistExact)
    (x y : Path) (hc : candP e n1 p1 n2 p2 x y) :
    (aabbAABB (cellOf root1 p1) e.tf1).distance (aabbAABB (cellOf root2 p2) e.tf2) ≤ 0 ∨
      (aabbAABB (cellOf root1 p1) e.tf1).distance (aabbAABB (cellOf root2 p2) e.tf2) ≤ (e.side.dist (boxAt root1 e.tf1 x) (boxAt root2 e.tf2 y)).1 := by
  obtain ⟨⟨l1, w1, rfl, -⟩, l2, w2, rfl, -⟩ := hc
  refine exact_bound (hd _ (hr2.cell.ok hX2)) (hr1.cell.ok hX1) ?_ ?_
  · rw [cellOf_append]; exact cell_aabb hX1 hr1.cell l1
  · show BoxPts (ConstructBox.aabbAt (cellOf root2 (p2 ++ l2)) e.tf2) ⊆ _
    rw [cellOf_append]; exact cell_aabb hX2 hr2.cell l2

/-- A loop over the children of the second octree. -/
theorem pairDistLoop2 {val : Path → Path → ℝ × V3 ℝ × V3 ℝ} {v : ℝ} {c : Fin 8 → Node} {f : Fin 8 → ODist Path → ODist Path × Bool} {L : ℝ}
    (hL : ∀ x y, candP e n1 p1 (.inner v c) p2 x y → L ≤ 0 ∨ L ≤ (val x y).1) {P : ODist Path → Prop} [DecidablePred P] (hP : ∀ r, P r ↔ L < r.minDist)
    (hf : ∀ i r, DFound e.o1 e.o2 (candP e n1 p1 (c i) (p2 ++ [i])) val r (f i r)) (r : ODist Path) :
    DFound e.o1 e.o2 (candP e n1 p1 (.inner v c) p2) val r
      (until' (fun i r => if (c i).here then if P r then f i r else (r, false) else (r, false)) eight r) := by
  refine (DFound.loop (l := eight) (C := fun i => candP e n1 p1 (c i) (p2 ++ [i])) (fun i _ r => ?_) r).mono (fun _ _ => candP_right)
  by_cases c2 : (c i).here = true
  · rw [if_pos c2]
    split_ifs with c3
    · exact hf i r
    · exact DFound.prune (fun x y h => hL x y (candP_right.1 ⟨i, mem_eight i, h⟩)) fun k => c3 ((hP r).2 k)
  · rw [if_neg c2]
    refine DFound.none (fun x y h => c2 ?_) r
    obtain ⟨-, l, w, -, hl, -⟩ := h
    exact Node.leafAt_here hl

/-- The loop over the children of the first octree. -/
theorem pairDistLoop1 {val : Path → Path → ℝ × V3 ℝ × V3 ℝ} {v : ℝ} {c : Fin 8 → Node} {f : Fin 8 → ODist Path → ODist Path × Bool} {L : ℝ}
    (hL : ∀ x y, candP e (.inner v c) p1 n2 p2 x y → L ≤ 0 ∨ L ≤ (val x y).1) {b1 b2 : AABB ℝ} (hP : ∀ r, e.near b1 b2 r ↔ L < r.minDist)
    (hf : ∀ i r, DFound e.o1 e.o2 (candP e (c i) (p1 ++ [i]) n2 p2) val r (f i r)) (r : ODist Path) :
    DFound e.o1 e.o2 (candP e (.inner v c) p1 n2 p2) val r (e.distKids1 b1 b2 (fun i => (c i).here) f r) := by
  rw [PairEnv.distKids1]
  refine (DFound.loop (l := eight) (C := fun i => candP e (c i) (p1 ++ [i]) n2 p2) (fun i _ r => ?_) r).mono (fun _ _ => candP_left)
  by_cases c2 : (c i).here = true
  · rw [if_pos c2]
    split_ifs with c3
    · exact hf i r
    · exact DFound.prune (fun x y h => hL x y (candP_left.1 ⟨i, mem_eight i, h⟩)) fun k => c3 ((hP r).2 k)
  · rw [if_neg c2]
    refine DFound.none (fun x y h => c2 ?_) r
    obtain ⟨⟨l, w, -, hl, -⟩, -⟩ := h
    exact Node.leafAt_here hl

theorem pairDist_found {root1 root2 : AABB ℝ} (hr1 : Fat root1) (hr2 : Fat root2) (hX1 : e.tf1.Rigid) (hX2 : e.tf2.Rigid) (hd : e.side.DistExact) :
    ∀ (n1 : Node) (p1 : Path), n1.Consistent → ∀ (n2 : Node) (p2 : Path), n2.Consistent → ∀ r,
      DFound e.o1 e.o2 (candP e n1 p1 n2 p2) (fun x y => e.side.dist (boxAt root1 e.tf1 x) (boxAt root2 e.tf2 y)) r
        (e.distRec n1 (cellOf root1 p1) p1 n2 (cellOf root2 p2) p2 r) := by
  intro n1
  induction n1 with
  | null => exact fun p1 _ n2 p2 _ r => DFound.none (fun x y h => candS_null h.1) r
  | leaf v1 =>
    intro p1 hc1 n2
    show ∀ p2, n2.Consistent → ∀ r, DFound e.o1 e.o2 _ _ r (e.distLeafRec v1 (cellOf root1 p1) p1 n2 (cellOf root2 p2) p2 r)
    induction n2 with
    | null => exact fun p2 _ r => DFound.none (fun x y h => candS_null h.2) r
    | leaf v2 =>
      intro p2 hc2 r
      rw [PairEnv.distLeafRec, PairEnv.distLeaf]
      by_cases c : e.thr1.isOccupied v1 ∧ e.thr2.isOccupied v2
      · rw [if_pos c]
        refine DFound.one (val := fun x y => e.side.dist (boxAt root1 e.tf1 x) (boxAt root2 e.tf2 y)) (p := p1) (i := p2) (fun x y => ?_) r
        constructor
        · rintro ⟨⟨l1, w1, e1, hl1, -⟩, l2, w2, e2, hl2, -⟩
          obtain ⟨rfl, rfl⟩ := Node.leafAt_leaf.1 hl1
          obtain ⟨rfl, rfl⟩ := Node.leafAt_leaf.1 hl2
          exact ⟨by simp [e1], by simp [e2]⟩
        · rintro ⟨rfl, rfl⟩
          exact ⟨⟨[], v1, by simp, by simp [Node.leafAt], c.1⟩, [], v2, by simp, by simp [Node.leafAt], c.2⟩
      · rw [if_neg c]
        exact DFound.none (fun _ _ => candP_stop rfl rfl hc1 hc2 (by tauto)) r
    | inner v2 c ih =>
      intro p2 hc2 r
      rw [PairEnv.distLeafRec]
      by_cases k : ¬ e.thr1.isOccupied v1 ∨ ¬ e.thr2.isOccupied v2
      · rw [if_pos k]
        exact DFound.none (fun _ _ => candP_stop rfl rfl hc1 hc2 k) r
      rw [if_neg k]
      refine pairDistLoop2 (pairBound hr1 hr2 hX1 hX2 hd) (fun r => Iff.rfl) (fun i r => ?_) r
      have cb : childBV (cellOf root2 p2) i = cellOf root2 (p2 ++ [i]) := by rw [cellOf_append]; rfl
      rw [cb]
      exact ih i _ (hc2 i).1 r
  | inner v1 c1 ih1 =>
    intro p1 hc1 n2
    show ∀ p2, n2.Consistent → ∀ r, DFound e.o1 e.o2 _ _ r (e.distInnerRec v1 c1 (cellOf root1 p1)
      (fun i => e.distRec (c1 i) (childBV (cellOf root1 p1) i) (p1 ++ [i])) n2 (cellOf root2 p2) p2 r)
    have kids : ∀ n2 p2, n2.Consistent → ∀ i r, DFound e.o1 e.o2 (candP e (c1 i) (p1 ++ [i]) n2 p2) (fun x y => e.side.dist (boxAt root1 e.tf1 x) (boxAt root2 e.tf2 y)) r
        (e.distRec (c1 i) (childBV (cellOf root1 p1) i) (p1 ++ [i]) n2 (cellOf root2 p2) p2 r) := by
      intro n2 p2 hc2 i r
      have cb : childBV (cellOf root1 p1) i = cellOf root1 (p1 ++ [i]) := by rw [cellOf_append]; rfl
      rw [cb]
      exact ih1 i _ (hc1 i).1 n2 p2 hc2 r
    induction n2 with
    | null => exact fun p2 _ r => DFound.none (fun x y h => candS_null h.2) r
    | leaf v2 =>
      intro p2 hc2 r
      rw [PairEnv.distInnerRec]
      by_cases k : ¬ e.thr1.isOccupied v1 ∨ ¬ e.thr2.isOccupied v2
      · rw [if_pos k]
        exact DFound.none (fun _ _ => candP_stop rfl rfl hc1 hc2 k) r
      rw [if_neg k]
      exact pairDistLoop1 (pairBound hr1 hr2 hX1 hX2 hd) (fun r => Iff.rfl) (kids _ p2 hc2) r
    | inner v2 c ih =>
      intro p2 hc2 r
      rw [PairEnv.distInnerRec]
      by_cases k : ¬ e.thr1.isOccupied v1 ∨ ¬ e.thr2.isOccupied v2
      · rw [if_pos k]
        exact DFound.none (fun _ _ => candP_stop rfl rfl hc1 hc2 k) r
      rw [if_neg k]
      by_cases k' : e.side.larger (cellOf root1 p1) (cellOf root2 p2) = true
      · rw [if_pos k']
        exact pairDistLoop1 (pairBound hr1 hr2 hX1 hX2 hd) (fun r => Iff.rfl) (kids _ p2 hc2) r
      rw [if_neg k']
      refine pairDistLoop2 (pairBound hr1 hr2 hX1 hX2 hd) (fun r => Iff.rfl) (fun i r => ?_) r
      have cb : childBV (cellOf root2 p2) i = cellOf root2 (p2 ++ [i]) := by rw [cellOf_append]; rfl
      rw [cb]
      exact ih i _ (hc2 i).1 r

end

end Octree
end Fcl
