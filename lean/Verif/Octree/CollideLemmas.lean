import Verif.Octree.SolverLemmas

/-!
# Lemmas on the collision queries of octrees
-/

namespace Fcl
namespace Octree
open ConvertBV

/-! ### Octree and shape -/

section
variable {thr : Thresholds} {pick : ℕ → List CPoint → List CPoint} {q : MeshRequest} {s : ShapeSide} {o1 o2 : ℕ} {tf1 : Pose ℝ} {B : Set (V3 ℝ)}

/-- Some occupied leaf below the node, at the end of this way, touches the set. -/
def mustS (thr : Thresholds) (s : ShapeSide) (tf1 : Pose ℝ) (B : Set (V3 ℝ)) (n : Node) (b : AABB ℝ) (p b1 : Path) (_ : Unit) : Prop :=
  s.occupied = true ∧ ∃ l v, b1 = p ++ l ∧ n.leafAt l = some v ∧ thr.isOccupied v ∧ Touch (PlacedAt tf1 (cellOf b l).pts) B

/-- The contact is one of the subtree. -/
def mayS (thr : Thresholds) (q : MeshRequest) (s : ShapeSide) (tf1 : Pose ℝ) (B : Set (V3 ℝ)) (o1 o2 : ℕ) (n : Node) (b : AABB ℝ) (p : Path)
    (c : OContact Unit) : Prop :=
  c.o1 = o1 ∧ c.o2 = o2 ∧ ∃ l v, c.b1 = p ++ l ∧ n.leafAt l = some v ∧ thr.isOccupied v ∧ Touch (PlacedAt tf1 (cellOf b l).pts) B ∧
    if q.enableContact then ∃ cs k, s.hitC (ConstructBox.aabbAt (cellOf b l) tf1) = some cs ∧ k ∈ cs ∧ c.point = some k
    else c.point = none

theorem mustS_inner {v : ℝ} {c : Fin 8 → Node} {b : AABB ℝ} {p b1 : Path} {u : Unit} :
    mustS thr s tf1 B (.inner v c) b p b1 u ↔ ∃ i, mustS thr s tf1 B (c i) (childBV b i) (p ++ [i]) b1 u := by
  constructor
  · rintro ⟨ho, l, w, e, hl, hw, ht⟩
    obtain ⟨i, l', rfl, hl'⟩ := Node.leafAt_inner.1 hl
    exact ⟨i, ho, l', w, by simp [e], hl', hw, ht⟩
  · rintro ⟨i, ho, l, w, e, hl, hw, ht⟩
    exact ⟨ho, i :: l, w, by simp [e], Node.leafAt_inner.2 ⟨i, l, rfl, hl⟩, hw, ht⟩

theorem mayS_inner {v : ℝ} {c : Fin 8 → Node} {b : AABB ℝ} {p : Path} {k : OContact Unit} {i : Fin 8}
    (h : mayS thr q s tf1 B o1 o2 (c i) (childBV b i) (p ++ [i]) k) : mayS thr q s tf1 B o1 o2 (.inner v c) b p k := by
  obtain ⟨h1, h2, l, w, e, hl, hw, ht, hp⟩ := h
  exact ⟨h1, h2, i :: l, w, by simp [e], Node.leafAt_inner.2 ⟨i, l, rfl, hl⟩, hw, ht, hp⟩

theorem shapeIntersect_found (hp : LawfulPick pick) (hs : s.Exact B) (hX : tf1.Rigid) (ho : s.obb.WF)
    (hso : s.occupied = true → s.free = false) : ∀ (n : Node) (b : AABB ℝ) (p : Path), n.Consistent → n.Clear thr → Fat b →
    (∀ x ∈ B, x ∈ PlacedAt tf1 b.pts → x ∈ s.obb.pts) → ∀ r,
    Found q (mustS thr s tf1 B n b p) (mayS thr q s tf1 B o1 o2 n b p) r (shapeIntersect thr pick q s o1 o2 tf1 n b p r) := by
  intro n
  induction n with
  | null =>
    intro b p _ _ _ _ r
    have no : ∀ b1 b2, ¬ mustS thr s tf1 B .null b p b1 b2 := by
      rintro b1 b2 ⟨-, l, v, -, hl, -⟩
      simp [Node.leafAt] at hl
    rw [shapeIntersect]
    split_ifs
    · exact Found.costs no rfl rfl
    · exact Found.costs no rfl rfl
  | leaf v =>
    intro b p _ _ hb he r
    have box : BoxPts (ConstructBox.aabbAt b tf1) = PlacedAt tf1 b.pts := C90_box_aabb_at b tf1
    have ok := hb.ok hX
    have must : ∀ {b1 b2}, mustS thr s tf1 B (.leaf v) b p b1 b2 → thr.isOccupied v ∧ s.occupied = true ∧ p = b1 ∧
        Touch (BoxPts (ConstructBox.aabbAt b tf1)) B := by
      rintro b1 b2 ⟨h1, l, w, e, hl, hw, h2⟩
      obtain ⟨rfl, rfl⟩ := Node.leafAt_leaf.1 hl
      rw [box]
      exact ⟨hw, h1, by simp [e], h2⟩
    rw [shapeIntersect]
    by_cases c1 : thr.isOccupied v ∧ s.occupied
    swap
    · rw [if_neg c1]
      exact Found.none (fun b1 b2 h => c1 ⟨(must h).1, (must h).2.1⟩) r
    rw [if_pos c1]
    have may : ∀ {pt : Option CPoint}, Touch (BoxPts (ConstructBox.aabbAt b tf1)) B →
        (if q.enableContact then ∃ cs k, s.hitC (ConstructBox.aabbAt b tf1) = some cs ∧ k ∈ cs ∧ pt = some k else pt = none) →
        mayS thr q s tf1 B o1 o2 (.leaf v) b p ⟨o1, o2, p, (), pt⟩ := fun h1 h2 => by
      rw [box] at h1
      exact ⟨rfl, rfl, [], v, by simp, by simp [Node.leafAt], c1.1, h1, h2⟩
    by_cases c2 : (aabbOBB b tf1).overlap s.obb = true
    swap
    · rw [if_neg c2]
      refine Found.none (fun b1 b2 h => c2 ?_) r
      obtain ⟨x, h1, h2⟩ := (must h).2.2.2
      rw [box] at h1
      exact overlap_of_touch hX ho h1 (he x h2 h1)
    rw [if_pos c2]
    simp only [shapeContacts]
    by_cases c3 : q.enableContact = true
    · rw [if_neg (by simp [c3])]
      rcases c4 : s.hitC (ConstructBox.aabbAt b tf1) with _ | cs
      · refine found_nothing (fun b1 b2 h => ?_) r r rfl
        have := (hs.hitC _ ok).2 (must h).2.2.2
        rw [c4] at this
        simp at this
      · have tch : Touch (BoxPts (ConstructBox.aabbAt b tf1)) B := (hs.hitC _ ok).1 (by rw [c4]; rfl)
        exact addPoints_found hp (hs.some _ _ ok c4) (fun k hk => may tch (by rw [if_pos c3]; exact ⟨cs, k, c4, hk, rfl⟩))
          (fun x y h => ⟨(must h).2.2.1, rfl⟩) r id (fun _ => rfl)
    · rw [if_pos (by simp [c3])]
      by_cases c4 : s.hit (ConstructBox.aabbAt b tf1) = true
      · rw [if_pos c4]
        exact addOne_found (may ((hs.hit _ ok).1 c4) (by rw [if_neg c3])) (fun x y h => ⟨(must h).2.2.1, rfl⟩) r id (fun _ => rfl)
      · rw [if_neg c4]
        exact found_nothing (fun b1 b2 h => c4 ((hs.hit _ ok).2 (must h).2.2.2)) r r rfl
  | inner v c ih =>
    intro b p hc hd hb he r
    rw [shapeIntersect]
    by_cases c1 : thr.isFree v ∨ s.free
    · rw [if_pos c1]
      refine Found.none (fun b1 b2 h => ?_) r
      obtain ⟨h1, l, w, -, hl, hw, -⟩ := h
      rcases c1 with c1 | c1
      · exact no_leaf hc rfl hd.1 (Or.inl c1) hl hw
      · rw [hso h1] at c1; simp at c1
    rw [if_neg c1]
    by_cases c2 : (thr.isUncertain v ∨ s.uncertain) ∧ !q.req.enableCost
    · rw [if_pos c2]
      refine Found.none (fun b1 b2 h => ?_) r
      obtain ⟨h1, l, w, -, hl, hw, -⟩ := h
      rcases c2.1 with c2 | c2
      · exact no_leaf hc rfl hd.1 (Or.inr (Or.inl c2)) hl hw
      · rw [ShapeSide.uncertain, h1] at c2; simp at c2
    rw [if_neg c2]
    by_cases c3 : (aabbOBB b tf1).overlap s.obb = true
    swap
    · rw [if_pos (by simpa using c3)]
      refine Found.none (fun b1 b2 h => c3 ?_) r
      obtain ⟨h1, l, w, -, hl, hw, x, hx1, hx2⟩ := h
      have hx1 := placed_mono (cellOf_sub hb.valid l) hx1
      exact overlap_of_touch hX ho hx1 (he x hx2 hx1)
    rw [if_neg (by simp [c3])]
    have child : ∀ (i : Fin 8), (∀ x ∈ B, x ∈ PlacedAt tf1 (childBV b i).pts → x ∈ s.obb.pts) := fun i x h1 h2 =>
      he x h1 (placed_mono (cellOf_sub hb.valid [i]) h2)
    refine (Found.loop (l := eight) (M := fun i => mustS thr s tf1 B (c i) (childBV b i) (p ++ [i])) (fun i _ r => ?_) r).mono ?_ (fun _ => id)
    · by_cases c4 : ((c i).here || (!s.free && q.req.enableCost)) = true
      · rw [if_pos c4]
        exact (ih i _ _ (hc i).1 (hd.2 i) (hb.child i) (child i) r).mono (fun _ _ => id) (fun _ => mayS_inner)
      · rw [if_neg c4]
        refine Found.none (fun b1 b2 h => c4 ?_) r
        obtain ⟨-, l, w, -, hl, -⟩ := h
        rw [Node.leafAt_here hl]; rfl
    · intro b1 b2 h
      obtain ⟨i, h⟩ := mustS_inner.1 h
      exact ⟨i, mem_eight i, h⟩

end

/-! ### Octree and mesh -/

section
variable {V : Type*} {thr : Thresholds} {q : MeshRequest} {m : MeshSide V} {o1 o2 : ℕ} {tf1 : Pose ℝ} {T : ℕ → Set (V3 ℝ)}

/-- Some occupied leaf below the node, at the end of this way, touches the triangle, which is below the node of the
hierarchy. -/
def mustM (thr : Thresholds) (m : MeshSide V) (tf1 : Pose ℝ) (T : ℕ → Set (V3 ℝ)) (n : Node) (b : AABB ℝ) (p : Path) (h : BT V ℕ) (b1 : Path) (k : ℕ) : Prop :=
  m.occupied = true ∧ k ∈ h.prims ∧ ∃ l v, b1 = p ++ l ∧ n.leafAt l = some v ∧ thr.isOccupied v ∧ Touch (PlacedAt tf1 (cellOf b l).pts) (T k)

/-- The contact is one of the two subtrees. -/
def mayM (thr : Thresholds) (q : MeshRequest) (m : MeshSide V) (tf1 : Pose ℝ) (T : ℕ → Set (V3 ℝ)) (o1 o2 : ℕ) (n : Node) (b : AABB ℝ) (p : Path)
    (h : BT V ℕ) (c : OContact ℕ) : Prop :=
  c.o1 = o1 ∧ c.o2 = o2 ∧ c.b2 ∈ h.prims ∧ ∃ l v, c.b1 = p ++ l ∧ n.leafAt l = some v ∧ thr.isOccupied v ∧ Touch (PlacedAt tf1 (cellOf b l).pts) (T c.b2) ∧
    if q.enableContact then ∃ k, m.hitC (ConstructBox.aabbAt (cellOf b l) tf1) c.b2 = some k ∧ c.point = some k
    else c.point = none

theorem mustM_inner {v : ℝ} {c : Fin 8 → Node} {b : AABB ℝ} {p b1 : Path} {h : BT V ℕ} {k : ℕ}
    (x : mustM thr m tf1 T (.inner v c) b p h b1 k) : ∃ i ∈ eight, mustM thr m tf1 T (c i) (childBV b i) (p ++ [i]) h b1 k := by
  obtain ⟨ho, hk, l, w, e, hl, hw, ht⟩ := x
  obtain ⟨i, l', rfl, hl'⟩ := Node.leafAt_inner.1 hl
  exact ⟨i, mem_eight i, ho, hk, l', w, by simp [e], hl', hw, ht⟩

theorem mayM_inner {v : ℝ} {c : Fin 8 → Node} {b : AABB ℝ} {p : Path} {h : BT V ℕ} {k : OContact ℕ} {i : Fin 8}
    (x : mayM thr q m tf1 T o1 o2 (c i) (childBV b i) (p ++ [i]) h k) : mayM thr q m tf1 T o1 o2 (.inner v c) b p h k := by
  obtain ⟨h1, h2, hk, l, w, e, hl, hw, ht, hp⟩ := x
  exact ⟨h1, h2, hk, i :: l, w, by simp [e], Node.leafAt_inner.2 ⟨i, l, rfl, hl⟩, hw, ht, hp⟩

theorem mustM_node {n : Node} {b : AABB ℝ} {p b1 : Path} {w : V} {x y : BT V ℕ} {k : ℕ} (h : mustM thr m tf1 T n b p (.node w x y) b1 k) :
    mustM thr m tf1 T n b p x b1 k ∨ mustM thr m tf1 T n b p y b1 k := by
  obtain ⟨ho, hk, r⟩ := h
  rcases List.mem_append.1 hk with hk | hk
  · exact Or.inl ⟨ho, hk, r⟩
  · exact Or.inr ⟨ho, hk, r⟩

theorem mayM_node {n : Node} {b : AABB ℝ} {p : Path} {g h : BT V ℕ} (hg : ∀ k ∈ g.prims, k ∈ h.prims) {c : OContact ℕ}
    (x : mayM thr q m tf1 T o1 o2 n b p g c) : mayM thr q m tf1 T o1 o2 n b p h c := by
  obtain ⟨h1, h2, hk, r⟩ := x
  exact ⟨h1, h2, hg _ hk, r⟩

theorem Enc.left {E : V → ℕ → Prop} {w : V} {x y : BT V ℕ} (h : Enclosing E (.node w x y)) : Enclosing E x := fun u hu => h u (.left hu)
theorem Enc.right {E : V → ℕ → Prop} {w : V} {x y : BT V ℕ} (h : Enclosing E (.node w x y)) : Enclosing E y := fun u hu => h u (.right hu)

theorem meshNull_same (b : AABB ℝ) : ∀ (h : BT V ℕ) (r : OResult ℕ),
    (meshNull thr q m tf1 b h r).1.contacts = r.contacts ∧ (meshNull thr q m tf1 b h r).2 = false
  | .leaf w k, r => by rw [meshNull]; split_ifs <;> exact ⟨rfl, rfl⟩
  | .node w x y, r => by
    rw [meshNull]
    obtain ⟨h1, h2⟩ := meshNull_same b x r
    obtain ⟨h3, h4⟩ := meshNull_same b y (meshNull thr q m tf1 b x r).1
    rw [if_neg (by simp [h2])]
    exact ⟨h3.trans h1, h4⟩

/-- Where the search stops there is nothing to be found. -/
theorem meshStop_none {n : Node} {v : ℝ} (hv : n.logOdds = some v) (hc : n.Consistent) (hd : n.Clear thr) (hX : tf1.Rigid)
    (hso : m.occupied = true → m.free = false) {b : AABB ℝ} (hb : Fat b) {h : BT V ℕ} (he : m.Encloses T h) (hs : meshStop thr q m tf1 v b h.bv)
    {p b1 : Path} {k : ℕ} : ¬ mustM thr m tf1 T n b p h b1 k := by
  rintro ⟨h1, hk, l, w, -, hl, hw, x, hx1, hx2⟩
  rcases hs with hs | hs | hs | hs
  · exact no_leaf hc hv (hd.here hv) (Or.inl hs) hl hw
  · rw [hso h1] at hs; simp at hs
  · rcases hs.1 with hs | hs
    · exact no_leaf hc hv (hd.here hv) (Or.inr (Or.inl hs)) hl hw
    · rw [MeshSide.uncertain, h1] at hs; simp at hs
  · obtain ⟨w1, w2⟩ := he h (.refl h) k hk
    have := overlap_of_touch hX w1 (placed_mono (cellOf_sub hb.valid l) hx1) (w2 hx2)
    rw [hs] at this
    simp at this

theorem meshLeafLeaf_found (hs : m.Exact T) (hX : tf1.Rigid) {v : ℝ} {b : AABB ℝ} (hb : Fat b) (p : Path) {w : V} {k : ℕ}
    (he : m.Encloses T (.leaf w k)) (r : OResult ℕ) :
    Found q (mustM thr m tf1 T (.leaf v) b p (.leaf w k)) (mayM thr q m tf1 T o1 o2 (.leaf v) b p (.leaf w k)) r
      (meshLeafLeaf thr q m o1 o2 tf1 v b p w k r) := by
  have box : BoxPts (ConstructBox.aabbAt b tf1) = PlacedAt tf1 b.pts := C90_box_aabb_at b tf1
  have ok := hb.ok hX
  have must : ∀ {b1 b2}, mustM thr m tf1 T (.leaf v) b p (.leaf w k) b1 b2 → thr.isOccupied v ∧ m.occupied = true ∧ p = b1 ∧ k = b2 ∧
      Touch (BoxPts (ConstructBox.aabbAt b tf1)) (T k) := by
    rintro b1 b2 ⟨h1, hk, l, w, e, hl, hw, h2⟩
    obtain ⟨rfl, rfl⟩ := Node.leafAt_leaf.1 hl
    rw [box]
    have hk : b2 = k := by simpa [BT.prims] using hk
    subst hk
    exact ⟨hw, h1, by simp [e], rfl, h2⟩
  simp only [meshLeafLeaf]
  by_cases c1 : thr.isOccupied v ∧ m.occupied
  swap
  · rw [if_neg c1]
    have no : ∀ b1 b2, ¬ mustM thr m tf1 T (.leaf v) b p (.leaf w k) b1 b2 := fun b1 b2 h => c1 ⟨(must h).1, (must h).2.1⟩
    split_ifs
    · exact Found.costs no rfl rfl
    · exact Found.none no r
    · exact Found.none no r
  rw [if_pos c1]
  have may : ∀ {pt : Option CPoint}, Touch (BoxPts (ConstructBox.aabbAt b tf1)) (T k) →
      (if q.enableContact then ∃ c, m.hitC (ConstructBox.aabbAt b tf1) k = some c ∧ pt = some c else pt = none) →
      mayM thr q m tf1 T o1 o2 (.leaf v) b p (.leaf w k) ⟨o1, o2, p, k, pt⟩ := fun h1 h2 => by
    rw [box] at h1
    exact ⟨rfl, rfl, by simp [BT.prims], [], v, by simp, by simp [Node.leafAt], c1.1, h1, h2⟩
  by_cases c2 : (aabbOBB b tf1).overlap (m.toOBB w) = true
  swap
  · rw [if_neg c2]
    refine Found.none (fun b1 b2 h => c2 ?_) r
    obtain ⟨x, h1, h2⟩ := (must h).2.2.2.2
    rw [box] at h1
    obtain ⟨w1, w2⟩ := he _ (.refl _) k (by simp [BT.prims])
    exact overlap_of_touch hX w1 h1 (w2 h2)
  rw [if_pos c2]
  obtain ⟨f, hf, hfc⟩ : ∃ f : OResult ℕ → OResult ℕ, f = (fun x => if q.req.enableCost = true then x.addCostSource (m.cost (ConstructBox.aabbAt b tf1) k (probability v)) q.numMaxCost else x) ∧
      ∀ x, (f x).contacts = x.contacts := ⟨_, rfl, fun x => by split_ifs <;> rfl⟩
  by_cases c3 : q.enableContact = true
  · rcases c4 : m.hitC (ConstructBox.aabbAt b tf1) k with _ | c
    · simp only [meshCellContacts, c3, c4, Bool.not_true, Bool.false_eq_true, if_false, Bool.false_and]
      refine found_nothing (fun b1 b2 h => ?_) r r rfl
      have := (hs.hitC _ k ok).2 (must h).2.2.2.2
      rw [c4] at this
      simp at this
    · simp only [meshCellContacts, c3, c4, Bool.not_true, Bool.false_eq_true, if_false, Bool.true_and]
      have tch : Touch (BoxPts (ConstructBox.aabbAt b tf1)) (T k) := (hs.hitC _ k ok).1 (by rw [c4]; rfl)
      have := addOne_found (q := q) (May := mayM thr q m tf1 T o1 o2 (.leaf v) b p (.leaf w k)) (may (pt := some c) tch (by rw [if_pos c3]; exact ⟨c, c4, rfl⟩))
        (Must := mustM thr m tf1 T (.leaf v) b p (.leaf w k)) (fun x y h => ⟨(must h).2.2.1, (must h).2.2.2.1⟩) r f hfc
      rw [hf] at this
      exact this
  · by_cases c4 : m.hit (ConstructBox.aabbAt b tf1) k = true
    · simp only [meshCellContacts, c3, c4, Bool.not_false, if_true, Bool.true_and]
      have := addOne_found (q := q) (May := mayM thr q m tf1 T o1 o2 (.leaf v) b p (.leaf w k)) (may (pt := none) ((hs.hit _ k ok).1 c4) (by rw [if_neg c3]))
        (Must := mustM thr m tf1 T (.leaf v) b p (.leaf w k)) (fun x y h => ⟨(must h).2.2.1, (must h).2.2.2.1⟩) r f hfc
      rw [hf] at this
      exact this
    · simp only [meshCellContacts, c3, c4, Bool.not_false, if_true, if_false, Bool.false_eq_true, Bool.false_and]
      exact found_nothing (fun b1 b2 h => c4 ((hs.hit _ k ok).2 (must h).2.2.2.2)) r r rfl

theorem meshIntersect_found (hs : m.Exact T) (hX : tf1.Rigid) (hso : m.occupied = true → m.free = false) : ∀ (n : Node) (b : AABB ℝ) (p : Path),
    n.Consistent → n.Clear thr → Fat b → ∀ h : BT V ℕ, m.Encloses T h → ∀ r,
    Found q (mustM thr m tf1 T n b p h) (mayM thr q m tf1 T o1 o2 n b p h) r (meshIntersect thr q m o1 o2 tf1 n b p h r) := by
  intro n
  induction n with
  | null =>
    intro b p _ _ _ h _ r
    refine Found.costs ?_ (meshNull_same b h r).1 (meshNull_same b h r).2
    rintro b1 b2 ⟨-, -, l, v, -, hl, -⟩
    simp [Node.leafAt] at hl
  | leaf v =>
    intro b p hc hd hb h
    show m.Encloses T h → ∀ r, Found q _ _ r (meshLeafRec thr q m o1 o2 tf1 v b p h r)
    induction h with
    | leaf w k => exact fun he r => meshLeafLeaf_found hs hX hb p he r
    | node w x y ihx ihy =>
      intro he r
      rw [meshLeafRec]
      by_cases c1 : meshStop thr q m tf1 v b w
      · rw [if_pos c1]
        exact Found.none (fun b1 b2 => meshStop_none rfl hc hd hX hso hb he c1) r
      rw [if_neg c1]
      exact (Found.seq (fun r => (ihx (Enc.left he) r).mono (fun _ _ => id) fun _ => mayM_node fun k hk => List.mem_append_left _ hk)
        (fun r => (ihy (Enc.right he) r).mono (fun _ _ => id) fun _ => mayM_node fun k hk => List.mem_append_right _ hk) r).mono
        (fun _ _ => mustM_node) (fun _ => id)
  | inner v c ih =>
    intro b p hc hd hb h
    show m.Encloses T h → ∀ r, Found q _ _ r (meshInnerRec thr q m tf1 v b (fun i => (c i).here)
      (fun i => meshIntersect thr q m o1 o2 tf1 (c i) (childBV b i) (p ++ [i])) h r)
    have kids : ∀ h : BT V ℕ, m.Encloses T h → ∀ r, Found q (mustM thr m tf1 T (.inner v c) b p h) (mayM thr q m tf1 T o1 o2 (.inner v c) b p h) r
        (until' (fun i r => if (c i).here || (!m.free && q.req.enableCost) then
          meshIntersect thr q m o1 o2 tf1 (c i) (childBV b i) (p ++ [i]) h r else (r, false)) eight r) := by
      intro h he r
      refine (Found.loop (l := eight) (M := fun i => mustM thr m tf1 T (c i) (childBV b i) (p ++ [i]) h) (fun i _ r => ?_) r).mono
        (fun _ _ => mustM_inner) (fun _ => id)
      by_cases c4 : ((c i).here || (!m.free && q.req.enableCost)) = true
      · rw [if_pos c4]
        exact (ih i _ _ (hc i).1 (hd.2 i) (hb.child i) h he r).mono (fun _ _ => id) (fun _ => mayM_inner)
      · rw [if_neg c4]
        refine Found.none (fun b1 b2 h => c4 ?_) r
        obtain ⟨-, -, l, w, -, hl, -⟩ := h
        rw [Node.leafAt_here hl]; rfl
    induction h with
    | leaf w k =>
      intro he r
      rw [meshInnerRec]
      by_cases c1 : meshStop thr q m tf1 v b w
      · rw [if_pos c1]
        exact Found.none (fun b1 b2 => meshStop_none rfl hc hd hX hso hb he c1) r
      rw [if_neg c1]
      exact kids _ he r
    | node w x y ihx ihy =>
      intro he r
      rw [meshInnerRec]
      by_cases c1 : meshStop thr q m tf1 v b w
      · rw [if_pos c1]
        exact Found.none (fun b1 b2 => meshStop_none rfl hc hd hX hso hb he c1) r
      rw [if_neg c1]
      by_cases c2 : m.larger b w = true
      · rw [if_pos c2]
        exact kids _ he r
      rw [if_neg c2]
      exact (Found.seq (fun r => (ihx (Enc.left he) r).mono (fun _ _ => id) fun _ => mayM_node fun k hk => List.mem_append_left _ hk)
        (fun r => (ihy (Enc.right he) r).mono (fun _ _ => id) fun _ => mayM_node fun k hk => List.mem_append_right _ hk) r).mono
        (fun _ _ => mustM_node) (fun _ => id)

end

/-! ### Two octrees -/

section
variable {e : PairEnv} {pick : ℕ → List CPoint → List CPoint} {q : MeshRequest}

/-- Some occupied leaves below the two nodes, at the ends of these ways, touch. -/
def mustP (e : PairEnv) (n1 : Node) (b1 : AABB ℝ) (p1 : Path) (n2 : Node) (b2 : AABB ℝ) (p2 : Path) (x y : Path) : Prop :=
  ∃ l1 v1 l2 v2, x = p1 ++ l1 ∧ y = p2 ++ l2 ∧ n1.leafAt l1 = some v1 ∧ n2.leafAt l2 = some v2 ∧ e.thr1.isOccupied v1 ∧ e.thr2.isOccupied v2 ∧
    Touch (PlacedAt e.tf1 (cellOf b1 l1).pts) (PlacedAt e.tf2 (cellOf b2 l2).pts)

/-- The contact is one of the two subtrees. -/
def mayP (e : PairEnv) (q : MeshRequest) (n1 : Node) (b1 : AABB ℝ) (p1 : Path) (n2 : Node) (b2 : AABB ℝ) (p2 : Path) (c : OContact Path) : Prop :=
  c.o1 = e.o1 ∧ c.o2 = e.o2 ∧ ∃ l1 v1 l2 v2, c.b1 = p1 ++ l1 ∧ c.b2 = p2 ++ l2 ∧ n1.leafAt l1 = some v1 ∧ n2.leafAt l2 = some v2 ∧
    e.thr1.isOccupied v1 ∧ e.thr2.isOccupied v2 ∧
    if q.enableContact then Touch (PlacedAt e.tf1 (cellOf b1 l1).pts) (PlacedAt e.tf2 (cellOf b2 l2).pts) ∧
      ∃ cs k, e.side.hitC (ConstructBox.aabbAt (cellOf b1 l1) e.tf1) (ConstructBox.aabbAt (cellOf b2 l2) e.tf2) = some cs ∧ k ∈ cs ∧ c.point = some k
    else e.overlap (cellOf b1 l1) (cellOf b2 l2) = true ∧ c.point = none

variable {n1 n2 : Node} {b1 b2 : AABB ℝ} {p1 p2 x y : Path}

theorem mustP_left {v : ℝ} {c : Fin 8 → Node} (h : mustP e (.inner v c) b1 p1 n2 b2 p2 x y) :
    ∃ i ∈ eight, mustP e (c i) (childBV b1 i) (p1 ++ [i]) n2 b2 p2 x y := by
  obtain ⟨l1, v1, l2, v2, e1, e2, h1, h2, r⟩ := h
  obtain ⟨i, l', rfl, hl'⟩ := Node.leafAt_inner.1 h1
  exact ⟨i, mem_eight i, l', v1, l2, v2, by simp [e1], e2, hl', h2, r⟩

theorem mustP_right {v : ℝ} {c : Fin 8 → Node} (h : mustP e n1 b1 p1 (.inner v c) b2 p2 x y) :
    ∃ i ∈ eight, mustP e n1 b1 p1 (c i) (childBV b2 i) (p2 ++ [i]) x y := by
  obtain ⟨l1, v1, l2, v2, e1, e2, h1, h2, r⟩ := h
  obtain ⟨i, l', rfl, hl'⟩ := Node.leafAt_inner.1 h2
  exact ⟨i, mem_eight i, l1, v1, l', v2, e1, by simp [e2], h1, hl', r⟩

theorem mayP_left {v : ℝ} {c : Fin 8 → Node} {k : OContact Path} {i : Fin 8} (h : mayP e q (c i) (childBV b1 i) (p1 ++ [i]) n2 b2 p2 k) :
    mayP e q (.inner v c) b1 p1 n2 b2 p2 k := by
  obtain ⟨h1, h2, l1, v1, l2, v2, e1, e2, k1, k2, r⟩ := h
  exact ⟨h1, h2, i :: l1, v1, l2, v2, by simp [e1], e2, Node.leafAt_inner.2 ⟨i, l1, rfl, k1⟩, k2, r⟩

theorem mayP_right {v : ℝ} {c : Fin 8 → Node} {k : OContact Path} {i : Fin 8} (h : mayP e q n1 b1 p1 (c i) (childBV b2 i) (p2 ++ [i]) k) :
    mayP e q n1 b1 p1 (.inner v c) b2 p2 k := by
  obtain ⟨h1, h2, l1, v1, l2, v2, e1, e2, k1, k2, r⟩ := h
  exact ⟨h1, h2, l1, v1, i :: l2, v2, e1, by simp [e2], k1, Node.leafAt_inner.2 ⟨i, l2, rfl, k2⟩, r⟩

theorem mustP_null1 : ¬ mustP e .null b1 p1 n2 b2 p2 x y := by
  rintro ⟨l1, v1, l2, v2, -, -, h, -⟩
  simp [Node.leafAt] at h

theorem mustP_null2 : ¬ mustP e n1 b1 p1 .null b2 p2 x y := by
  rintro ⟨l1, v1, l2, v2, -, -, -, h, -⟩
  simp [Node.leafAt] at h

theorem until_same {ι I : Type*} {f : ι → OResult I → OResult I × Bool} (hf : ∀ i r, (f i r).1.contacts = r.contacts ∧ (f i r).2 = false) :
    ∀ (l : List ι) (r : OResult I), (until' f l r).1.contacts = r.contacts ∧ (until' f l r).2 = false
  | [], r => ⟨rfl, rfl⟩
  | i :: l, r => by
    rw [until', if_neg (by simp [(hf i r).2])]
    exact ⟨(until_same hf l _).1.trans (hf i r).1, (until_same hf l _).2⟩

theorem nullNull_same (b1 b2 : AABB ℝ) (r : OResult Path) : (e.nullNull q b1 b2 r).1.contacts = r.contacts ∧ (e.nullNull q b1 b2 r).2 = false := by
  rw [PairEnv.nullNull]; split_ifs <;> exact ⟨rfl, rfl⟩

theorem nullLeft_same (n : Node) : ∀ (b1 b2 : AABB ℝ) (r : OResult Path), (e.nullLeft q b1 n b2 r).1.contacts = r.contacts ∧ (e.nullLeft q b1 n b2 r).2 = false := by
  induction n with
  | null => exact fun b1 b2 r => nullNull_same b1 b2 r
  | leaf v => exact fun b1 b2 r => nullNull_same b1 b2 r
  | inner v c ih => exact fun b1 b2 r => until_same (fun i r => ih i b1 _ r) eight r

theorem nullRight_same (n : Node) : ∀ (b1 b2 : AABB ℝ) (r : OResult Path), (e.nullRight q b2 n b1 r).1.contacts = r.contacts ∧ (e.nullRight q b2 n b1 r).2 = false := by
  induction n with
  | null => exact fun b1 b2 r => nullNull_same b1 b2 r
  | leaf v => exact fun b1 b2 r => nullNull_same b1 b2 r
  | inner v c ih => exact fun b1 b2 r => until_same (fun i r => ih i _ b2 r) eight r

theorem pair_overlap (h1 : e.tf1.Rigid) (h2 : e.tf2.Rigid) (t : Touch (PlacedAt e.tf1 b1.pts) (PlacedAt e.tf2 b2.pts)) : e.overlap b1 b2 = true := by
  obtain ⟨x, k1, k2⟩ := t
  obtain ⟨w, we⟩ := C90_aabb_obb h2 b2
  exact overlap_of_touch h1 w k1 (by rw [we]; exact k2)

/-- Where the search stops there is nothing to be found. -/
theorem pairStop_none {v1 v2 : ℝ} (hv1 : n1.logOdds = some v1) (hv2 : n2.logOdds = some v2) (hc1 : n1.Consistent) (hc2 : n2.Consistent)
    (hd1 : n1.Clear e.thr1) (hd2 : n2.Clear e.thr2) (h1 : e.tf1.Rigid) (h2 : e.tf2.Rigid) (hb1 : Fat b1) (hb2 : Fat b2)
    (hs : e.stop q v1 b1 v2 b2) : ¬ mustP e n1 b1 p1 n2 b2 p2 x y := by
  rintro ⟨l1, w1, l2, w2, -, -, hl1, hl2, ho1, ho2, z, hz1, hz2⟩
  rcases hs with hs | hs | hs | hs
  · exact no_leaf hc1 hv1 (hd1.here hv1) (Or.inl hs) hl1 ho1
  · exact no_leaf hc2 hv2 (hd2.here hv2) (Or.inl hs) hl2 ho2
  · rcases hs.1 with hs | hs
    · exact no_leaf hc1 hv1 (hd1.here hv1) (Or.inr (Or.inl hs)) hl1 ho1
    · exact no_leaf hc2 hv2 (hd2.here hv2) (Or.inr (Or.inl hs)) hl2 ho2
  · have := pair_overlap h1 h2 ⟨z, placed_mono (cellOf_sub hb1.valid l1) hz1, placed_mono (cellOf_sub hb2.valid l2) hz2⟩
    rw [hs] at this
    simp at this

theorem pairLeaf_found (hp : LawfulPick pick) (hs : e.side.Exact) (h1 : e.tf1.Rigid) (h2 : e.tf2.Rigid) (hb1 : Fat b1) (hb2 : Fat b2) {v1 v2 : ℝ}
    (r : OResult Path) : Found q (mustP e (.leaf v1) b1 p1 (.leaf v2) b2 p2) (mayP e q (.leaf v1) b1 p1 (.leaf v2) b2 p2) r
      (e.leafLeaf pick q v1 b1 p1 v2 b2 p2 r) := by
  have box1 : BoxPts (ConstructBox.aabbAt b1 e.tf1) = PlacedAt e.tf1 b1.pts := C90_box_aabb_at b1 e.tf1
  have box2 : BoxPts (ConstructBox.aabbAt b2 e.tf2) = PlacedAt e.tf2 b2.pts := C90_box_aabb_at b2 e.tf2
  have ok1 := hb1.ok h1
  have ok2 := hb2.ok h2
  have must : ∀ {x y}, mustP e (.leaf v1) b1 p1 (.leaf v2) b2 p2 x y → e.thr1.isOccupied v1 ∧ e.thr2.isOccupied v2 ∧ p1 = x ∧ p2 = y ∧
      Touch (PlacedAt e.tf1 b1.pts) (PlacedAt e.tf2 b2.pts) := by
    rintro x y ⟨l1, w1, l2, w2, e1, e2, hl1, hl2, ho1, ho2, t⟩
    obtain ⟨rfl, rfl⟩ := Node.leafAt_leaf.1 hl1
    obtain ⟨rfl, rfl⟩ := Node.leafAt_leaf.1 hl2
    exact ⟨ho1, ho2, by simp [e1], by simp [e2], t⟩
  simp only [PairEnv.leafLeaf]
  by_cases c1 : e.thr1.isOccupied v1 ∧ e.thr2.isOccupied v2
  swap
  · rw [if_neg c1]
    have no : ∀ x y, ¬ mustP e (.leaf v1) b1 p1 (.leaf v2) b2 p2 x y := fun x y h => c1 ⟨(must h).1, (must h).2.1⟩
    split_ifs
    · exact Found.costs no rfl rfl
    · exact Found.none no r
    · exact Found.none no r
  rw [if_pos c1]
  have may : ∀ {pt : Option CPoint}, (if q.enableContact then Touch (PlacedAt e.tf1 b1.pts) (PlacedAt e.tf2 b2.pts) ∧
      ∃ cs k, e.side.hitC (ConstructBox.aabbAt b1 e.tf1) (ConstructBox.aabbAt b2 e.tf2) = some cs ∧ k ∈ cs ∧ pt = some k
      else e.overlap b1 b2 = true ∧ pt = none) → mayP e q (.leaf v1) b1 p1 (.leaf v2) b2 p2 ⟨e.o1, e.o2, p1, p2, pt⟩ := fun h =>
    ⟨rfl, rfl, [], v1, [], v2, by simp, by simp, by simp [Node.leafAt], by simp [Node.leafAt], c1.1, c1.2, h⟩
  obtain ⟨f, hf, hfc⟩ : ∃ f : OResult Path → OResult Path, f = (fun x => if q.req.enableCost = true then e.addCost q b1 b2 (probability v1 * probability v2) x else x) ∧
      ∀ x, (f x).contacts = x.contacts := ⟨_, rfl, fun x => by split_ifs <;> rfl⟩
  by_cases c3 : q.enableContact = true
  · rcases c4 : e.side.hitC (ConstructBox.aabbAt b1 e.tf1) (ConstructBox.aabbAt b2 e.tf2) with _ | cs
    · simp only [PairEnv.contacts, c3, c4, Bool.not_true, Bool.false_eq_true, if_false, Bool.false_and]
      refine found_nothing (fun x y h => ?_) r r rfl
      have := (hs.hitC _ _ ok1 ok2).2 (by rw [box1, box2]; exact (must h).2.2.2.2)
      rw [c4] at this
      simp at this
    · simp only [PairEnv.contacts, c3, c4, Bool.not_true, Bool.false_eq_true, if_false, Bool.true_and]
      have tch : Touch (PlacedAt e.tf1 b1.pts) (PlacedAt e.tf2 b2.pts) := by
        rw [← box1, ← box2]; exact (hs.hitC _ _ ok1 ok2).1 (by rw [c4]; rfl)
      have := addPoints_found (q := q) hp (May := mayP e q (.leaf v1) b1 p1 (.leaf v2) b2 p2) (Must := mustP e (.leaf v1) b1 p1 (.leaf v2) b2 p2)
        (hs.some _ _ _ ok1 ok2 c4) (fun k hk => may (pt := some k) (by rw [if_pos c3]; exact ⟨tch, cs, k, c4, hk, rfl⟩))
        (fun x y h => ⟨(must h).2.2.1, (must h).2.2.2.1⟩) r f hfc
      rw [hf] at this
      exact this
  · by_cases c4 : e.overlap b1 b2 = true
    · simp only [PairEnv.contacts, c3, c4, Bool.not_false, if_true, Bool.true_and]
      have := addOne_found (q := q) (May := mayP e q (.leaf v1) b1 p1 (.leaf v2) b2 p2) (Must := mustP e (.leaf v1) b1 p1 (.leaf v2) b2 p2)
        (may (pt := none) (by rw [if_neg c3]; exact ⟨c4, rfl⟩)) (fun x y h => ⟨(must h).2.2.1, (must h).2.2.2.1⟩) r f hfc
      rw [hf] at this
      exact this
    · simp only [PairEnv.contacts, c3, c4, Bool.not_false, if_true, if_false, Bool.false_eq_true, Bool.false_and]
      exact found_nothing (fun x y h => c4 (pair_overlap h1 h2 (must h).2.2.2.2)) r r rfl

/-- One of the loops over children of the second octree. -/
theorem pairLoop2 {v : ℝ} {c : Fin 8 → Node} {f : Fin 8 → OResult Path → OResult Path × Bool} {a : Fin 8 → Bool} (ha : ∀ i, (c i).here = true → a i = true)
    (hf : ∀ i r, Found q (mustP e n1 b1 p1 (c i) (childBV b2 i) (p2 ++ [i])) (mayP e q n1 b1 p1 (c i) (childBV b2 i) (p2 ++ [i])) r (f i r)) (r : OResult Path) :
    Found q (mustP e n1 b1 p1 (.inner v c) b2 p2) (mayP e q n1 b1 p1 (.inner v c) b2 p2) r (until' (fun i r => if a i then f i r else (r, false)) eight r) := by
  refine (Found.loop (l := eight) (M := fun i => mustP e n1 b1 p1 (c i) (childBV b2 i) (p2 ++ [i])) (fun i _ r => ?_) r).mono (fun _ _ => mustP_right) (fun _ => id)
  by_cases k : a i = true
  · rw [if_pos k]
    exact (hf i r).mono (fun _ _ => id) (fun _ => mayP_right)
  · rw [if_neg k]
    refine Found.none (fun x y h => k (ha i ?_)) r
    obtain ⟨l1, w1, l2, w2, -, -, -, hl2, -⟩ := h
    exact Node.leafAt_here hl2

/-- The loop over the children of the first octree. -/
theorem pairLoop1 {v : ℝ} {c : Fin 8 → Node} {f : Fin 8 → OResult Path → OResult Path × Bool} {v2 : ℝ}
    (hf : ∀ i r, Found q (mustP e (c i) (childBV b1 i) (p1 ++ [i]) n2 b2 p2) (mayP e q (c i) (childBV b1 i) (p1 ++ [i]) n2 b2 p2) r (f i r)) (r : OResult Path) :
    Found q (mustP e (.inner v c) b1 p1 n2 b2 p2) (mayP e q (.inner v c) b1 p1 n2 b2 p2) r (e.kids1 q (fun i => (c i).here) f v2 r) := by
  rw [PairEnv.kids1]
  refine (Found.loop (l := eight) (M := fun i => mustP e (c i) (childBV b1 i) (p1 ++ [i]) n2 b2 p2) (fun i _ r => ?_) r).mono (fun _ _ => mustP_left) (fun _ => id)
  by_cases k : ((c i).here || (decide (¬ e.thr2.isFree v2) && q.req.enableCost)) = true
  · rw [if_pos k]
    exact (hf i r).mono (fun _ _ => id) (fun _ => mayP_left)
  · rw [if_neg k]
    refine Found.none (fun x y h => k ?_) r
    obtain ⟨l1, w1, l2, w2, -, -, hl1, -⟩ := h
    rw [Node.leafAt_here hl1]; rfl

theorem pairIntersect_found (hp : LawfulPick pick) (hs : e.side.Exact) (h1 : e.tf1.Rigid) (h2 : e.tf2.Rigid) : ∀ (n1 : Node) (b1 : AABB ℝ) (p1 : Path),
    n1.Consistent → n1.Clear e.thr1 → Fat b1 → ∀ (n2 : Node) (b2 : AABB ℝ) (p2 : Path), n2.Consistent → n2.Clear e.thr2 → Fat b2 → ∀ r,
    Found q (mustP e n1 b1 p1 n2 b2 p2) (mayP e q n1 b1 p1 n2 b2 p2) r (e.intersect pick q n1 b1 p1 n2 b2 p2 r) := by
  intro n1
  induction n1 with
  | null =>
    intro b1 p1 _ _ _ n2 b2 p2 _ _ _ r
    exact Found.costs (fun _ _ => mustP_null1) (nullLeft_same n2 b1 b2 r).1 (nullLeft_same n2 b1 b2 r).2
  | leaf v1 =>
    intro b1 p1 hc1 hd1 hb1 n2
    show ∀ b2 p2, n2.Consistent → n2.Clear e.thr2 → Fat b2 → ∀ r, Found q _ _ r (e.leafRec pick q v1 b1 p1 n2 b2 p2 r)
    induction n2 with
    | null =>
      intro b2 p2 _ _ _ r
      exact Found.costs (fun _ _ => mustP_null2) (nullNull_same b1 b2 r).1 (nullNull_same b1 b2 r).2
    | leaf v2 => exact fun b2 p2 _ _ hb2 r => pairLeaf_found hp hs h1 h2 hb1 hb2 r
    | inner v2 c ih =>
      intro b2 p2 hc2 hd2 hb2 r
      rw [PairEnv.leafRec]
      by_cases k : e.stop q v1 b1 v2 b2
      · rw [if_pos k]
        exact Found.none (fun _ _ => pairStop_none rfl rfl hc1 hc2 hd1 hd2 h1 h2 hb1 hb2 k) r
      rw [if_neg k]
      exact pairLoop2 (fun i hi => by rw [hi]; rfl) (fun i r => ih i _ _ (hc2 i).1 (hd2.2 i) (hb2.child i) r) r
  | inner v1 c1 ih1 =>
    intro b1 p1 hc1 hd1 hb1 n2
    show ∀ b2 p2, n2.Consistent → n2.Clear e.thr2 → Fat b2 → ∀ r, Found q _ _ r (e.innerRec q v1 c1 b1 (fun i => e.intersect pick q (c1 i) (childBV b1 i) (p1 ++ [i])) n2 b2 p2 r)
    induction n2 with
    | null =>
      intro b2 p2 _ _ _ r
      exact Found.costs (fun _ _ => mustP_null2) (nullRight_same _ b1 b2 r).1 (nullRight_same _ b1 b2 r).2
    | leaf v2 =>
      intro b2 p2 hc2 hd2 hb2 r
      rw [PairEnv.innerRec]
      by_cases k : e.stop q v1 b1 v2 b2
      · rw [if_pos k]
        exact Found.none (fun _ _ => pairStop_none rfl rfl hc1 hc2 hd1 hd2 h1 h2 hb1 hb2 k) r
      rw [if_neg k]
      exact pairLoop1 (fun i r => ih1 i _ _ (hc1 i).1 (hd1.2 i) (hb1.child i) _ _ _ hc2 hd2 hb2 r) r
    | inner v2 c ih =>
      intro b2 p2 hc2 hd2 hb2 r
      rw [PairEnv.innerRec]
      by_cases k : e.stop q v1 b1 v2 b2
      · rw [if_pos k]
        exact Found.none (fun _ _ => pairStop_none rfl rfl hc1 hc2 hd1 hd2 h1 h2 hb1 hb2 k) r
      rw [if_neg k]
      by_cases k' : e.side.larger b1 b2 = true
      · rw [if_pos k']
        exact pairLoop1 (fun i r => ih1 i _ _ (hc1 i).1 (hd1.2 i) (hb1.child i) _ _ _ hc2 hd2 hb2 r) r
      rw [if_neg k']
      exact pairLoop2 (fun i hi => by rw [hi]; rfl) (fun i r => ih i _ _ (hc2 i).1 (hd2.2 i) (hb2.child i) r) r

end

end Octree
end Fcl
