import Verif.BVH.MeshDistSpec
import Verif.BVH.TriDistSpec
import Verif.Props.TraversalDist
import Verif.Props.TriTest

/-! # Lemmas on the distance query of two meshes -/

namespace Fcl
open V3

/-- A distance traversal does the same on two states when what it reads and writes of them is the same. -/
theorem distanceRecurse_sim {σ τ K A B : Type*} [LinearOrder K] {N : DistNode σ K A B} {M : DistNode τ K A B} (T : Trav A B)
    (f : σ → τ) (hb : M.bvDist = N.bvDist) (hl : ∀ s a b, T.leaf1 a = true → T.leaf2 b = true → M.leafTest (f s) a b = f (N.leafTest s a b))
    (hs : ∀ s c, M.canStop (f s) c = N.canStop s c) (fuel : ℕ) (a : A) (b : B) (s : σ) (F : Front A B) :
    distanceRecurse M T fuel a b (f s, F) = (distanceRecurse N T fuel a b (s, F)).map fun x => (f x.1, x.2) := by
  induction fuel generalizing a b s F with
  | zero => rfl
  | succ fuel ih =>
    simp only [distanceRecurse, hb]
    generalize (if T.fos a b = true then ((T.left1 a, b), (T.right1 a, b)) else ((a, T.left2 b), (a, T.right2 b))) = p
    split
    · rename_i h
      rw [Bool.and_eq_true] at h
      simp [hl s a b h.1 h.2]
    · have visit : ∀ (d : K) (q : A × B) (s : σ) (F : Front A B),
          (if !M.canStop (f s) d then distanceRecurse M T fuel q.1 q.2 (f s, F) else some (f s, F.push q.1 q.2)) =
          (if !N.canStop s d then distanceRecurse N T fuel q.1 q.2 (s, F) else some (s, F.push q.1 q.2)).map
            fun x => (f x.1, x.2) := by
        intro d q s F
        rw [hs]
        split
        · exact ih _ _ _ _
        · rfl
      split
      · rw [visit]
        split
        · rename_i h; rw [Option.map_eq_none_iff] at h; rw [h]; rfl
        · rename_i h
          obtain ⟨⟨s', F'⟩, h', rfl⟩ := Option.map_eq_some_iff.1 h
          rw [h']
          exact visit _ _ _ _
      · rw [visit]
        split
        · rename_i h; rw [Option.map_eq_none_iff] at h; rw [h]; rfl
        · rename_i h
          obtain ⟨⟨s', F'⟩, h', rfl⟩ := Option.map_eq_some_iff.1 h
          rw [h']
          exact visit _ _ _ _

variable {V O : Type*}

/-- The primitive of a leaf, 0 for other nodes. -/
def BT.primD (t : BT V ℕ) : ℕ := t.prim?.getD 0

/-- The result that goes with the best pair of leaves found so far. -/
noncomputable def viewPair (tri : ℕ → ℕ → ℝ × V3 ℝ × V3 ℝ) (points : Bool) (o1 o2 : O) (r : MeshDistResult O)
    (s : BestPair ℝ (BT V ℕ) (BT V ℕ)) : MeshDistResult O :=
  match s.pair with
  | none => { r with minDist := s.minDistance }
  | some (a, b) => ⟨s.minDistance, if points then (tri a.primD b.primD).2 else r.nearest, some o1, some o2, a.primD, b.primD⟩

theorem leaves_prim {t : BT V ℕ} {a : BT V ℕ} (h : a ∈ t.leaves) : ∃ bv p, a = .leaf bv p ∧ p ∈ t.prims := by
  induction t with
  | leaf bv p =>
    simp only [BT.leaves, List.mem_singleton] at h
    exact ⟨bv, p, h, by simp [BT.prims]⟩
  | node bv l r ihl ihr =>
    rcases List.mem_append.1 h with h | h
    · obtain ⟨bv, p, e, hp⟩ := ihl h
      exact ⟨bv, p, e, List.mem_append_left _ hp⟩
    · obtain ⟨bv, p, e, hp⟩ := ihr h
      exact ⟨bv, p, e, List.mem_append_right _ hp⟩

theorem prims_leaf {t : BT V ℕ} {p : ℕ} (h : p ∈ t.prims) : ∃ bv, .leaf bv p ∈ t.leaves := by
  induction t with
  | leaf bv q =>
    simp only [BT.prims, List.mem_singleton] at h
    exact ⟨bv, by simp [BT.leaves, h]⟩
  | node bv l r ihl ihr =>
    rcases List.mem_append.1 h with h | h
    · obtain ⟨bv, e⟩ := ihl h
      exact ⟨bv, List.mem_append_left _ e⟩
    · obtain ⟨bv, e⟩ := ihr h
      exact ⟨bv, List.mem_append_right _ e⟩

/-- What the traversal finds: a result that is as small as the distance of every pair of primitives, and that is the old
one or the one of a pair of primitives at a smaller distance. -/
theorem meshTraversal {bvDist : V → V → ℝ} {tri : ℕ → ℕ → ℝ × V3 ℝ × V3 ℝ} {points : Bool} {o1 o2 : O}
    {t1 t2 : BT V ℕ} (hB : ∀ u v, BT.Below u t1 → BT.Below v t2 → ∀ i ∈ u.prims, ∀ j ∈ v.prims, bvDist u.bv v.bv ≤ (tri i j).1)
    (larger : V → V → Bool) {fuel : ℕ} (hf : t1.depth + t2.depth < fuel) (r : MeshDistResult O) :
    ∃ r', distanceRecurse (meshDistanceNode bvDist tri points o1 o2) (Trav.bvh larger) fuel t1 t2 (r, none) = some (r', none) ∧
      (∀ i ∈ t1.prims, ∀ j ∈ t2.prims, r'.minDist ≤ (tri i j).1) ∧
      (r' = r ∨ ∃ i ∈ t1.prims, ∃ j ∈ t2.prims, (tri i j).1 < r.minDist ∧
        r' = ⟨(tri i j).1, if points then (tri i j).2 else r.nearest, some o1, some o2, i, j⟩) := by
  have hB' : LowerBounds (fun a b : BT V ℕ => bvDist a.bv b.bv) (fun a b => (tri a.primD b.primD).1) t1 t2 := by
    intro u v hu hv p hp
    obtain ⟨h1, h2⟩ := List.mem_product.1 hp
    obtain ⟨_, i, e1, hi⟩ := leaves_prim h1
    obtain ⟨_, j, e2, hj⟩ := leaves_prim h2
    rw [e1, e2]
    exact hB u v hu hv i hi j hj
  obtain ⟨s', L, e, w, -⟩ := distanceRecurse_ok (absErr := (0 : ℝ)) (relErr := 0) (by simp) (follows_bvh larger) fuel trivial
    hB' hf (⟨r.minDist, none⟩, none)
  have sim := distanceRecurse_sim (N := meshDistNode (fun a b : BT V ℕ => bvDist a.bv b.bv)
      (fun a b : BT V ℕ => (tri a.primD b.primD).1) 0 0) (M := meshDistanceNode bvDist tri points o1 o2) (Trav.bvh larger)
    (viewPair tri points o1 o2 r) rfl (by
      intro s a b ha hb
      cases a with
      | node => exact absurd ha Bool.false_ne_true
      | leaf bva i =>
        cases b with
        | node => exact absurd hb Bool.false_ne_true
        | leaf bvb j =>
          rcases s with ⟨m, pr⟩
          by_cases h : (tri i j).1 < m <;> rcases pr with _ | ⟨x, y⟩ <;> cases points <;>
            simp [meshDistanceNode, meshDistNode, MeshDistResult.offer, DistResult.update, viewPair, BT.primD, BT.prim?, h])
    (by
      intro s c
      rcases s with ⟨m, _ | ⟨x, y⟩⟩ <;> rfl)
    fuel t1 t2 ⟨r.minDist, none⟩ none
  have e0 : viewPair tri points o1 o2 r (⟨r.minDist, none⟩ : BestPair ℝ (BT V ℕ) (BT V ℕ)) = r := rfl
  rw [e0, e] at sim
  refine ⟨_, sim, fun i hi j hj => ?_, ?_⟩
  · obtain ⟨b1, m1⟩ := prims_leaf hi
    obtain ⟨b2, m2⟩ := prims_leaf hj
    have hm : (viewPair tri points o1 o2 r s').minDist = s'.minDistance := by
      rcases s' with ⟨m, _ | ⟨x, y⟩⟩ <;> rfl
    rw [hm]
    rcases w.near _ (List.mem_product.2 ⟨m1, m2⟩) with h | h
    · exact h
    · have := h.1
      rw [add_zero] at this
      exact this
  · rcases w.found with h | ⟨p, hp, h, hlt⟩
    · left
      rw [h]
      exact e0
    · right
      obtain ⟨h1, h2⟩ := List.mem_product.1 hp
      obtain ⟨_, i, e1, hi⟩ := leaves_prim h1
      obtain ⟨_, j, e2, hj⟩ := leaves_prim h2
      rw [h, e1, e2] at hlt
      refine ⟨i, hi, j, hj, hlt, ?_⟩
      rw [h]
      obtain ⟨p1, p2⟩ := p
      simp only at e1 e2
      subst e1 e2
      rfl

/-- What is known of the call of `triDistance` for two primitives. -/
structure TriOK (A B : Set (V3 ℝ)) (t : ℝ × V3 ℝ × V3 ℝ) : Prop where
  left : t.2.1 ∈ A
  right : t.2.2 ∈ B
  dist : ∃ p q, IsDist A B t.1 p q
  near : 0 < t.1 → IsDist A B t.1 t.2.1 t.2.2

/-- The traversal from hierarchies whose volumes are at most as far from each other as the primitives below them. -/
theorem traversal_found {bvDist : V → V → ℝ} {tri : ℕ → ℕ → ℝ × V3 ℝ × V3 ℝ} (points : Bool) (o1 o2 : O) {n1 n2 : ℕ}
    {A B : ℕ → Set (V3 ℝ)} {t1 t2 : BT V ℕ} (p1 : t1.prims.Perm (List.range n1)) (p2 : t2.prims.Perm (List.range n2))
    (hn1 : 0 < n1) (hn2 : 0 < n2) (ok : ∀ i < n1, ∀ j < n2, TriOK (A i) (B j) (tri i j))
    (hB : ∀ u v, BT.Below u t1 → BT.Below v t2 → ∀ i ∈ u.prims, ∀ j ∈ v.prims, ∀ a ∈ A i, ∀ b ∈ B j, bvDist u.bv v.bv ≤ a.dist b)
    (larger : V → V → Bool) {fuel : ℕ} (hf : t1.depth + t2.depth < fuel) :
    ∃ d p q, IsDist (unionOf n1 A) (unionOf n2 B) d p q ∧ ∀ r : MeshDistResult O,
      ∃ r', distanceRecurse (meshDistanceNode bvDist tri points o1 o2) (Trav.bvh larger) fuel t1 t2 (r, none) = some (r', none) ∧
        MeshFound n1 n2 A B points o1 o2 d r r' := by
  have m1 : ∀ {i}, i ∈ t1.prims ↔ i < n1 := fun {i} => by rw [p1.mem_iff, List.mem_range]
  have m2 : ∀ {i}, i ∈ t2.prims ↔ i < n2 := fun {i} => by rw [p2.mem_iff, List.mem_range]
  have hB' : ∀ u v, BT.Below u t1 → BT.Below v t2 → ∀ i ∈ u.prims, ∀ j ∈ v.prims, bvDist u.bv v.bv ≤ (tri i j).1 := by
    intro u v hu hv i hi j hj
    obtain ⟨p, q, h⟩ := (ok i (m1.1 (below_prims hu i hi)) j (m2.1 (below_prims hv j hj))).dist
    rw [← h.attained]
    exact hB u v hu hv i hi j hj p h.left q h.right
  have run := fun r : MeshDistResult O => meshTraversal (points := points) (o1 := o1) (o2 := o2) hB' larger hf r
  -- the smallest distance
  obtain ⟨i0, h1, j0, h2, hmin⟩ : ∃ i < n1, ∃ j < n2, ∀ i' < n1, ∀ j' < n2, (tri i j).1 ≤ (tri i' j').1 := by
    obtain ⟨r', -, hle, h⟩ := run ⟨(tri 0 0).1 + 1, (0, 0), none, none, 0, 0⟩
    have h00 := hle 0 (m1.2 hn1) 0 (m2.2 hn2)
    rcases h with rfl | ⟨i, hi, j, hj, -, rfl⟩
    · simp only at h00
      linarith
    · exact ⟨i, m1.1 hi, j, m2.1 hj, fun i' hi' j' hj' => hle i' (m1.2 hi') j' (m2.2 hj')⟩
  obtain ⟨p, q, hpq⟩ := (ok i0 h1 j0 h2).dist
  refine ⟨(tri i0 j0).1, p, q, ⟨⟨i0, h1, hpq.left⟩, ⟨j0, h2, hpq.right⟩, hpq.attained, ?_⟩, fun r => ?_⟩
  · rintro a ⟨i, hi, ha⟩ b ⟨j, hj, hb⟩
    obtain ⟨p', q', h'⟩ := (ok i hi j hj).dist
    exact (hmin i hi j hj).trans (h'.least a ha b hb)
  · obtain ⟨r', e, hle, h⟩ := run r
    refine ⟨r', e, ?_⟩
    have h0 := hle i0 (m1.2 h1) j0 (m2.2 h2)
    rcases h with rfl | ⟨i, hi, j, hj, hlt, rfl⟩
    · exact ⟨(min_eq_left h0).symm, fun _ => rfl, fun h => absurd h (not_lt.2 h0), fun h => absurd h (not_lt.2 h0), fun _ => rfl⟩
    · have hij : (tri i j).1 = (tri i0 j0).1 := le_antisymm h0 (hmin i (m1.1 hi) j (m2.1 hj))
      have k := ok i (m1.1 hi) j (m2.1 hj)
      refine ⟨?_, fun h => absurd hlt (not_lt.2 (h.trans hij.ge)), fun _ => ⟨rfl, rfl⟩, fun _ =>
        ⟨i, m1.1 hi, j, m2.1 hj, rfl, rfl, ?_, fun hp => ?_⟩, fun hp => by simp [hp]⟩
      · rw [min_eq_right (hij ▸ hlt.le)]
        exact hij
      · rw [← hij]; exact k.dist
      · simp only [hp, if_true]
        exact ⟨k.left, k.right, fun hd => by rw [← hij] at hd ⊢; exact (k.near hd).attained⟩

end Fcl
