import Verif.Octree.CollideLemmas
import Verif.Octree.DistanceLemmas
import Verif.Props.SphereQueries
import Verif.Props.Halfspace
import Verif.Props.ShapeBV
import Mathlib.Data.List.Sort

/-!
# C91, C92: the queries of octrees are exact for the occupied cells
-/

namespace Fcl
namespace Octree
open ConvertBV

/-! ### C91: collisions -/

theorem Reports.same {I : Type*} {q : MeshRequest} {Must : Path → I → Prop} {May : OContact I → Prop} {r : OResult I}
    (h : q.req.isSatisfied r = true) : Reports q.req.numMax Must May r r := by
  simp only [CollRequest.isSatisfied, Bool.and_eq_true, CollResult.numContacts] at h
  have := of_decide_eq_true h.2
  exact ⟨⟨[], by simp, by simp, fun k => absurd k (not_lt.2 this)⟩, le_max_left _ _⟩

/-- The box that the queries compute for a shape encloses it; half-spaces and planes as far as the largest number. -/
theorem shape_enclosed {big : ℝ} {g : Geo ℝ} (hg : g.WF) {X : Pose ℝ} (hX : X.Rigid) {x : V3 ℝ} (hx : x ∈ PlacedAt X g.pts)
    (hb : g.Bounded ∨ (X.inv.apply x).InRange big (-big)) : x ∈ (shapeOBB big g X).pts := by
  rw [shapeOBB, (C90_aabb_obb hX _).2]
  obtain ⟨y, hy, rfl⟩ := placedAt_iff.1 hx
  refine placedAt_iff.2 ⟨y, ?_, rfl⟩
  have e : X.inv.apply (X.apply y) = y := Pose.apply_injective hX (Pose.apply_inv hX _)
  rw [e] at hb
  refine C43_encloses big g hg Pose.id Pose.id_rigid y ⟨y, hy, ?_⟩ hb
  exact (Pose.id_apply y).symm

section
variable {pick : ℕ → List CPoint → List CPoint} {q : MeshRequest} {t : Tree} {s : ShapeSide} {tf1 tf2 : Pose ℝ} {big : ℝ} {g : Geo ℝ} {B : Set (V3 ℝ)}
  {o1 o2 : ℕ}

/-- The recursion on the whole tree. -/
theorem shape_reports (hp : LawfulPick pick) (ht : t.WF) (hc : t.root.Clear t.thr) (hg : g.WF) (h1 : tf1.Rigid) (h2 : tf2.Rigid)
    (hB : B = PlacedAt tf2 g.pts) (hb : g.Bounded ∨ ∀ x ∈ PlacedAt tf1 t.bv.pts, (tf2.inv.apply x).InRange big (-big))
    (ho : s.obb = shapeOBB big g tf2) (hs : s.Exact B) (hso : s.occupied = true → s.free = false) (r : OResult Unit) :
    Reports q.req.numMax (fun b1 _ => s.occupied = true ∧ t.Occupied b1 ∧ Touch (t.cellAt tf1 b1) B) (shapeMay q t s tf1 B o1 o2) r
      (shapeIntersect t.thr pick q s o1 o2 tf1 t.root t.bv [] r).1 := by
  refine ((shapeIntersect_found hp hs h1 (by rw [ho]; exact (C90_aabb_obb h2 _).1) hso t.root t.bv [] ht.consistent hc ht.fat ?_ r).mono ?_ ?_).rep
  · intro x hx hx'
    rw [ho]
    rw [hB] at hx
    exact shape_enclosed hg h2 hx (hb.imp id fun h => h x hx')
  · rintro b1 b2 ⟨k, ⟨v, hv, hv'⟩, ht⟩
    exact ⟨k, b1, v, rfl, hv, hv', ht⟩
  · rintro c ⟨h1, h2, l, v, e, hl, hv, ht, hp⟩
    rw [List.nil_append] at e
    subst e
    exact ⟨h1, h2, ⟨v, hl, hv⟩, ht, hp⟩

/-- **C91**, octree and shape. Every contact that is added names the two objects and an occupied cell that touches the shape,
with a contact point of the two; and unless the limit is reached, every occupied cell that touches the shape is reported. -/
theorem C91_shape (hp : LawfulPick pick) (ht : t.WF) (hc : t.root.Clear t.thr) (hg : g.WF) (h1 : tf1.Rigid) (h2 : tf2.Rigid)
    (hB : B = PlacedAt tf2 g.pts) (hb : g.Bounded ∨ ∀ x ∈ PlacedAt tf1 t.bv.pts, (tf2.inv.apply x).InRange big (-big))
    (ho : s.obb = shapeOBB big g tf2) (hs : s.Exact B) (hso : s.occupied = true → s.free = false) (r : OResult Unit) :
    Reports q.req.numMax (fun b1 _ => s.occupied = true ∧ t.Occupied b1 ∧ Touch (t.cellAt tf1 b1) B) (shapeMay q t s tf1 B o1 o2) r
      (shapeCollide pick q t s tf1 o1 o2 r) := by
  rw [shapeCollide]
  split_ifs with c
  · exact Reports.same c
  · exact shape_reports hp ht hc hg h1 h2 hB hb ho hs hso r

/-- **C91**, shape and octree. The same, but in the contacts the octree is the first object although it is the second one of
the query. -/
theorem C91_shape_first (hp : LawfulPick pick) (ht : t.WF) (hc : t.root.Clear t.thr) (hg : g.WF) (h1 : tf1.Rigid) (h2 : tf2.Rigid)
    (hB : B = PlacedAt tf1 g.pts) (hb : g.Bounded ∨ ∀ x ∈ PlacedAt tf2 t.bv.pts, (tf1.inv.apply x).InRange big (-big))
    (ho : s.obb = shapeOBB big g tf1) (hs : s.Exact B) (hso : s.occupied = true → s.free = false) (r : OResult Unit) :
    Reports q.req.numMax (fun b1 _ => s.occupied = true ∧ t.Occupied b1 ∧ Touch (t.cellAt tf2 b1) B) (shapeMay q t s tf2 B o2 o1) r
      (collideShape pick q s t tf2 o1 o2 r) := by
  rw [collideShape]
  split_ifs with c
  · exact Reports.same c
  · exact shape_reports hp ht hc hg h2 h1 hB hb ho hs hso r

end

/-- The answer of a query that starts with an empty result. -/
theorem Reports.answer {I : Type*} {n : ℕ} (hn : 0 < n) {Must : Path → I → Prop} {May : OContact I → Prop} (hM : ∀ c, May c → Must c.b1 c.b2)
    {r r' : OResult I} (hr : r.contacts = []) (h : Reports n Must May r r') : r'.isCollision = true ↔ ∃ b1 b2, Must b1 b2 := by
  obtain ⟨⟨new, e, s, a⟩, -⟩ := h
  rw [hr, List.nil_append] at e
  rw [CollResult.isCollision, decide_eq_true_eq, gt_iff_lt, List.length_pos_iff_exists_mem]
  constructor
  · rintro ⟨c, hc⟩
    rw [e] at hc
    exact ⟨_, _, hM c (s c hc)⟩
  · rintro ⟨b1, b2, hm⟩
    by_cases k : r'.contacts.length < n
    · obtain ⟨c, hc, -⟩ := a k b1 b2 hm
      exact ⟨c, by rw [e]; exact hc⟩
    · exact List.length_pos_iff_exists_mem.1 (by omega)

/-- **C91**, the answer for an octree and a shape: a collision is reported if and only if some point of an occupied cell is in
the shape. -/
theorem C91_shape_answer {pick : ℕ → List CPoint → List CPoint} {q : MeshRequest} {t : Tree} {s : ShapeSide} {tf1 tf2 : Pose ℝ} {big : ℝ} {g : Geo ℝ}
    {B : Set (V3 ℝ)} {o1 o2 : ℕ} (hp : LawfulPick pick) (ht : t.WF) (hc : t.root.Clear t.thr) (hg : g.WF) (h1 : tf1.Rigid) (h2 : tf2.Rigid)
    (hB : B = PlacedAt tf2 g.pts) (hb : g.Bounded ∨ ∀ x ∈ PlacedAt tf1 t.bv.pts, (tf2.inv.apply x).InRange big (-big))
    (ho : s.obb = shapeOBB big g tf2) (hs : s.Exact B) (hoc : s.occupied = true) (hf : s.free = false) (hn : 0 < q.req.numMax)
    {r : OResult Unit} (hr : r.contacts = []) :
    (shapeCollide pick q t s tf1 o1 o2 r).isCollision = true ↔ Touch (t.solid tf1) B := by
  refine ((C91_shape hp ht hc hg h1 h2 hB hb ho hs (fun _ => hf) r).answer hn ?_ hr).trans ?_
  · rintro c ⟨-, -, k1, k2, -⟩
    exact ⟨hoc, k1, k2⟩
  · constructor
    · rintro ⟨p, -, -, k, x, hx, hx'⟩
      exact ⟨x, ⟨p, k, hx⟩, hx'⟩
    · rintro ⟨x, ⟨p, k, hx⟩, hx'⟩
      exact ⟨p, (), hoc, k, x, hx, hx'⟩

/-- **C91**, octree and mesh: the same for the pairs of an occupied cell and a triangle. -/
theorem C91_mesh {V : Type*} {q : MeshRequest} {t : Tree} {h : BT V ℕ} {m : MeshSide V} {tf1 : Pose ℝ} {T : ℕ → Set (V3 ℝ)} {o1 o2 : ℕ}
    (ht : t.WF) (hc : t.root.Clear t.thr) (h1 : tf1.Rigid) (hs : m.Exact T) (he : m.Encloses T h) (hso : m.occupied = true → m.free = false)
    (r : OResult ℕ) :
    Reports q.req.numMax (fun b1 k => m.occupied = true ∧ t.Occupied b1 ∧ k ∈ h.prims ∧ Touch (t.cellAt tf1 b1) (T k)) (meshMay q t m tf1 h T o1 o2) r
      (octreeMeshCollide q t h m tf1 o1 o2 r) := by
  rw [octreeMeshCollide]
  split_ifs with c
  · exact Reports.same c
  refine ((meshIntersect_found hs h1 hso t.root t.bv [] ht.consistent hc ht.fat h he r).mono ?_ ?_).rep
  · rintro b1 k ⟨k0, ⟨v, hv, hv'⟩, hk, ht⟩
    exact ⟨k0, hk, b1, v, rfl, hv, hv', ht⟩
  · rintro c ⟨h1, h2, hk, l, v, e, hl, hv, ht, hp⟩
    rw [List.nil_append] at e
    subst e
    exact ⟨h1, h2, ⟨v, hl, hv⟩, hk, ht, hp⟩

/-- **C91**, two octrees: all pairs of occupied cells that touch are reported, unless the limit is reached. If contacts are
asked for, no others are; otherwise those that the test of oriented boxes does not tell apart. -/
theorem C91_octrees {pick : ℕ → List CPoint → List CPoint} {q : MeshRequest} {t1 t2 : Tree} {tf1 tf2 : Pose ℝ} {s : PairSide} {o1 o2 : ℕ}
    (hp : LawfulPick pick) (ht1 : t1.WF) (ht2 : t2.WF) (hc1 : t1.root.Clear t1.thr) (hc2 : t2.root.Clear t2.thr) (h1 : tf1.Rigid) (h2 : tf2.Rigid)
    (hs : s.Exact) (r : OResult Path) :
    Reports q.req.numMax (fun x y => t1.Occupied x ∧ t2.Occupied y ∧ Touch (t1.cellAt tf1 x) (t2.cellAt tf2 y)) (pairMay q t1 t2 s tf1 tf2 o1 o2) r
      (octreeCollide pick q t1 t2 tf1 tf2 s o1 o2 r) := by
  rw [octreeCollide]
  split_ifs with c
  · exact Reports.same c
  refine ((pairIntersect_found (e := pairEnv t1 t2 tf1 tf2 s o1 o2) hp hs h1 h2 t1.root t1.bv [] ht1.consistent hc1 ht1.fat
    t2.root t2.bv [] ht2.consistent hc2 ht2.fat r).mono ?_ ?_).rep
  · rintro x y ⟨⟨v1, k1, k1'⟩, ⟨v2, k2, k2'⟩, ht⟩
    exact ⟨x, v1, y, v2, rfl, rfl, k1, k2, k1', k2', ht⟩
  · rintro c ⟨h1, h2, l1, v1, l2, v2, e1, e2, k1, k2, k1', k2', hp⟩
    rw [List.nil_append] at e1 e2
    subst e1 e2
    exact ⟨h1, h2, ⟨v1, k1, k1'⟩, ⟨v2, k2, k2'⟩, hp⟩

/-- The conversions keep the hierarchy enclosing: meshes with volumes that C90 covers. -/
theorem encloses_of {V : Type*} {pts : V → Set (V3 ℝ)} {m : MeshSide V} {tf2 : Pose ℝ} {tri : ℕ → Set (V3 ℝ)} {h : BT V ℕ}
    (hv : ∀ u, BT.Below u h → (m.toOBB u.bv).WF ∧ PlacedAt tf2 (pts u.bv) ⊆ (m.toOBB u.bv).pts) (he : Enclosing (fun w k => tri k ⊆ pts w) h) :
    m.Encloses (fun k => PlacedAt tf2 (tri k)) h := fun u hu k hk => ⟨(hv u hu).1, (placed_mono (he u hu k hk)).trans (hv u hu).2⟩

/-- **C91**, octree and a mesh at the pose `tf2` whose hierarchy has axis-aligned boxes. -/
theorem C91_mesh_aabb {q : MeshRequest} {t : Tree} {h : BT (AABB ℝ) ℕ} {m : MeshSide (AABB ℝ)} {tf1 tf2 : Pose ℝ} {tri : ℕ → Set (V3 ℝ)} {o1 o2 : ℕ}
    (hm : m.toOBB = fun w => aabbOBB w tf2) (ht : t.WF) (hc : t.root.Clear t.thr) (h1 : tf1.Rigid) (h2 : tf2.Rigid) (hs : m.Exact fun k => PlacedAt tf2 (tri k))
    (he : Enclosing (fun w k => tri k ⊆ w.pts) h) (hso : m.occupied = true → m.free = false) (r : OResult ℕ) :
    Reports q.req.numMax (fun b1 k => m.occupied = true ∧ t.Occupied b1 ∧ k ∈ h.prims ∧ Touch (t.cellAt tf1 b1) (PlacedAt tf2 (tri k)))
      (meshMay q t m tf1 h (fun k => PlacedAt tf2 (tri k)) o1 o2) r (octreeMeshCollide q t h m tf1 o1 o2 r) :=
  C91_mesh ht hc h1 hs (encloses_of (fun u _ => by rw [hm]; exact ⟨(C90_aabb_obb h2 _).1, (C90_aabb_obb h2 _).2.ge⟩) he) hso r

/-- **C91**, the same with oriented boxes. -/
theorem C91_mesh_obb {q : MeshRequest} {t : Tree} {h : BT (OBB ℝ) ℕ} {m : MeshSide (OBB ℝ)} {tf1 tf2 : Pose ℝ} {tri : ℕ → Set (V3 ℝ)} {o1 o2 : ℕ}
    (hm : m.toOBB = fun w => obbOBB w tf2) (ht : t.WF) (hc : t.root.Clear t.thr) (h1 : tf1.Rigid) (h2 : tf2.Rigid) (hs : m.Exact fun k => PlacedAt tf2 (tri k))
    (hw : ∀ u, BT.Below u h → u.bv.WF) (he : Enclosing (fun w k => tri k ⊆ w.pts) h) (hso : m.occupied = true → m.free = false) (r : OResult ℕ) :
    Reports q.req.numMax (fun b1 k => m.occupied = true ∧ t.Occupied b1 ∧ k ∈ h.prims ∧ Touch (t.cellAt tf1 b1) (PlacedAt tf2 (tri k)))
      (meshMay q t m tf1 h (fun k => PlacedAt tf2 (tri k)) o1 o2) r (octreeMeshCollide q t h m tf1 o1 o2 r) :=
  C91_mesh ht hc h1 hs (encloses_of (fun u hu => by rw [hm]; exact ⟨(C90_obb_obb h2 (hw u hu)).1, (C90_obb_obb h2 (hw u hu)).2.ge⟩) he) hso r

/-- **C91**, the same with the volumes `OBBRSS`. -/
theorem C91_mesh_obbrss {q : MeshRequest} {t : Tree} {h : BT (OBBRSS ℝ) ℕ} {m : MeshSide (OBBRSS ℝ)} {tf1 tf2 : Pose ℝ} {tri : ℕ → Set (V3 ℝ)} {o1 o2 : ℕ}
    (hm : m.toOBB = fun w => obbrssOBB w tf2) (ht : t.WF) (hc : t.root.Clear t.thr) (h1 : tf1.Rigid) (h2 : tf2.Rigid) (hs : m.Exact fun k => PlacedAt tf2 (tri k))
    (hw : ∀ u, BT.Below u h → u.bv.WF) (he : Enclosing (fun w k => tri k ⊆ w.pts) h) (hso : m.occupied = true → m.free = false) (r : OResult ℕ) :
    Reports q.req.numMax (fun b1 k => m.occupied = true ∧ t.Occupied b1 ∧ k ∈ h.prims ∧ Touch (t.cellAt tf1 b1) (PlacedAt tf2 (tri k)))
      (meshMay q t m tf1 h (fun k => PlacedAt tf2 (tri k)) o1 o2) r (octreeMeshCollide q t h m tf1 o1 o2 r) :=
  C91_mesh ht hc h1 hs (encloses_of (fun u hu => by rw [hm]; exact C90_obbrss_obb h2 (hw u hu)) he) hso r

/-! ### C92: distances -/

/-- **C92**, octree and shape: the distance of the occupied cells and the shape, or `-1` if one touches it. -/
theorem C92_shape {t : Tree} {s : ShapeSide} {tf1 tf2 : Pose ℝ} {big : ℝ} {g : Geo ℝ} {B : Set (V3 ℝ)} {o1 o2 : ℕ} (ht : t.WF) (hne : t.root ≠ .null)
    (hg : g.WF) (hbd : g.Bounded) (h1 : tf1.Rigid) (h2 : tf2.Rigid) (hB : B = PlacedAt tf2 g.pts) (ha : s.aabb = ComputeBV.aabb big g tf2)
    (hd : DistExact s.dist B) {r : ODist Unit} (hr : 0 < r.minDist) :
    ∃ r', shapeDistance t s tf1 o1 o2 r = some r' ∧ Measures o1 o2 (fun b1 _ => t.Occupied b1) (t.cellAt tf1) (fun _ => B) r r' := by
  have here : t.root.here = true := by
    cases k : t.root with
    | null => exact absurd k hne
    | leaf => rfl
    | inner => rfl
  refine ⟨_, by rw [shapeDistance, if_neg (by simpa [ODist.isSatisfied] using hr), if_pos here], ?_⟩
  have hB' : B ⊆ s.aabb.pts := by
    intro x hx
    rw [ha]
    rw [hB] at hx
    exact C43_encloses big g hg tf2 h2 x hx (Or.inl hbd)
  refine ((shapeDist_found (o1 := o1) (o2 := o2) (thr := t.thr) (s := s) ht.fat h1 hd hB' t.root [] ht.consistent r).mono (Cand' := fun b1 _ => t.Occupied b1) ?_).measures ?_ hr
  · exact fun p i => ⟨fun ⟨l, v, e, hl, hv⟩ => ⟨v, by rw [e]; exact hl, hv⟩, fun ⟨v, hl, hv⟩ => ⟨p, v, rfl, hl, hv⟩⟩
  · intro p i _
    have := hd _ ((Fat.cell (l := p) ht.fat).ok h1)
    rwa [C90_box_aabb_at] at this

/-- **C92**, octree and mesh. -/
theorem C92_mesh {V : Type*} {t : Tree} {h : BT V ℕ} {m : MeshSide V} {tf1 : Pose ℝ} {T : ℕ → Set (V3 ℝ)} {o1 o2 : ℕ} (ht : t.WF) (hne : t.root ≠ .null)
    (h1 : tf1.Rigid) (he : m.EnclosesAABB T h) (hd : ∀ k, DistExact (fun b => m.dist b k) (T k)) {r : ODist ℕ} (hr : 0 < r.minDist) :
    ∃ r', octreeMeshDistance t h m tf1 o1 o2 r = some r' ∧
      Measures o1 o2 (fun b1 k => t.Occupied b1 ∧ k ∈ h.prims) (t.cellAt tf1) T r r' := by
  have here : t.root.here = true := by
    cases k : t.root with
    | null => exact absurd k hne
    | leaf => rfl
    | inner => rfl
  refine ⟨_, by rw [octreeMeshDistance, if_neg (by simpa [ODist.isSatisfied] using hr), if_pos here], ?_⟩
  refine ((meshDist_found (o1 := o1) (o2 := o2) (thr := t.thr) (m := m) ht.fat h1 hd t.root [] ht.consistent h he r).mono
    (Cand' := fun b1 k => t.Occupied b1 ∧ k ∈ h.prims) ?_).measures ?_ hr
  · exact fun p i => ⟨fun ⟨hk, l, v, e, hl, hv⟩ => ⟨⟨v, by rw [e]; exact hl, hv⟩, hk⟩, fun ⟨⟨v, hl, hv⟩, hk⟩ => ⟨hk, p, v, rfl, hl, hv⟩⟩
  · intro p i _
    have := hd i _ ((Fat.cell (l := p) ht.fat).ok h1)
    rwa [C90_box_aabb_at] at this

/-- **C92**, octree and a mesh at the pose `tf2` with the volumes `OBBRSS`. -/
theorem C92_mesh_obbrss {t : Tree} {h : BT (OBBRSS ℝ) ℕ} {m : MeshSide (OBBRSS ℝ)} {tf1 tf2 : Pose ℝ} {tri : ℕ → Set (V3 ℝ)} {o1 o2 : ℕ}
    (hm : m.toAABB = fun w => obbrssAABB w tf2) (ht : t.WF) (hne : t.root ≠ .null) (h1 : tf1.Rigid) (h2 : tf2.Rigid)
    (hw : ∀ u, BT.Below u h → u.bv.WF) (he : Enclosing (fun w k => tri k ⊆ w.pts) h)
    (hd : ∀ k, DistExact (fun b => m.dist b k) (PlacedAt tf2 (tri k))) {r : ODist ℕ} (hr : 0 < r.minDist) :
    ∃ r', octreeMeshDistance t h m tf1 o1 o2 r = some r' ∧
      Measures o1 o2 (fun b1 k => t.Occupied b1 ∧ k ∈ h.prims) (t.cellAt tf1) (fun k => PlacedAt tf2 (tri k)) r r' := by
  refine C92_mesh ht hne h1 (fun u hu k hk => ?_) hd hr
  rw [hm]
  exact (placed_mono (he u hu k hk)).trans (C90_obbrss_aabb h2 (hw u hu))

/-- **C92**, two octrees. -/
theorem C92_octrees {t1 t2 : Tree} {tf1 tf2 : Pose ℝ} {s : PairSide} {o1 o2 : ℕ} (ht1 : t1.WF) (ht2 : t2.WF) (hne1 : t1.root ≠ .null) (hne2 : t2.root ≠ .null)
    (h1 : tf1.Rigid) (h2 : tf2.Rigid) (hd : s.DistExact) {r : ODist Path} (hr : 0 < r.minDist) :
    ∃ r', octreeDistance t1 t2 tf1 tf2 s o1 o2 r = some r' ∧
      Measures o1 o2 (fun x y => t1.Occupied x ∧ t2.Occupied y) (t1.cellAt tf1) (t2.cellAt tf2) r r' := by
  have here : ∀ t : Tree, t.root ≠ .null → t.root.here = true := fun t hne => by
    cases k : t.root with
    | null => exact absurd k hne
    | leaf => rfl
    | inner => rfl
  refine ⟨_, by rw [octreeDistance, if_neg (by simpa [ODist.isSatisfied] using hr), if_pos (by rw [here t1 hne1, here t2 hne2]; rfl)], ?_⟩
  refine ((pairDist_found (e := pairEnv t1 t2 tf1 tf2 s o1 o2) ht1.fat ht2.fat h1 h2 hd t1.root [] ht1.consistent t2.root [] ht2.consistent r).mono
    (Cand' := fun x y => t1.Occupied x ∧ t2.Occupied y) ?_).measures ?_ hr
  · exact fun x y => ⟨fun ⟨⟨l1, v1, e1, k1, w1⟩, l2, v2, e2, k2, w2⟩ => ⟨⟨v1, by rw [e1]; exact k1, w1⟩, v2, by rw [e2]; exact k2, w2⟩,
      fun ⟨⟨v1, k1, w1⟩, v2, k2, w2⟩ => ⟨⟨x, v1, rfl, k1, w1⟩, y, v2, rfl, k2, w2⟩⟩
  · intro x y _
    have := hd _ ((Fat.cell (l := y) ht2.fat).ok h2) _ ((Fat.cell (l := x) ht1.fat).ok h1)
    rwa [C90_box_aabb_at, C90_box_aabb_at] at this

/-! ### Instances: spheres and half-spaces -/

theorem touch_comm {A B : Set (V3 ℝ)} : Touch A B ↔ Touch B A := ⟨fun ⟨p, h1, h2⟩ => ⟨p, h2, h1⟩, fun ⟨p, h1, h2⟩ => ⟨p, h2, h1⟩⟩

theorem isDist_comm {A B : Set (V3 ℝ)} {d : ℝ} {p q : V3 ℝ} (h : IsDist A B d p q) : IsDist B A d q p :=
  ⟨h.right, h.left, by rw [V3.dist_comm]; exact h.attained, fun a ha b hb => by rw [V3.dist_comm]; exact h.least b hb a ha⟩

theorem PBox.Ok.wf {b : PBox} (h : b.Ok) : (Geo.box b.1).WF := ⟨h.2.1.le, h.2.2.1.le, h.2.2.2.le⟩

theorem givenContacts_spec {A B : Set (V3 ℝ)} {o : HitOut} {P : CPoint → Prop} (h : HitSpec A B (some []) o P) :
    ((givenContacts o).isSome = true ↔ Touch A B) ∧ ∀ l, givenContacts o = some l → ∃ k, l = [k] ∧ P k := by
  rw [← h.ret, givenContacts]
  by_cases c : o.1 = true
  · obtain ⟨k, e, hk⟩ := h.contact c [] rfl
    rw [if_pos c]
    simp only [e, c, Option.isSome_some, iff_self, true_and, Option.getD_some, Option.some.injEq, List.nil_append]
    rintro l rfl
    exact ⟨k, rfl, hk⟩
  · rw [if_neg c]
    simp [c]

/-- The solver's functions for spheres and boxes are exact (C42). -/
theorem sphereSide_exact {eps big r : ℝ} (he : 0 ≤ eps) (hr : 0 ≤ r) {tf2 : Pose ℝ} (h2 : tf2.Rigid) (oc fr : Bool) (cost : PBox → CostSource ℝ) :
    (sphereSide eps big r tf2 oc fr cost).Exact (PlacedAt tf2 (Geo.sphere r).pts) ∧
    DistExact (sphereSide eps big r tf2 oc fr cost).dist (PlacedAt tf2 (Geo.sphere r).pts) := by
  refine ⟨⟨fun b hb => ?_, fun b hb => ?_, fun b cs hb e => ?_⟩, fun b hb => ?_⟩
  · rw [touch_comm]
    exact (C42_intersect eps r he hr b.1 hb.wf tf2 b.2 h2 hb.1 none _ _ rfl rfl).ret
  · rw [touch_comm]
    have := (givenContacts_spec (C42_intersect eps r he hr b.1 hb.wf tf2 b.2 h2 hb.1 (some []) _ _ rfl rfl)).1
    simp only [sphereSide, Option.isSome_map]
    exact this
  · obtain ⟨l, hl, rfl⟩ := Option.map_eq_some_iff.1 e
    obtain ⟨k, rfl, -⟩ := (givenContacts_spec (C42_intersect eps r he hr b.1 hb.wf tf2 b.2 h2 hb.1 (some []) _ _ rfl rfl)).2 l hl
    simp
  · have d := C42_distance r hr b.1 hb.wf tf2 b.2 h2 hb.1
    constructor
    · intro t
      have : (Prim.sphereBoxDistance r tf2 b.1 b.2).ret = false := by
        rw [Bool.eq_false_iff]
        intro k
        exact d.ret.1 k (touch_comm.1 t)
      exact (d.contact this).1
    · intro t
      obtain ⟨pos, p, q, e, h⟩ := d.apart (d.ret.2 fun k => t (touch_comm.1 k))
      refine ⟨pos, ?_⟩
      simp only [sphereSide, e, Option.map_some, Option.getD_some]
      exact isDist_comm h

/-- **C91**, octree and sphere, from the arrays of the octree to the answer. -/
theorem C91_sphere {pick : ℕ → List CPoint → List CPoint} {q : MeshRequest} {t : Tree} {eps big rad : ℝ} (he : 0 ≤ eps) (hrad : 0 ≤ rad) {tf1 tf2 : Pose ℝ}
    (hp : LawfulPick pick) (ht : t.WF) (hc : t.root.Clear t.thr) (h1 : tf1.Rigid) (h2 : tf2.Rigid) (cost : PBox → CostSource ℝ) (o1 o2 : ℕ)
    (hn : 0 < q.req.numMax) {r : OResult Unit} (hr : r.contacts = []) :
    (shapeCollide pick q t (sphereSide eps big rad tf2 true false cost) tf1 o1 o2 r).isCollision = true ↔
      Touch (t.solid tf1) (PlacedAt tf2 (Geo.sphere rad).pts) :=
  C91_shape_answer (big := big) (g := .sphere rad) hp ht hc hrad h1 h2 rfl (Or.inl trivial) rfl (sphereSide_exact he hrad h2 true false cost).1 rfl rfl hn hr

/-- If moving `B` along `n` separates the sets, so does moving `A` the other way. -/
theorem separates_swap {A B : Set (V3 ℝ)} {n : V3 ℝ} {d : ℝ} (h : SeparatesAlong A B n d) : SeparatesAlong B A ((-1 : ℝ) • n) d := by
  refine ⟨?_, fun e he => ?_⟩
  · have e : ((-1 : ℝ) • n).len = n.len := by simp [V3.len, V3.dist]
    rw [e]; exact h.1
  · rintro ⟨x, hb, y, hy, rfl⟩
    refine h.2 e he ⟨y, hy, _, hb, ?_⟩
    apply V3.ext' <;> simp

/-- **C91**, the contacts of an octree and a sphere: moving the sphere along the normal by more than the depth separates it
from the cell. -/
theorem C91_sphere_contacts {pick : ℕ → List CPoint → List CPoint} {q : MeshRequest} {t : Tree} {eps big rad : ℝ} (he : 0 ≤ eps) (hrad : 0 ≤ rad) {tf1 tf2 : Pose ℝ}
    (hp : LawfulPick pick) (ht : t.WF) (hc : t.root.Clear t.thr) (h1 : tf1.Rigid) (h2 : tf2.Rigid) (cost : PBox → CostSource ℝ) (o1 o2 : ℕ)
    (hq : q.enableContact = true) {r : OResult Unit} (hr : r.contacts = []) :
    ∀ c ∈ (shapeCollide pick q t (sphereSide eps big rad tf2 true false cost) tf1 o1 o2 r).contacts, c.o1 = o1 ∧ c.o2 = o2 ∧ t.Occupied c.b1 ∧
      ∃ k, c.point = some k ∧ SeparatesAlong (t.cellAt tf1 c.b1) (PlacedAt tf2 (Geo.sphere rad).pts) k.normal k.depth := by
  intro c hcm
  obtain ⟨new, e, s, -⟩ := (C91_shape (o1 := o1) (o2 := o2) (q := q) (big := big) (g := .sphere rad) hp ht hc hrad h1 h2 rfl (Or.inl trivial) rfl
    (sphereSide_exact he hrad h2 true false cost).1 (fun _ => rfl) r).sound
  rw [e, hr, List.nil_append] at hcm
  obtain ⟨k1, k2, k3, -, k4⟩ := s c hcm
  rw [if_pos hq] at k4
  obtain ⟨cs, k, hs, hk, hk'⟩ := k4
  refine ⟨k1, k2, k3, k, hk', ?_⟩
  obtain ⟨l, hl, rfl⟩ := Option.map_eq_some_iff.1 hs
  have ok := (Fat.cell (l := c.b1) ht.fat).ok h1
  obtain ⟨k', rfl, hs', -⟩ := (givenContacts_spec (C42_intersect eps rad he hrad _ ok.wf tf2 _ h2 ok.1 (some []) _ _ rfl rfl)).2 l hl
  rw [List.map_singleton, List.mem_singleton] at hk
  subst hk
  have := separates_swap hs'
  have box := C90_box_aabb_at (cellOf t.bv c.b1) tf1
  rw [Tree.cellAt]
  rw [← show _ = PlacedAt tf1 (cell t.bv (c.b1.map Fin.val)).pts from box]
  exact this

/-- **C92**, octree and sphere. -/
theorem C92_sphere {t : Tree} {eps big rad : ℝ} (he : 0 ≤ eps) (hrad : 0 ≤ rad) {tf1 tf2 : Pose ℝ} (ht : t.WF) (hne : t.root ≠ .null) (h1 : tf1.Rigid)
    (h2 : tf2.Rigid) (cost : PBox → CostSource ℝ) (o1 o2 : ℕ) {r : ODist Unit} (hr : 0 < r.minDist) :
    ∃ r', shapeDistance t (sphereSide eps big rad tf2 true false cost) tf1 o1 o2 r = some r' ∧
      Measures o1 o2 (fun b1 _ => t.Occupied b1) (t.cellAt tf1) (fun _ => PlacedAt tf2 (Geo.sphere rad).pts) r r' :=
  C92_shape (big := big) ht hne (g := .sphere rad) hrad trivial h1 h2 rfl rfl (sphereSide_exact he hrad h2 true false cost).2 hr

/-- **C91**, octree and half-space, as long as the coordinates of the octree in the frame of the half-space are in the range
of the numbers. -/
theorem C91_halfspace {pick : ℕ → List CPoint → List CPoint} {q : MeshRequest} {t : Tree} {tol big : ℝ} {n : V3 ℝ} {d : ℝ} (hn' : (Geo.halfspace n d).WF)
    {tf1 tf2 : Pose ℝ} (hp : LawfulPick pick) (ht : t.WF) (hc : t.root.Clear t.thr) (h1 : tf1.Rigid) (h2 : tf2.Rigid)
    (hb : ∀ x ∈ PlacedAt tf1 t.bv.pts, (tf2.inv.apply x).InRange big (-big)) (dist : PBox → ℝ × V3 ℝ × V3 ℝ) (cost : PBox → CostSource ℝ) (o1 o2 : ℕ)
    (hn : 0 < q.req.numMax) {r : OResult Unit} (hr : r.contacts = []) :
    (shapeCollide pick q t (halfspaceSide tol big n d tf2 dist true false cost) tf1 o1 o2 r).isCollision = true ↔
      Touch (t.solid tf1) (PlacedAt tf2 (Geo.halfspace n d).pts) := by
  refine C91_shape_answer hp ht hc hn' h1 h2 rfl (Or.inr hb) rfl ⟨fun b hb => ?_, fun b hb => ?_, fun b cs hb e => ?_⟩ rfl rfl hn hr
  · exact (C69_box tol b.1 hb.wf n d hn' b.2 tf2 hb.1 h2 none _ _ rfl rfl).ret
  · exact (givenContacts_spec (C69_box tol b.1 hb.wf n d hn' b.2 tf2 hb.1 h2 (some []) _ _ rfl rfl)).1
  · obtain ⟨k, rfl, -⟩ := (givenContacts_spec (C69_box tol b.1 hb.wf n d hn' b.2 tf2 hb.1 h2 (some []) _ _ rfl rfl)).2 cs e
    simp

/-! ### Concrete cases -/

/-- An octree with one cell, `[-1, 0]³`, below its root, with log odds `v`. -/
noncomputable def exTree (thr : Thresholds) (v : ℝ) : Tree := ⟨.inner v fun i => if i = 0 then .leaf v else .null, 1, 1, thr⟩

theorem exTree_wf (thr : Thresholds) (v : ℝ) : (exTree thr v).WF := by
  refine ⟨fun i => ?_, by norm_num [exTree]⟩
  dsimp only
  split_ifs
  · exact ⟨trivial, fun w h => by simp only [Node.logOdds, Option.some.injEq] at h; exact h.ge⟩
  · exact ⟨trivial, fun w h => by simp [Node.logOdds] at h⟩

theorem exTree_clear {thr : Thresholds} {v : ℝ} (h : ¬ (thr.isFree v ∧ thr.isOccupied v)) : (exTree thr v).root.Clear thr := by
  refine ⟨h, fun i => ?_⟩
  dsimp only
  split_ifs
  · exact h
  · exact trivial

theorem exTree_occupied {thr : Thresholds} {v : ℝ} (h : thr.isOccupied v) : (exTree thr v).Occupied [0] := ⟨v, by simp [exTree, Node.leafAt], h⟩

theorem exTree_cell (thr : Thresholds) (v : ℝ) : (⟨-1, -1, -1⟩ : V3 ℝ) ∈ (exTree thr v).cellAt Pose.id [0] := by
  refine placedAt_iff.2 ⟨⟨-1, -1, -1⟩, ?_, (Pose.id_apply _).symm⟩
  norm_num [AABB.pts, cell, childBV, half, exTree, Tree.bv, rootBV]

theorem default_occ : Thresholds.default.occ = 0 := by norm_num [Thresholds.default, logodds]

/-- The hypotheses of `C91_sphere` hold for the default thresholds, a cell with log odds 1 and a sphere that touches it: the
collision is reported. -/
example {pick : ℕ → List CPoint → List CPoint} (hp : LawfulPick pick) (cost : PBox → CostSource ℝ) :
    (shapeCollide pick ⟨⟨1, false⟩, true, 0⟩ (exTree Thresholds.default 1) (sphereSide 0 10 1 ⟨M3.one, ⟨-2, -1, -1⟩⟩ true false cost) Pose.id 3 4
      ⟨[], []⟩).isCollision = true := by
  refine (C91_sphere (t := exTree Thresholds.default 1) (tf2 := ⟨M3.one, ⟨-2, -1, -1⟩⟩) le_rfl zero_le_one hp (exTree_wf _ _) (exTree_clear ?_) Pose.id_rigid M3.orthonormal_one cost 3 4 (by norm_num) rfl).2 ?_
  · rintro ⟨h, -⟩
    have h : (1 : ℝ) ≤ 0 := h
    norm_num at h
  · refine ⟨⟨-1, -1, -1⟩, ⟨[0], exTree_occupied ?_, exTree_cell _ _⟩, placedAt_iff.2 ⟨⟨1, 0, 0⟩, ?_, ?_⟩⟩
    · show (1 : ℝ) ≥ _
      rw [default_occ]; norm_num
    · norm_num [Geo.pts, Shape.ball]
    · rw [Pose.apply, M3.one_mulVec]
      apply V3.ext' <;> norm_num

/-- There is a way to choose contacts. -/
example : ∃ pick, LawfulPick pick := by
  refine ⟨fun k cs => (cs.mergeSort fun a b => decide (b.depth ≤ a.depth)).take k, fun k cs h => ⟨?_, (cs.mergeSort fun a b => decide (b.depth ≤ a.depth)).drop k, ?_, ?_⟩⟩
  · rw [List.length_take, List.length_mergeSort]; omega
  · rw [List.take_append_drop]
    exact List.mergeSort_perm _ _
  · intro a ha b hb
    have sorted := List.pairwise_mergeSort (le := fun a b : CPoint => decide (b.depth ≤ a.depth))
      (fun a b c h1 h2 => by simp only [decide_eq_true_eq] at *; linarith)
      (fun a b => by simp only [Bool.or_eq_true, decide_eq_true_eq]; exact le_total _ _) cs
    rw [← List.take_append_drop k (cs.mergeSort fun a b => decide (b.depth ≤ a.depth)), List.pairwise_append] at sorted
    exact of_decide_eq_true (sorted.2.2 a ha b hb)

/-! ### What the conditions are for -/

/-- If a node is both free and occupied the collision query does not look below it, while the cell there is occupied. -/
theorem C91_free_and_occupied {thr : Thresholds} {v : ℝ} (h1 : thr.isFree v) (h2 : thr.isOccupied v) (pick : ℕ → List CPoint → List CPoint) (q : MeshRequest)
    (s : ShapeSide) (tf1 : Pose ℝ) (o1 o2 : ℕ) (r : OResult Unit) :
    (exTree thr v).WF ∧ (exTree thr v).Occupied [0] ∧ shapeCollide pick q (exTree thr v) s tf1 o1 o2 r = r := by
  refine ⟨exTree_wf _ _, exTree_occupied h2, ?_⟩
  simp only [shapeCollide, exTree, shapeIntersect, if_pos (Or.inl h1 : thr.isFree v ∨ s.free = true)]
  split_ifs <;> rfl

/-- The default thresholds: a cell with the log odds 0, that is the occupancy one half, is missed. -/
theorem C91_default_misses (pick : ℕ → List CPoint → List CPoint) (q : MeshRequest) (s : ShapeSide) (tf1 : Pose ℝ) (o1 o2 : ℕ) (r : OResult Unit) :
    (exTree Thresholds.default 0).WF ∧ (exTree Thresholds.default 0).Occupied [0] ∧ shapeCollide pick q (exTree Thresholds.default 0) s tf1 o1 o2 r = r :=
  C91_free_and_occupied (thr := Thresholds.default) (v := 0) (show (0 : ℝ) ≤ 0 from le_rfl) (show (0 : ℝ) ≥ _ by rw [default_occ]) pick q s tf1 o1 o2 r

/-- `setOccupancyThres` with a value below one half: the cells with an occupancy between the value and one half are missed by
the collision query, although the octree says that they are occupied. -/
theorem C91_low_threshold_misses {p v : ℝ} (h1 : logodds p ≤ v) (h2 : v ≤ 0) (pick : ℕ → List CPoint → List CPoint) (q : MeshRequest) (s : ShapeSide)
    (tf1 : Pose ℝ) (o1 o2 : ℕ) (r : OResult Unit) :
    (exTree (Thresholds.default.setOccupancy p) v).Occupied [0] ∧
      shapeCollide pick q (exTree (Thresholds.default.setOccupancy p) v) s tf1 o1 o2 r = r :=
  (C91_free_and_occupied (thr := Thresholds.default.setOccupancy p) h2 h1 pick q s tf1 o1 o2 r).2

/-- The distance query finds the same cell: a sphere that touches it has the distance `-1`. -/
theorem C92_finds_it (cost : PBox → CostSource ℝ) : ∃ r', shapeDistance (exTree Thresholds.default 0) (sphereSide 0 10 1 ⟨M3.one, ⟨-2, -1, -1⟩⟩ true false cost) Pose.id 3 4
    ⟨1000, none⟩ = some r' ∧ r'.minDist = -1 := by
  obtain ⟨r', e, h⟩ := C92_sphere (eps := 0) (big := 10) (rad := 1) (tf1 := Pose.id) (tf2 := ⟨M3.one, ⟨-2, -1, -1⟩⟩) le_rfl zero_le_one (exTree_wf Thresholds.default 0)
    (by simp [exTree]) Pose.id_rigid M3.orthonormal_one cost 3 4 (r := ⟨1000, none⟩) (by norm_num)
  refine ⟨r', e, (h.touching ⟨[0], (), exTree_occupied (show (0 : ℝ) ≥ _ by rw [default_occ]), ⟨-1, -1, -1⟩, exTree_cell _ _, placedAt_iff.2 ⟨⟨1, 0, 0⟩, ?_, ?_⟩⟩).1⟩
  · norm_num [Geo.pts, Shape.ball]
  · rw [Pose.apply, M3.one_mulVec]
    apply V3.ext' <;> norm_num

/-- Inner nodes that are not up to date, as after lazy updates: the collision query does not find the occupied cell. -/
theorem C91_stale_misses (pick : ℕ → List CPoint → List CPoint) (q : MeshRequest) (s : ShapeSide) (tf1 : Pose ℝ) (o1 o2 : ℕ) (r : OResult Unit) :
    let t : Tree := ⟨.inner (-1) fun _ => .leaf 1, 1, 1, Thresholds.default⟩
    t.Occupied [0] ∧ ¬ t.root.Consistent ∧ shapeCollide pick q t s tf1 o1 o2 r = r := by
  refine ⟨⟨1, by simp [Node.leafAt], show (1 : ℝ) ≥ _ by rw [default_occ]; norm_num⟩, fun h => ?_, ?_⟩
  · have := (h 0).2 1 rfl
    norm_num at this
  · simp only [shapeCollide, shapeIntersect, if_pos (Or.inl (show (-1 : ℝ) ≤ 0 by norm_num) : Thresholds.default.isFree (-1) ∨ s.free = true)]
    split_ifs <;> rfl

/-- Every inner node has all eight children. -/
def Node.Full : Node → Prop
  | .null => False
  | .leaf _ => True
  | .inner _ c => ∀ i, (c i).Full

/-- Costs are asked for, but for an octree and a shape none is ever added, unless a child is missing. -/
theorem C91_shape_cost_lost {thr : Thresholds} {pick : ℕ → List CPoint → List CPoint} {q : MeshRequest} {s : ShapeSide} {o1 o2 : ℕ} {tf1 : Pose ℝ} :
    ∀ (n : Node), n.Full → ∀ (b : AABB ℝ) (p : Path) (r : OResult Unit), (shapeIntersect thr pick q s o1 o2 tf1 n b p r).1.costs = r.costs := by
  have fold : ∀ (mk : CPoint → OContact Unit) (l : List CPoint) (r : OResult Unit), (l.foldl (fun r c => r.addContact (mk c)) r).costs = r.costs := by
    intro mk l
    induction l with
    | nil => exact fun r => rfl
    | cons c l ih => exact fun r => by rw [List.foldl_cons, ih]; rfl
  have one : ∀ (b : PBox) (p : Path) (r : OResult Unit), (shapeContacts pick q s o1 o2 b p r).1.costs = r.costs := by
    intro b p r
    rw [shapeContacts]
    split_ifs
    · dsimp only [addOne]; split_ifs <;> rfl
    · rfl
    · split
      · rfl
      · dsimp only [addPoints]
        split_ifs
        · exact fold _ _ _
        · exact fold _ _ _
        · rfl
  have loop : ∀ (f : Fin 8 → OResult Unit → OResult Unit × Bool), (∀ i r, (f i r).1.costs = r.costs) → ∀ l r, (until' f l r).1.costs = r.costs := by
    intro f hf l
    induction l with
    | nil => exact fun r => rfl
    | cons i l ih =>
      intro r
      rw [until']
      split_ifs
      · exact hf i r
      · rw [ih]; exact hf i r
  intro n
  induction n with
  | null => exact fun h => absurd h id
  | leaf v =>
    intro _ b p r
    rw [shapeIntersect]
    split_ifs
    · exact one _ _ _
    · rfl
    · rfl
  | inner v c ih =>
    intro h b p r
    rw [shapeIntersect]
    split_ifs
    · rfl
    · rfl
    · rfl
    · refine loop _ (fun i r => ?_) _ _
      split_ifs
      · exact ih i (h i) _ _ _
      · rfl

/-- An empty octree: a cost is added although none is asked for, if the shape touches the box of the whole octree. -/
theorem C91_empty_cost {pick : ℕ → List CPoint → List CPoint} {q : MeshRequest} (_hq : q.req.enableCost = false) (hk : 0 < q.numMaxCost) {s : ShapeSide} {thr : Thresholds}
    {tf1 tf2 : Pose ℝ} (h1 : tf1.Rigid) (h2 : tf2.Rigid) {big : ℝ} {g : Geo ℝ} (hg : g.WF) (hb : g.Bounded) (ho : s.obb = shapeOBB big g tf2)
    (hs : s.Exact (PlacedAt tf2 g.pts)) (o1 o2 : ℕ)
    (ht : Touch (PlacedAt tf1 (rootBV 1 1 : AABB ℝ).pts) (PlacedAt tf2 g.pts)) :
    (shapeCollide pick q ⟨.null, 1, 1, thr⟩ s tf1 o1 o2 ⟨[], []⟩).costs ≠ [] := by
  have hb' : (exTree thr 0).WF := exTree_wf thr 0
  have fat : Fat (rootBV 1 1) := hb'.fat
  obtain ⟨x, hx1, hx2⟩ := ht
  have over : (aabbOBB (rootBV 1 1) tf1).overlap s.obb = true := by
    rw [ho]
    exact overlap_of_touch h1 (C90_aabb_obb h2 _).1 hx1 (shape_enclosed hg h2 hx2 (Or.inl hb))
  have hit : s.hit (ConstructBox.aabbAt (rootBV 1 1) tf1) = true := (hs.hit _ (fat.ok h1)).2 (by rw [C90_box_aabb_at]; exact ⟨x, hx1, hx2⟩)
  have e : q.req.isSatisfied (⟨[], []⟩ : OResult Unit) = false := by simp [CollRequest.isSatisfied, CollResult.isCollision]
  simp only [shapeCollide, e, shapeIntersect, Tree.bv, over, hit, Bool.false_eq_true, if_false, Bool.and_self, if_true, CollResult.addCostSource]
  obtain ⟨k, hk⟩ : ∃ k, q.numMaxCost = k + 1 := ⟨q.numMaxCost - 1, by omega⟩
  rw [hk]
  simp [setInsert, eraseDown]

/-- An empty octree: the distance queries read through a null pointer. -/
theorem C92_empty (s : ShapeSide) (thr : Thresholds) (tf1 : Pose ℝ) (o1 o2 : ℕ) : shapeDistance ⟨.null, 1, 1, thr⟩ s tf1 o1 o2 ⟨1000, none⟩ = none := by
  norm_num [shapeDistance, Node.here, ODist.isSatisfied]

/-- Two octrees, one cell each, with a gap between the cells of a millionth of their size: without contacts a collision is
reported, with contacts none. -/
theorem C91_gap {pick : ℕ → List CPoint → List CPoint} {s : PairSide} (hs : s.Exact) :
    let t : Tree := ⟨.leaf 1, 0, 1, Thresholds.default⟩
    let X : Pose ℝ := ⟨M3.one, ⟨1 + 1 / 1000000, 0, 0⟩⟩
    ¬ Touch (t.solid Pose.id) (t.solid X) ∧
      (octreeCollide pick ⟨⟨1, false⟩, false, 0⟩ t t Pose.id X s 3 4 ⟨[], []⟩).isCollision = true ∧
      (octreeCollide pick ⟨⟨1, false⟩, true, 0⟩ t t Pose.id X s 3 4 ⟨[], []⟩).isCollision = false := by
  intro t X
  have occ : Thresholds.default.isOccupied 1 := show (1 : ℝ) ≥ _ by rw [default_occ]; norm_num
  have apart : ¬ Touch (PlacedAt Pose.id t.bv.pts) (PlacedAt X t.bv.pts) := by
    rintro ⟨x, h1, h2⟩
    obtain ⟨y, hy, rfl⟩ := placedAt_iff.1 h1
    obtain ⟨z, hz, e⟩ := placedAt_iff.1 h2
    rw [Pose.id_apply, Pose.apply, M3.one_mulVec] at e
    have e := congrArg V3.x e
    simp only [V3.add_x] at e
    have a := hy.1.2
    have b := hz.1.1
    norm_num [t, Tree.bv, rootBV] at a b
    have : X.t.x = 1 + 1 / 1000000 := rfl
    rw [this] at e
    norm_num at e
    linarith
  have wf : t.WF := ⟨trivial, by norm_num [t]⟩
  have over : (aabbOBB t.bv Pose.id).overlap (aabbOBB t.bv X) = true := by
    norm_num [OBB.overlap, OBB.disjoint, aabbOBB, t, X, Tree.bv, rootBV, Pose.id, M3.one, M3.mul, M3.tr, M3.get, M3.col, M3.row, V3.get, M3.mulVec, V3.dot, OBB.reps, AABB.center, Pose.apply]
  have sat : ∀ b, (⟨1, false⟩ : CollRequest).isSatisfied (⟨[], []⟩ : OResult Path) = b → b = false := by
    rintro b rfl; simp [CollRequest.isSatisfied, CollResult.isCollision]
  refine ⟨?_, ?_, ?_⟩
  · rintro ⟨x, ⟨p1, ⟨v1, hv1, -⟩, h1⟩, p2, ⟨v2, hv2, -⟩, h2⟩
    obtain ⟨rfl, -⟩ := Node.leafAt_leaf.1 hv1
    obtain ⟨rfl, -⟩ := Node.leafAt_leaf.1 hv2
    exact apart ⟨x, h1, h2⟩
  · rw [octreeCollide, if_neg (by simp [sat _ rfl])]
    simp [t, PairEnv.intersect, PairEnv.leafRec, PairEnv.leafLeaf, pairEnv, occ, PairEnv.contacts, addOne, CollResult.isCollision, CollResult.addContact, CollResult.numContacts,
      PairEnv.overlap] at over ⊢
    simp [over]
  · rw [octreeCollide, if_neg (by simp [sat _ rfl])]
    have no : s.hitC (ConstructBox.aabbAt t.bv Pose.id) (ConstructBox.aabbAt t.bv X) = none := by
      rw [← Option.not_isSome_iff_eq_none, hs.hitC _ _ (wf.fat.ok Pose.id_rigid) (wf.fat.ok (X := X) M3.orthonormal_one), C90_box_aabb_at, C90_box_aabb_at]
      exact apart
    simp [t, PairEnv.intersect, PairEnv.leafRec, PairEnv.leafLeaf, pairEnv, occ, PairEnv.contacts, CollResult.isCollision] at no ⊢
    simp [no]

end Octree
end Fcl
