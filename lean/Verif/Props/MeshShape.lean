import Verif.BVH.MeshShapeSpec
import Verif.Props.ShapeVolumes
import Verif.Props.SphereTriangle
import Verif.Props.Halfspace
import Verif.Props.Plane
import Verif.Props.ShapeBV
import Verif.Props.Results
import Verif.Props.Volumes

/-!
# C94: collision of a mesh with a shape
-/

namespace Fcl
open V3
variable {V : Type*} {M : ShapeMesh} {q : MeshRequest}

/-- The contact a leaf test adds. -/
def ShapeMesh.Adds (M : ShapeMesh) (q : MeshRequest) (i : ℕ) (c : MSContact) : Prop :=
  c.o1 = M.ptr ∧ c.b1 = i ∧ (q.enableContact = true → c.info = (M.test true i).2.map fun k => ⟨-k.normal, k.pos, k.depth⟩)

/-- A leaf test of either kind adds one contact if the triangle test answers yes and there is room, and none otherwise. -/
def LeafAdds (M : ShapeMesh) (q : MeshRequest) (leaf : CollResult MSContact ℝ → ℕ → CollResult MSContact ℝ) : Prop :=
  ∀ r i, ((M.test q.enableContact i).1 = true ∧ r.contacts.length < q.req.numMax ∧
      ∃ c, M.Adds q i c ∧ (leaf r i).contacts = r.contacts ++ [c]) ∨
    (((M.test q.enableContact i).1 = false ∨ q.req.numMax ≤ r.contacts.length) ∧ (leaf r i).contacts = r.contacts)

theorem shapeContacts_adds (M : ShapeMesh) (q : MeshRequest) : LeafAdds M q fun r i => (shapeContacts M q r i).1 := by
  intro r i
  simp only [shapeContacts, CollResult.numContacts, gt_iff_lt]
  cases hq : q.enableContact <;> simp only [Bool.not_false, Bool.not_true, if_true, Bool.false_eq_true, if_false]
  · cases h : (M.test false i).1
    · right; simp
    · by_cases hl : r.contacts.length < q.req.numMax
      · left; exact ⟨rfl, hl, ⟨M.ptr, i, none⟩, ⟨rfl, rfl, fun h => by rw [hq] at h; cases h⟩, by simp [hl, CollResult.addContact]⟩
      · right; exact ⟨.inr (not_lt.1 hl), by simp [hl]⟩
  · cases h : (M.test true i).1
    · right; simp
    · by_cases hl : r.contacts.length < q.req.numMax
      · left; exact ⟨rfl, hl, ⟨M.ptr, i, (M.test true i).2.map fun k => ⟨-k.normal, k.pos, k.depth⟩⟩, ⟨rfl, rfl, fun _ => rfl⟩,
          by simp [hl, CollResult.addContact]⟩
      · right; exact ⟨.inr (not_lt.1 hl), by simp [hl]⟩

theorem cost_contacts (b : Bool) (x : CollResult MSContact ℝ) (c : CostSource ℝ) (m : ℕ) :
    (if b then x.addCostSource c m else x).contacts = x.contacts := by cases b <;> rfl

theorem orientedShapeLeaf_adds (ho : M.occupied = true) : LeafAdds M q (orientedShapeLeaf M q) := by
  intro r i
  have e : (orientedShapeLeaf M q r i).contacts = (shapeContacts M q r i).1.contacts := by
    simp only [orientedShapeLeaf, ho, if_true, cost_contacts]
  rw [e]; exact shapeContacts_adds M q r i

theorem meshShapeLeaf_adds (ho : M.occupied = true) : LeafAdds M q (meshShapeLeaf M q) := by
  intro r i
  have e : (meshShapeLeaf M q r i).contacts = (shapeContacts M q r i).1.contacts := by
    simp only [meshShapeLeaf, ho, if_true]
    split
    · simp only [cost_contacts]
    · simp only [cost_contacts]
  rw [e]; exact shapeContacts_adds M q r i

/-- The contacts after a number of leaf tests. -/
theorem shapeFold_contacts {leaf : CollResult MSContact ℝ → ℕ → CollResult MSContact ℝ} (hleaf : LeafAdds M q leaf) (l : List ℕ)
    (r : CollResult MSContact ℝ) (hr : r.contacts.length ≤ q.req.numMax) :
    ∃ new, (l.foldl leaf r).contacts = r.contacts ++ new ∧ (new.map MSContact.b1).Sublist l ∧
      (∀ c ∈ new, (M.test q.enableContact c.b1).1 = true ∧ M.Adds q c.b1 c) ∧ (r.contacts ++ new).length ≤ q.req.numMax ∧
      ((r.contacts ++ new).length < q.req.numMax → ∀ i ∈ l, (M.test q.enableContact i).1 = true → ∃ c ∈ new, c.b1 = i) := by
  induction l generalizing r with
  | nil => exact ⟨[], by simp [hr]⟩
  | cons i l ih =>
    rw [List.foldl_cons]
    rcases hleaf r i with ⟨h1, h2, c, ha, e⟩ | ⟨h1, e⟩
    · obtain ⟨new, e', s, g1, g2, g3⟩ := ih (leaf r i) (by rw [e]; simp; omega)
      rw [e] at e' g2 g3
      refine ⟨c :: new, by simpa using e', ?_, ?_, by simpa using g2, ?_⟩
      · rw [List.map_cons, ha.2.1]; exact s.cons_cons i
      · intro d hd
        rcases List.mem_cons.1 hd with rfl | hd
        · rw [ha.2.1]; exact ⟨h1, ha⟩
        · exact g1 d hd
      · intro hlt j hj hh
        rcases List.mem_cons.1 hj with rfl | hj
        · exact ⟨c, by simp, ha.2.1⟩
        · obtain ⟨d, hd, hd'⟩ := g3 (by simpa using hlt) j hj hh
          exact ⟨d, List.mem_cons_of_mem _ hd, hd'⟩
    · obtain ⟨new, e', s, g1, g2, g3⟩ := ih (leaf r i) (by rw [e]; exact hr)
      rw [e] at e' g2 g3
      refine ⟨new, e', s.cons i, g1, g2, ?_⟩
      intro hlt j hj hh
      rcases List.mem_cons.1 hj with rfl | hj
      · rcases h1 with h1 | h1
        · rw [h1] at hh; cases hh
        · simp at hlt; omega
      · exact g3 hlt j hj hh

/-- The primitive of a pair of leaves. -/
def leafId (p : BT V ℕ × BT Unit Unit) : Option ℕ :=
  match p.1 with
  | .leaf _ i => some i
  | _ => none

theorem shapeNode_fold (leaf : CollResult MSContact ℝ → ℕ → CollResult MSContact ℝ) (overlap : V → Bool) (q : MeshRequest)
    (l : List (BT V ℕ × BT Unit Unit)) (r : CollResult MSContact ℝ) :
    l.foldl (fun s p => (shapeNode leaf overlap q).leafTest s p.1 p.2) r = (l.filterMap leafId).foldl leaf r := by
  induction l generalizing r with
  | nil => rfl
  | cons p l ih =>
    obtain ⟨a, b⟩ := p
    cases a <;> simp only [List.foldl_cons, List.filterMap_cons, leafId, shapeNode] <;> exact ih _

theorem leafId_pairs (a : BT V ℕ) : (leafPairs a (.leaf () () : BT Unit Unit)).filterMap leafId = a.prims := by
  have h1 : ∀ l : List (BT V ℕ), l ×ˢ (BT.leaf () () : BT Unit Unit).leaves = l.map fun x => (x, .leaf () ()) := by
    intro l
    induction l with
    | nil => rfl
    | cons x l ih => rw [List.map_cons, ← ih]; rfl
  rw [leafPairs, h1]
  induction a with
  | leaf bv i => rfl
  | node bv l r ihl ihr => simp only [BT.leaves, BT.prims, List.map_append, List.filterMap_append, ihl, ihr]

/-- **C94.** The traversal of a hierarchy in which volumes above touching triangles overlap the volume of the shape: for
every hierarchy, every request and every triangle test that answers yes on the touching triangles. -/
theorem shape_run {leaf : MeshRequest → CollResult MSContact ℝ → ℕ → CollResult MSContact ℝ} (hleaf : LeafAdds M q (leaf q))
    {overlap : V → Bool} {n : ℕ} {touch near : ℕ → Prop} {good : ℕ → CPoint → Prop} {t : BT V ℕ}
    (hov : ∀ u, BT.Below u t → ∀ i ∈ u.prims, touch i → overlap u.bv = true) (hp : t.prims.Perm (List.range n)) {fuel : ℕ}
    (hf : t.depth < fuel) (hyes : ∀ i < n, touch i → (M.test q.enableContact i).1 = true)
    (hno : ∀ i < n, (M.test q.enableContact i).1 = true → near i)
    (hgood : ∀ i < n, (M.test true i).1 = true → ∃ k, (M.test true i).2 = some k ∧ good i ⟨-k.normal, k.pos, k.depth⟩) :
    ∃ r, shapeRun leaf overlap fuel t q CollResult.empty = .result r ∧ ShapeFound M.ptr n touch near good q r := by
  obtain ⟨todo, pruned, hperm, -, hpr, hrun⟩ := C33_collisionRecurse (shapeNode (leaf q) overlap q) follows_bvhShape
    (a := t) (b := .leaf () ()) rfl (fuel := fuel) (by simpa [BT.depth] using hf)
  obtain ⟨done, rest, r, F', e, hdr, hr, hrest, -⟩ := hrun CollResult.empty none
  have hFn := collisionRecurse_front_none _ _ fuel t _ CollResult.empty e
  subst hFn
  rw [shapeNode_fold] at hr
  obtain ⟨new, hc, s, g1, g2, g3⟩ := shapeFold_contacts hleaf (done.filterMap leafId) CollResult.empty (Nat.zero_le _)
  rw [← hr] at hc
  simp only [CollResult.empty, List.nil_append] at hc g2 g3
  have hids : (todo.filterMap leafId ++ pruned.filterMap leafId).Perm (List.range n) := by
    rw [← List.filterMap_append]
    refine (hperm.filterMap leafId).trans ?_
    rw [leafId_pairs]; exact hp
  have hnd : (done.filterMap leafId).Nodup := by
    have := hids.nodup_iff.2 List.nodup_range
    rw [← hdr, List.filterMap_append, List.append_assoc] at this
    exact (List.nodup_append.1 this).1
  have hdone : ∀ i ∈ done.filterMap leafId, i < n := by
    intro i hi
    refine List.mem_range.1 (hids.mem_iff.1 (List.mem_append_left _ ?_))
    rw [← hdr, List.filterMap_append]
    exact List.mem_append_left _ hi
  have hlt : ∀ c ∈ new, c.b1 < n := fun c hc => hdone _ (s.subset (List.mem_map_of_mem hc))
  have hcomp : r.contacts.length < q.req.numMax → ∀ i < n, touch i → ∃ c ∈ r.contacts, c.b1 = i := by
    intro hl i hi ht
    have hnil : rest = [] := by
      by_contra hne
      have := (hrest hne).2
      simp only [shapeNode, CollRequest.isSatisfied, Bool.and_eq_true, CollResult.numContacts] at this
      have := of_decide_eq_true this.2
      omega
    rw [hnil, List.append_nil] at hdr
    rw [hc]
    refine g3 (by rw [← hc]; exact hl) i ?_ (hyes i hi ht)
    obtain ⟨bv, hl1⟩ := leaf_of_prim (hp.mem_iff.2 (List.mem_range.2 hi))
    have hmem : ((BT.leaf bv i, BT.leaf () ()) : BT V ℕ × BT Unit Unit) ∈ todo ++ pruned :=
      hperm.mem_iff.2 (List.pair_mem_product.2 ⟨hl1, by simp [BT.leaves]⟩)
    rcases List.mem_append.1 hmem with h | h
    · rw [hdr]; exact List.mem_filterMap.2 ⟨_, h, rfl⟩
    · exfalso
      obtain ⟨u, v, hu, hv, hp, hd⟩ := hpr _ h
      obtain ⟨ha, -⟩ := List.pair_mem_product.1 hp
      obtain ⟨_, i', ei, hi', -⟩ := leaves_leaf u _ ha
      cases ei
      simp [shapeNode, hov u hu i hi' ht] at hd
  refine ⟨r, by simp only [shapeRun, e], ⟨?_, ?_, by rw [hc]; exact g2, ?_, hcomp, ?_, ?_⟩⟩
  · intro c hcm
    rw [hc] at hcm
    exact ⟨(g1 c hcm).2.1, hlt c hcm, hno _ (hlt c hcm) (g1 c hcm).1⟩
  · intro hq c hcm
    rw [hc] at hcm
    have h1 := g1 c hcm
    rw [hq] at h1
    obtain ⟨k, hk, hg⟩ := hgood _ (hlt c hcm) h1.1
    exact ⟨_, by rw [h1.2.2.2 hq, hk]; rfl, hg⟩
  · rw [hc]; exact s.nodup hnd
  · rintro h0 ⟨i, hi, ht⟩
    simp only [CollResult.isCollision, decide_eq_true_eq]
    by_contra hn
    obtain ⟨c, hcm, -⟩ := hcomp (by omega) i hi ht
    have := List.length_pos_of_mem hcm
    omega
  · intro h
    simp only [CollResult.isCollision, decide_eq_true_eq] at h
    obtain ⟨c, hcm⟩ := List.exists_mem_of_length_pos h
    rw [hc] at hcm
    exact ⟨c.b1, hlt c hcm, hno _ (hlt c hcm) (g1 c hcm).1⟩

/-- ... and of the functions around it, with and without the approximate costs. -/
theorem shape_collide {leaf : MeshRequest → CollResult MSContact ℝ → ℕ → CollResult MSContact ℝ} (hleaf : ∀ q, LeafAdds M q (leaf q))
    {g : Geom ℝ} (m : g.isMesh = true)
    {overlap : V → Bool} {n : ℕ} {touch near : ℕ → Prop} {good : ℕ → CPoint → Prop} {t : BT V ℕ}
    (hov : ∀ u, BT.Below u t → ∀ i ∈ u.prims, touch i → overlap u.bv = true) (hp : t.prims.Perm (List.range n)) {fuel : ℕ}
    (hf : t.depth < fuel) (approx : Option (Option (CostSource ℝ))) (hyes : ∀ i < n, touch i → (M.test q.enableContact i).1 = true)
    (hno : ∀ i < n, (M.test q.enableContact i).1 = true → near i)
    (hgood : ∀ i < n, (M.test true i).1 = true → ∃ k, (M.test true i).2 = some k ∧ good i ⟨-k.normal, k.pos, k.depth⟩) :
    ∃ r, bvhShapeCollide leaf overlap fuel g t q approx CollResult.empty = .result r ∧ ShapeFound M.ptr n touch near good q r := by
  have hsat : q.req.isSatisfied (CollResult.empty : CollResult MSContact ℝ) = false := by
    simp [CollRequest.isSatisfied, CollResult.isCollision, CollResult.empty]
  simp only [bvhShapeCollide, hsat, m, Bool.false_eq_true, if_false, Bool.not_true]
  split
  · obtain ⟨r, e, h⟩ := shape_run (q := { q with req := { q.req with enableCost := false } }) (hleaf _) hov hp hf hyes hno hgood
    rw [e]
    refine ⟨_, rfl, ?_⟩
    split
    · exact ⟨h.sound, h.info, h.bound, h.once, h.complete, h.yes, h.no⟩
    · exact ⟨h.sound, h.info, h.bound, h.once, h.complete, h.yes, h.no⟩
  · exact shape_run (hleaf q) hov hp hf hyes hno hgood

/-! ### From the arrays to the answer -/

/-- **C94, oriented volumes.** Whatever splitter is used and whatever is in the arrays before, the hierarchy is built; and then
at every pose, for every volume of the shape that has a common point with every triangle that touches it, and every triangle
test: the result is what `ShapeFound` asks for. -/
theorem C94_oriented {vol : OVol V} {wpts : V → Set (V3 ℝ)} {ok : V3 ℝ → Prop} (hs : vol.Sound wpts ok) {g : Geom ℝ} (w : g.WF)
    (m : g.isMesh = true) (k : ∀ p < g.numPrims, ∀ x ∈ g.primVerts p, ok x) (f : vol.FitsAll g) (junk : V) (right : V → List ℕ → ℕ → Bool)
    {bvs : List (BVNode V)} {prims : List ℕ} (hb : 2 * g.numPrims - 1 ≤ bvs.length) (hl : g.numPrims ≤ prims.length) :
    ∃ s t ids, buildTree (vol.builder junk g right) g.numPrims g.numPrims bvs prims = some s ∧
      IsTree s.bvs s.prims 0 0 g.numPrims ids t ∧
      ∀ (tf1 : Pose ℝ), tf1.Rigid → ∀ (bv2 : V) (M : ShapeMesh), M.occupied = true → ∀ (touch near : ℕ → Prop) (good : ℕ → CPoint → Prop)
        (q : MeshRequest) (approx : Option (Option (CostSource ℝ))),
        (∀ i < g.numPrims, touch i → ∃ x ∈ g.placed tf1 i, x ∈ wpts bv2) →
        (∀ i < g.numPrims, touch i → (M.test q.enableContact i).1 = true) →
        (∀ i < g.numPrims, (M.test q.enableContact i).1 = true → near i) →
        (∀ i < g.numPrims, (M.test true i).1 = true → ∃ k, (M.test true i).2 = some k ∧ good i ⟨-k.normal, k.pos, k.depth⟩) →
        ∃ r, vol.shapeCollide g.numPrims g t tf1 bv2 M q approx CollResult.empty = .result r ∧
          ShapeFound M.ptr g.numPrims touch near good q r := by
  obtain ⟨v, qs, t, ids, e, -, -, it, -, -, pr, d, F, -⟩ := C31_build (vol.builder junk g right) (OVol.mesh_pos m) le_rfl hb hl
  refine ⟨_, t, ids, e, it, fun tf1 r1 bv2 M ho touch near good q approx hb2 hyes hno hgood => ?_⟩
  have E := hs.enclosing k f pr F
  refine shape_collide (fun q => orientedShapeLeaf_adds ho) m (fun u hu i hi ht => ?_) pr d approx hyes hno hgood
  have hin : i < g.numPrims := List.mem_range.1 (pr.mem_iff.1 (below_prims hu _ hi))
  obtain ⟨x, ⟨y, hy, rfl⟩, hx⟩ := hb2 i hin ht
  exact hs.overlap r1 hx ((E u hu i hi).now w hy) rfl

/-- **C94, AABBs and k-DOPs.** The same for the copy of the mesh with the vertices moved to `tf1`. -/
theorem C94_rebuilt {o : BVOps V ℝ} {pts : V → Set (V3 ℝ)} (hs : o.Sound pts) {g : Geom ℝ} (w : g.WF) (m : g.isMesh = true)
    (tf1 : Pose ℝ) (right : V → List ℕ → ℕ → Bool) {bvs : List (BVNode V)} {prims : List ℕ} (hb : 2 * g.numPrims - 1 ≤ bvs.length)
    (hl : g.numPrims ≤ prims.length) :
    ∃ s t ids, buildTree (o.builder (g.move tf1) right) g.numPrims g.numPrims bvs prims = some s ∧
      IsTree s.bvs s.prims 0 0 g.numPrims ids t ∧
      ∀ (bv2 : V) (M : ShapeMesh), M.occupied = true → ∀ (touch near : ℕ → Prop) (good : ℕ → CPoint → Prop)
        (q : MeshRequest) (approx : Option (Option (CostSource ℝ))),
        (∀ i < g.numPrims, touch i → ∃ x ∈ g.placed tf1 i, x ∈ pts bv2) →
        (∀ i < g.numPrims, touch i → (M.test q.enableContact i).1 = true) →
        (∀ i < g.numPrims, (M.test q.enableContact i).1 = true → near i) →
        (∀ i < g.numPrims, (M.test true i).1 = true → ∃ k, (M.test true i).2 = some k ∧ good i ⟨-k.normal, k.pos, k.depth⟩) →
        ∃ r, rebuiltShapeCollide o.overlap g.numPrims (g.move tf1) t bv2 M q approx CollResult.empty = .result r ∧
          ShapeFound M.ptr g.numPrims touch near good q r := by
  have c : (g.move tf1).numPrims = g.numPrims := by simp [Geom.numPrims, Geom.move, Geom.isMesh]
  obtain ⟨v, qs, t, ids, e, -, -, it, -, -, pr, d, F, -⟩ := C31_build (o.builder (g.move tf1) right) (OVol.mesh_pos m) le_rfl hb hl
  refine ⟨_, t, ids, e, it, fun bv2 M ho touch near good q approx hb2 hyes hno hgood => ?_⟩
  have E : Enclosing (Encloses pts (g.move tf1)) t := C31_enclosing _ F fun l p hp => fit_encloses hs hp
  refine shape_collide (fun q => meshShapeLeaf_adds ho) (show (g.move tf1).isMesh = true from m) (fun u hu i hi ht => ?_) pr d approx hyes hno hgood
  have hin : i < g.numPrims := List.mem_range.1 (pr.mem_iff.1 (below_prims hu _ hi))
  obtain ⟨x, hx, hx2⟩ := hb2 i hin ht
  rw [← Geom.move_solid w m tf1 hin] at hx
  exact hs.overlap u.bv bv2 x ((E u hu i hi).now (Geom.move_wf w tf1) hx) hx2

/-- The triangle of a mesh at its pose. -/
theorem Geom.placed_triangle {g : Geom ℝ} (w : g.WF) (m : g.isMesh = true) (X : Pose ℝ) {i : ℕ} (hi : i < g.numPrims) :
    g.placed X i = Placed X.R X.t (Geo.triangle (g.tri i).a (g.tri i).b (g.tri i).c).pts := by
  ext x
  simp only [Geom.placed, Geom.solid_eq w m hi]
  rfl

theorem Geom.placed_corners {g : Geom ℝ} (w : g.WF) (m : g.isMesh = true) (X : Pose ℝ) {i : ℕ} (hi : i < g.numPrims) :
    g.placed X i = (Geo.triangle (X.apply (g.tri i).a) (X.apply (g.tri i).b) (X.apply (g.tri i).c)).pts := by
  rw [Geom.placed_triangle w m X hi, Prim.triangle_placed]

namespace OVol
variable {vol : OVol V} {wpts : V → Set (V3 ℝ)} {ok : V3 ℝ → Prop} {g : Geom ℝ} {big eps prec : ℝ} {absorb : ℝ → ℝ → Bool}

theorem Sound.halfspace (hs : vol.Sound wpts ok) (w : g.WF) (m : g.isMesh = true) (k : ∀ p < g.numPrims, ∀ x ∈ g.primVerts p, ok x)
    (f : vol.FitsAll g) {bv : V3 ℝ → ℝ → Pose ℝ → Option V}
    (hbv : ∀ n d X, ∃ b, bv n d X = some b ∧ ∀ p : V3 ℝ, p.nrm ≤ big → p ∈ wpts b) : vol.CollidesHalfspace big bv g := by
  intro junk right bvs prims hb hl
  obtain ⟨s, t, ids, e, it, h⟩ := C94_oriented hs w m k f junk right hb hl
  refine ⟨s, t, ids, e, it, fun tf1 tf2 r1 r2 hnear n d hn H hH o1 free1 free2 cost q approx => ?_⟩
  obtain ⟨bv2, eb, hb2⟩ := hbv n d tf2
  have key : ∀ i < g.numPrims, _ := fun i hi => C69_triangle n d hn (g.tri i).a (g.tri i).b (g.tri i).c tf2 tf1 r2 H (g.placed tf1 i) hH
    (Geom.placed_triangle w m tf1 hi)
  obtain ⟨r, er, hr⟩ := h tf1 r1 bv2 (halfspaceMesh (.caller o1) n d tf2 g tf1 true free1 free2 cost) rfl
    (fun i => Touch (g.placed tf1 i) H) (fun i => Touch (g.placed tf1 i) H) (fun i k => HalfspaceContact (g.placed tf1 i) H k) q approx
    (fun i hi ⟨x, hx, _⟩ => ⟨x, hx, hb2 x (hnear i hi x hx)⟩)
    (fun i hi ht => (key i hi).1.2 (touch_symm.1 ht)) (fun i hi ht => touch_symm.1 ((key i hi).1.1 ht))
    (fun i hi ht => (key i hi).2.2 ht)
  exact ⟨bv2, r, eb, er, hr⟩

theorem crosses_touch {n : V3 ℝ} {d : ℝ} {X : Pose ℝ} (hX : X.Rigid) (hn : n.dot n = 1) {T : Set (V3 ℝ)} (hT : ConvexSet T) (h : Crosses n d X T) :
    Touch T (Placed X.R X.t (Geo.plane n d).pts) := by
  obtain ⟨⟨x, hx, h1⟩, y, hy, h2⟩ := h
  obtain ⟨e1, h1'⟩ : ∃ e, e = (X.R.mulVec n).dot (x - X.t) := ⟨_, rfl⟩
  obtain ⟨e2, h2'⟩ : ∃ e, e = (X.R.mulVec n).dot (y - X.t) := ⟨_, rfl⟩
  rw [← h1'] at h1
  rw [← h2'] at h2
  have hpos : 0 < e2 - e1 := by linarith
  refine ⟨_, hT x hx y hy ((d - e1) / (e2 - e1)) (div_nonneg (by linarith) hpos.le) ((div_le_one hpos).2 (by linarith)), ?_⟩
  obtain ⟨s, hs⟩ : ∃ s, s = (d - e1) / (e2 - e1) := ⟨_, rfl⟩
  rw [← hs]
  have hs' : s * (e2 - e1) = d - e1 := by rw [hs]; field_simp
  refine ⟨X.inv.apply ((1 - s) • x + s • y), ?_, (Pose.apply_inv hX _).symm⟩
  show n.dot (X.inv.apply ((1 - s) • x + s • y)) = d
  rw [← M3.Orthonormal.dot hX]
  have e : X.R.mulVec (X.inv.apply ((1 - s) • x + s • y)) = (1 - s) • (x - X.t) + s • (y - X.t) := by
    have := Pose.apply_inv hX ((1 - s) • x + s • y)
    have h3 : X.R.mulVec (X.inv.apply ((1 - s) • x + s • y)) = X.apply (X.inv.apply ((1 - s) • x + s • y)) - X.t := by
      apply V3.ext' <;> simp [Pose.apply]
    rw [h3, this]; v3
  rw [e, dot_add, dot_smul, dot_smul, ← h1', ← h2']
  linarith

theorem tri_convex (a b c : V3 ℝ) : ConvexSet (Geo.triangle a b c).pts := fun _ hp _ hq t h0 h1 => .seg t h0 h1 hp hq

theorem Sound.plane (hs : vol.Sound wpts ok) (w : g.WF) (m : g.isMesh = true) (k : ∀ p < g.numPrims, ∀ x ∈ g.primVerts p, ok x)
    (f : vol.FitsAll g) {bv : V3 ℝ → ℝ → Pose ℝ → Option V}
    (hbv : ∀ n d X, X.Rigid → n.dot n = 1 → ∃ b, bv n d X = some b ∧
      ∀ p ∈ Placed X.R X.t (Geo.plane n d).pts, p.nrm ≤ big → p.dist (X.apply (d • n)) ≤ big → p ∈ wpts b) : vol.CollidesPlane big bv g := by
  intro junk right bvs prims hb hl
  obtain ⟨s, t, ids, e, it, h⟩ := C94_oriented hs w m k f junk right hb hl
  refine ⟨s, t, ids, e, it, fun tf1 tf2 r1 r2 n d hn hnear H hH o1 free1 free2 cost q approx => ?_⟩
  obtain ⟨bv2, eb, hb2⟩ := hbv n d tf2 r2 hn
  have hc : ∀ i < g.numPrims, Crosses n d tf2 (g.placed tf1 i) → Touch (g.placed tf1 i) H := fun i hi h => by
    rw [hH]
    refine crosses_touch r2 hn ?_ h
    rw [Geom.placed_corners w m tf1 hi]; exact tri_convex _ _ _
  have key : ∀ i < g.numPrims, _ := fun i hi => C70_triangle_crossing n d hn (g.tri i).a (g.tri i).b (g.tri i).c tf2 tf1 r2 (g.placed tf1 i)
    (Geom.placed_triangle w m tf1 hi)
  obtain ⟨r, er, hr⟩ := h tf1 r1 bv2 (planeMesh (.caller o1) n d tf2 g tf1 true free1 free2 cost) rfl
    (fun i => Crosses n d tf2 (g.placed tf1 i)) (fun i => Crosses n d tf2 (g.placed tf1 i))
    (fun i k => PlaneContact (g.placed tf1 i) H k ∧ k.pos ∈ g.placed tf1 i) q approx
    (fun i hi ht => by
      obtain ⟨x, hx, hx2⟩ := hc i hi ht
      exact ⟨x, hx, hb2 x (hH ▸ hx2) (hnear i hi x hx).1 (hnear i hi x hx).2⟩)
    (fun i hi ht => (key i hi).2 ht) (fun i hi ht => (key i hi).1 ht)
    (fun i hi ht => by
      have hcr : Crosses n d tf2 (g.placed tf1 i) := (key i hi).1 ht
      exact (C70_triangle_partial n d hn (g.tri i).a (g.tri i).b (g.tri i).c tf2 tf1 r2 H (g.placed tf1 i) hH
        (Geom.placed_triangle w m tf1 hi) (fun _ => hcr)).2.2 ht)
  exact ⟨bv2, r, eb, er, hr⟩

theorem sphere_contact {rad : ℝ} {o a b c : V3 ℝ} {k : CPoint} (h : Prim.TriContact eps rad o a b c k) :
    SphereContact eps rad o (Geo.triangle a b c).pts ⟨-k.normal, k.pos, k.depth⟩ where
  mem := h.mem
  near := h.near
  unit := by rw [nrm_neg]; exact h.unit
  along := by
    have := h.along
    obtain ⟨s, hs⟩ : ∃ s, s = k.pos.dist o := ⟨_, rfl⟩
    show o = k.pos + (k.pos.dist o) • -k.normal
    rw [← hs] at this ⊢
    rw [this]; v3
  depth := by show -k.depth = _; rw [h.depth]; ring

theorem Sound.sphere (he : 0 < eps) (hs : vol.Sound wpts ok) (w : g.WF) (m : g.isMesh = true) (p : g.Proper)
    (k : ∀ p < g.numPrims, ∀ x ∈ g.primVerts p, ok x) (f : vol.FitsAll g) {bv : ℝ → Pose ℝ → Option V}
    (hbv : ∀ rad X b, 0 ≤ rad → X.Rigid → bv rad X = some b → ∀ p ∈ Placed X.R X.t (Geo.sphere rad).pts, p ∈ wpts b) :
    vol.CollidesSphere eps bv g := by
  intro junk right bvs prims hb hl
  obtain ⟨s, t, ids, e, it, h⟩ := C94_oriented hs w m k f junk right hb hl
  refine ⟨s, t, ids, e, it, fun tf1 tf2 r1 r2 rad hr bv2 eb B hB o1 free1 free2 cost q approx => ?_⟩
  have area : ∀ i < g.numPrims, _ := fun i hi => Prim.area_apply r1 (p i hi)
  have key : ∀ i < g.numPrims, _ := fun i hi => Prim.C93_detects he hr r2 (area i hi)
  have eq : ∀ i < g.numPrims, _ := fun i hi => Geom.placed_corners w m tf1 hi
  refine h tf1 r1 bv2 (sphereMesh (.caller o1) eps rad tf2 g tf1 true free1 free2 cost) rfl
    (fun i => Touch (g.placed tf1 i) B) (fun i => ∃ x ∈ g.placed tf1 i, ∃ y ∈ B, x.dist y < eps)
    (fun i k => SphereContact eps rad tf2.t (g.placed tf1 i) k) q approx
    (fun i hi ⟨x, hx, hx2⟩ => ⟨x, hx, hbv rad tf2 bv2 hr r2 eb x (hB ▸ hx2)⟩) (fun i hi ht => ?_) (fun i hi ht => ?_) (fun i hi ht => ?_)
  · rw [eq i hi, touch_symm, hB] at ht
    exact (key i hi).1 ht
  · obtain ⟨y, hy, x, hx, hd⟩ := (key i hi).2 ht
    rw [eq i hi, hB]
    exact ⟨x, hx, y, hy, by rw [V3.dist_comm]; exact hd⟩
  · obtain ⟨k, hk, hc⟩ := (Prim.C93_intersect he hr tf2 (area i hi)).2.2 ht
    refine ⟨k, hk, ?_⟩
    rw [eq i hi]; exact sphere_contact hc

/-! ### Half-spaces -/

/-- **C94.** Half-spaces and meshes with OBBs. -/
theorem C94_halfspace_obb (w : g.WF) (m : g.isMesh = true) (f : Fcl.FitsAll big (Jacobi.eigenOld absorb) g) (prec : ℝ) :
    (obb big (Jacobi.eigenOld absorb)).CollidesHalfspace big
      (fun n d X => ComputeBV.obb big prec (Jacobi.eigenOld absorb) (.halfspace n d) X) g :=
  obb_sound.halfspace w m (fun _ _ _ _ => trivial) f fun n d X => ⟨_, rfl, fun p hp => by
    obtain ⟨b, e, h⟩ := (C89_halfspace n d X prec (Jacobi.eigenOld absorb) hp).1
    cases e; exact h⟩

/-- **C94.** Half-spaces and meshes with RSSs. -/
theorem C94_halfspace_rss (he : 0 < eps) (w : g.WF) (m : g.isMesh = true) (f : Fcl.FitsAll big (Jacobi.eigenOld absorb) g) (prec : ℝ) :
    (rss eps (Jacobi.eigenOld absorb)).CollidesHalfspace big
      (fun n d X => ComputeBV.rss big prec (Jacobi.eigenOld absorb) (.halfspace n d) X) g :=
  (rss_sound he).halfspace w m (fun _ _ _ _ => trivial) (rss_fits f w m).1 fun n d X => ⟨_, rfl, fun p hp => by
    obtain ⟨b, e, h⟩ := (C89_halfspace n d X prec (Jacobi.eigenOld absorb) hp).2.1
    cases e; exact h⟩

/-- **C94.** Half-spaces and meshes with OBBRSSs. -/
theorem C94_halfspace_obbrss (he : 0 < eps) (w : g.WF) (m : g.isMesh = true) (f : Fcl.FitsAll big (Jacobi.eigenOld absorb) g) (prec : ℝ) :
    (obbrss big eps (Jacobi.eigenOld absorb)).CollidesHalfspace big
      (fun n d X => ComputeBV.obbrss big prec (Jacobi.eigenOld absorb) (.halfspace n d) X) g :=
  (obbrss_sound he).halfspace w m (fun _ _ _ _ => trivial) (rss_fits f w m).2.1 fun n d X => ⟨_, rfl, fun p hp => by
    obtain ⟨b, e, h⟩ := (C89_halfspace n d X prec (Jacobi.eigenOld absorb) hp).2.2.1
    cases e; exact h⟩

/-- **C94.** Half-spaces and meshes with kIOSs. -/
theorem C94_halfspace_kios (w : g.WF) (m : g.isMesh = true) (k : ∀ p < g.numPrims, ∀ x ∈ g.primVerts p, x.nrm ≤ big)
    (f : Fcl.FitsAll big (Jacobi.eigenOld absorb) g) (prec : ℝ) :
    (kios big (Jacobi.eigenOld absorb)).CollidesHalfspace big
      (fun n d X => ComputeBV.kios big prec (Jacobi.eigenOld absorb) (.halfspace n d) X) g :=
  kios_sound.halfspace w m k (rss_fits (eps := 0) f w m).2.2 fun n d X => ⟨_, rfl, fun p hp => by
    obtain ⟨b, e, h⟩ := (C89_halfspace n d X prec (Jacobi.eigenOld absorb) hp).2.2.2
    cases e; exact h⟩

/-! ### Planes -/

/-- **C94.** Planes and meshes with OBBs. Missing: triangles that touch the plane without crossing it
(`C94_violated_plane_touch`). -/
theorem C94_plane_obb_partial (hprec : 0 ≤ prec) (w : g.WF) (m : g.isMesh = true) (f : Fcl.FitsAll big (Jacobi.eigenOld absorb) g) :
    (obb big (Jacobi.eigenOld absorb)).CollidesPlane big
      (fun n d X => ComputeBV.obb big prec (Jacobi.eigenOld absorb) (.plane n d) X) g :=
  obb_sound.plane w m (fun _ _ _ _ => trivial) f fun n d X hX hn => by
    obtain ⟨b, e⟩ := C89_plane_total hprec hX hn big (Jacobi.eigenOld absorb)
    exact ⟨b, e, fun p hp _ hd => (C89_plane hX hn (Jacobi.eigenOld absorb) hp hd).1 b e⟩

/-- **C94.** Planes and meshes with kIOSs. Missing: as for OBBs. -/
theorem C94_plane_kios_partial (hprec : 0 ≤ prec) (w : g.WF) (m : g.isMesh = true) (k : ∀ p < g.numPrims, ∀ x ∈ g.primVerts p, x.nrm ≤ big)
    (f : Fcl.FitsAll big (Jacobi.eigenOld absorb) g) :
    (kios big (Jacobi.eigenOld absorb)).CollidesPlane big
      (fun n d X => ComputeBV.kios big prec (Jacobi.eigenOld absorb) (.plane n d) X) g :=
  kios_sound.plane w m k (rss_fits (eps := 0) f w m).2.2 fun n d X hX hn => by
    obtain ⟨b, e⟩ := C89_plane_total (d := d) hprec hX hn big (Jacobi.eigenOld absorb)
    have e' : ComputeBV.kios big prec (Jacobi.eigenOld absorb) (.plane n d) X = some ⟨[⟨0, big⟩], b⟩ := by
      rw [ComputeBV.kios, e]; rfl
    exact ⟨_, e', fun p hp hb hd => (C89_plane hX hn (Jacobi.eigenOld absorb) hp hd).2 hb _ e'⟩

/-! ### Spheres -/

/-- **C94.** Spheres and meshes with OBBs. -/
theorem C94_sphere_obb (he : 0 < eps) (w : g.WF) (m : g.isMesh = true) (p : g.Proper) (f : Fcl.FitsAll big (Jacobi.eigenOld absorb) g) (prec : ℝ) :
    (obb big (Jacobi.eigenOld absorb)).CollidesSphere eps (fun rad X => ComputeBV.obb big prec (Jacobi.eigenOld absorb) (.sphere rad) X) g :=
  obb_sound.sphere he w m p (fun _ _ _ _ => trivial) f fun rad _ _ hr hX e x hx => by
    obtain ⟨w, h⟩ := C89_obb_partial (g := .sphere rad) hr trivial trivial (fun _ h => by cases h) hX e
    exact ⟨w, h hx⟩

/-- **C94.** Spheres and meshes with RSSs. `eps` is the machine epsilon and `eps'` the tolerance of the distance of RSSs. -/
theorem C94_sphere_rss {eps' : ℝ} (he : 0 < eps) (he' : 0 < eps') (w : g.WF) (m : g.isMesh = true) (p : g.Proper)
    (f : Fcl.FitsAll big (Jacobi.eigenOld absorb) g) (prec : ℝ) :
    (rss eps' (Jacobi.eigenOld absorb)).CollidesSphere eps (fun rad X => ComputeBV.rss big prec (Jacobi.eigenOld absorb) (.sphere rad) X) g :=
  (rss_sound he').sphere he w m p (fun _ _ _ _ => trivial) (rss_fits f w m).1 fun rad _ _ hr hX e x hx => by
    obtain ⟨w, h⟩ := C89_rss_partial (g := .sphere rad) hr trivial trivial hX e
    exact ⟨w, h hx⟩

/-- **C94.** Spheres and meshes with OBBRSSs. -/
theorem C94_sphere_obbrss {eps' : ℝ} (he : 0 < eps) (he' : 0 < eps') (w : g.WF) (m : g.isMesh = true) (p : g.Proper)
    (f : Fcl.FitsAll big (Jacobi.eigenOld absorb) g) (prec : ℝ) :
    (obbrss big eps' (Jacobi.eigenOld absorb)).CollidesSphere eps (fun rad X => ComputeBV.obbrss big prec (Jacobi.eigenOld absorb) (.sphere rad) X) g :=
  (obbrss_sound he').sphere he w m p (fun _ _ _ _ => trivial) (rss_fits f w m).2.1 fun rad _ _ hr hX e x hx => by
    obtain ⟨w, h⟩ := C89_obbrss_partial (g := .sphere rad) hr trivial trivial hX e
    exact ⟨w, h hx⟩

end OVol

open OVol (SphereContact sphere_contact)

/-- **C94, AABBs and k-DOPs.** From the arrays of a mesh to the result of `collide` with a sphere. The contacts point to the copy
of the mesh, which is deleted before the function returns. -/
theorem C94_sphere_rebuilt {o : BVOps V ℝ} {pts : V → Set (V3 ℝ)} (hs : o.Sound pts) {eps : ℝ} (he : 0 < eps) {g : Geom ℝ} (w : g.WF)
    (m : g.isMesh = true) (p : g.Proper) {tf1 : Pose ℝ} (r1 : tf1.Rigid) (right : V → List ℕ → ℕ → Bool) {bvs : List (BVNode V)} {prims : List ℕ}
    (hb : 2 * g.numPrims - 1 ≤ bvs.length) (hl : g.numPrims ≤ prims.length) :
    ∃ s t ids, buildTree (o.builder (g.move tf1) right) g.numPrims g.numPrims bvs prims = some s ∧
      IsTree s.bvs s.prims 0 0 g.numPrims ids t ∧
      ∀ (tf2 : Pose ℝ), tf2.Rigid → ∀ (rad : ℝ), 0 ≤ rad → ∀ (B : Set (V3 ℝ)), B = Placed tf2.R tf2.t (Geo.sphere rad).pts →
        ∀ (bv2 : V), B ⊆ pts bv2 →
        ∀ (o1 : ℕ) (free1 free2 : Bool) (cost : ℕ → CostSource ℝ) (q : MeshRequest) (approx : Option (Option (CostSource ℝ))),
        ∃ r, rebuiltShapeCollide o.overlap g.numPrims (g.move tf1) t bv2
            (sphereMesh (.deletedCopy o1) eps rad tf2 (g.move tf1) Pose.id true free1 free2 cost) q approx CollResult.empty = .result r ∧
          ShapeFound (.deletedCopy o1) g.numPrims (fun i => Touch (g.placed tf1 i) B) (fun i => ∃ x ∈ g.placed tf1 i, ∃ y ∈ B, x.dist y < eps)
            (fun i k => SphereContact eps rad tf2.t (g.placed tf1 i) k) q r := by
  obtain ⟨s, t, ids, e, it, h⟩ := C94_rebuilt hs w m tf1 right hb hl
  refine ⟨s, t, ids, e, it, fun tf2 r2 rad hr B hB bv2 hbv o1 free1 free2 cost q approx => ?_⟩
  have area : ∀ i < g.numPrims, _ := fun i hi => Prim.area_apply r1 (p i hi)
  have key : ∀ i < g.numPrims, _ := fun i hi => Prim.C93_detects he hr r2 (area i hi)
  have eq : ∀ i < g.numPrims, _ := fun i hi => Geom.placed_corners w m tf1 hi
  have et : ∀ i < g.numPrims, ∀ b, (sphereMesh (.deletedCopy o1) eps rad tf2 (g.move tf1) Pose.id true free1 free2 cost).test b i =
      Prim.sphereTriangleIntersect eps rad tf2 (tf1.apply (g.tri i).a) (tf1.apply (g.tri i).b) (tf1.apply (g.tri i).c) := by
    intro i hi b
    simp only [sphereMesh, Geom.tri_move w m tf1 hi, Pose.id_apply]
    rfl
  refine h bv2 _ rfl _ _ _ q approx (fun i hi ⟨x, hx, hx2⟩ => ⟨x, hx, hbv hx2⟩) (fun i hi ht => ?_) (fun i hi ht => ?_) (fun i hi ht => ?_)
  · rw [eq i hi, touch_symm, hB] at ht
    rw [et i hi]
    exact (key i hi).1 ht
  · rw [et i hi] at ht
    obtain ⟨y, hy, x, hx, hd⟩ := (key i hi).2 ht
    rw [eq i hi, hB]
    exact ⟨x, hx, y, hy, by rw [V3.dist_comm]; exact hd⟩
  · rw [et i hi] at ht ⊢
    obtain ⟨k, hk, hc⟩ := (Prim.C93_intersect he hr tf2 (area i hi)).2.2 ht
    refine ⟨k, hk, ?_⟩
    rw [eq i hi]; exact sphere_contact hc

/-- The volumes of a sphere that `C94_sphere_rebuilt` needs: AABBs and k-DOPs (whatever the k-DOP holds before). -/
theorem C94_sphere_volumes {rad : ℝ} (hr : 0 ≤ rad) {X : Pose ℝ} (hX : X.Rigid) (big : ℝ) :
    Placed X.R X.t (Geo.sphere rad).pts ⊆ (ComputeBV.aabb big (.sphere rad) X).pts ∧
    ∀ (k : KDopN) (bv : KDOP k ℝ), Placed X.R X.t (Geo.sphere rad).pts ⊆ (ComputeBV.kdop big bv (.sphere rad) X).pts :=
  ⟨fun x hx => C43_encloses big (.sphere rad) hr X hX x hx (.inl trivial), fun _ bv => (C89_kdop (g := .sphere rad) hr trivial X big bv).1⟩

/-! ### Costs -/

theorem setInsert_twice (c : CostSource ℝ) (l : List (CostSource ℝ)) :
    setInsert CostSource.lt c (setInsert CostSource.lt c l) = setInsert CostSource.lt c l := by
  have irr : CostSource.lt c c = false := by simp [CostSource.lt]
  have asy : ∀ a, CostSource.lt a c = true → CostSource.lt c a = false := by
    intro a h
    by_contra hn
    rw [Bool.not_eq_false] at hn
    simp only [CostSource.lt] at h hn
    split_ifs at h hn <;> simp_all <;> linarith
  induction l with
  | nil => simp [setInsert, irr]
  | cons a l ih =>
    rw [setInsert]
    split_ifs with h1 h2
    · rw [setInsert, if_neg (by rw [irr]; simp), if_neg (by rw [irr]; simp)]
    · rw [setInsert, if_neg (by rw [asy a h2]; simp), if_pos h2, ih]
    · rw [setInsert, if_neg h1, if_neg h2]

theorem addCost_twice (r : CollResult MSContact ℝ) (c : CostSource ℝ) (k : ℕ) :
    (r.addCostSource c k).addCostSource c k = r.addCostSource c k := by
  simp only [CollResult.addCostSource, eraseDown_eq, take_setInsert_take, setInsert_twice]

/-- **C94, costs.** The leaf test for AABBs and k-DOPs adds the cost of a triangle twice, to no effect: with a triangle test
whose answer does not depend on the places for the contact, it does the same as the one for oriented volumes if both objects
are occupied. -/
theorem C94_cost_once (ho : M.occupied = true) (r : CollResult MSContact ℝ) (i : ℕ) (ht : (M.test true i).1 = (M.test false i).1) :
    meshShapeLeaf M q r i = orientedShapeLeaf M q r i := by
  have h2 : (shapeContacts M q r i).2 = (M.test false i).1 := by
    simp only [shapeContacts, ht]
    cases q.enableContact <;> cases (M.test false i).1 <;> simp
  simp only [meshShapeLeaf, orientedShapeLeaf, ho, if_true, h2]
  cases q.req.enableCost <;> cases (M.test false i).1 <;> cases M.free1 <;> cases M.free2 <;> simp [addCost_twice]

/-- **C94 is violated for costs of free shapes:** for a mesh with oriented volumes and a shape that is free, a cost is added for
every triangle that touches; with AABBs and k-DOPs, and between two meshes, none is added. -/
theorem C94_violated_free_cost (ho : M.occupied = false) (hf : M.free2 = true) (hq : q.req.enableCost = true) (r : CollResult MSContact ℝ) (i : ℕ)
    (ht : (M.test false i).1 = true) :
    orientedShapeLeaf M q r i = r.addCostSource (M.cost i) q.numMaxCost ∧ meshShapeLeaf M q r i = r := by
  simp [orientedShapeLeaf, meshShapeLeaf, ho, hf, hq, ht]

/-! ### Where the code goes wrong -/

/-- **C94 is violated by point clouds:** a null pointer is read. -/
theorem C94_violated_point_cloud {leaf : MeshRequest → CollResult MSContact ℝ → ℕ → CollResult MSContact ℝ} {overlap : V → Bool} {fuel : ℕ}
    {g : Geom ℝ} (h : g.isMesh = false) (t : BT V ℕ) (q : MeshRequest) (approx : Option (Option (CostSource ℝ))) :
    bvhShapeCollide leaf overlap fuel g t q approx CollResult.empty = .undefinedBehaviour := by
  have hsat : q.req.isSatisfied (CollResult.empty : CollResult MSContact ℝ) = false := by
    simp [CollRequest.isSatisfied, CollResult.isCollision, CollResult.empty]
  simp [bvhShapeCollide, hsat, h]

/-- One triangle, in the half-space `x + z ≤ 0`. -/
def exDeep : Geom ℝ where
  verts := [⟨-1, 0, -1⟩, ⟨-2, 0, -1⟩, ⟨-1, 1, -1⟩]
  prev := none
  tris := [(0, 1, 2)]

/-- **C94 is violated by k-DOPs and half-spaces** (see `C89_violated_kdop_halfspace`): a triangle deep in the half-space is never
tested, whatever the triangle test would say. -/
theorem C94_violated_kdop_halfspace (k : KDopN) {big : ℝ} (hb : 2 ≤ big) (bv : KDOP k ℝ) (M : ShapeMesh) (q : MeshRequest) :
    ∃ n : V3 ℝ, n.dot n = 1 ∧ exDeep.placed Pose.id 0 ⊆ Placed (Pose.id : Pose ℝ).R (Pose.id : Pose ℝ).t (Geo.halfspace n 0).pts ∧
      rebuiltShapeCollide (kdopOps k big).overlap 1 exDeep (.leaf ((kdopOps k big).fit exDeep [0]) 0)
        (ComputeBV.kdop big bv (.halfspace n 0) Pose.id) M q none CollResult.empty = .result CollResult.empty := by
  have hs : Real.sqrt (1/2) * Real.sqrt (1/2) = 1/2 := Real.mul_self_sqrt (by norm_num)
  have hp : 0 < Real.sqrt (1/2) := Real.sqrt_pos.2 (by norm_num)
  generalize Real.sqrt (1/2) = a at hs hp
  have hn : (⟨a, 0, a⟩ : V3 ℝ).dot ⟨a, 0, a⟩ = 1 := by simp only [V3.dot]; linarith
  refine ⟨⟨a, 0, a⟩, hn, ?_, ?_⟩
  · have e : (exDeep.primIdx 0).filterMap (exDeep.verts[·]?) = [⟨-1, 0, -1⟩, ⟨-2, 0, -1⟩, ⟨-1, 1, -1⟩] := rfl
    rintro x ⟨y, hy, rfl⟩
    refine ⟨y, ?_, rfl⟩
    rw [Geom.solid, e] at hy
    obtain ⟨u, v, w, hu, hv, hw, hs, rfl⟩ := (hull_triangle _ _ _ _).1 hy
    show (⟨a, 0, a⟩ : V3 ℝ).dot _ ≤ 0
    simp only [V3.dot, V3.add_x, V3.add_y, V3.add_z, V3.smul_x, V3.smul_y, V3.smul_z]
    nlinarith [mul_nonneg hp.le hu, mul_nonneg hp.le hv, mul_nonneg hp.le hw]
  · have hsat : q.req.isSatisfied (CollResult.empty : CollResult MSContact ℝ) = false := by
      simp [CollRequest.isSatisfied, CollResult.isCollision, CollResult.empty]
    have e : exDeep.primVerts 0 = [⟨-1, 0, -1⟩, ⟨-2, 0, -1⟩, ⟨-1, 1, -1⟩] := rfl
    have hov : (kdopOps k big).overlap ((kdopOps k big).fit exDeep [0]) (ComputeBV.kdop big bv (.halfspace ⟨a, 0, a⟩ 0) Pose.id) = false := by
      rw [ComputeBV.kdop, transform_id hn]
      simp only [kdopOps, KDOP.overlap, List.all_eq_false]
      refine ⟨4, by cases k <;> decide, ?_⟩
      have hhi : ((BVOps.fit (kdopOps k big) exDeep [0] : KDOP k ℝ)).hi 4 < 0 := by
        simp only [BVOps.fit, List.flatMap_cons, List.flatMap_nil, List.append_nil, e, List.foldl_cons, List.foldl_nil, kdopOps,
          KDOP.addPoint, KDOP.default]
        have s1 : ∀ p : V3 ℝ, slabValue k p 4 = p.x + p.z := fun p => by cases k <;> rfl
        simp only [s1]
        split_ifs <;> linarith
      have hlo : (ComputeBV.halfspaceKdop k big ⟨a, 0, a⟩ 0).lo 4 = 0 := by
        simp [ComputeBV.halfspaceKdop, hp.ne', ComputeBV.KDOP.setLo]
      rw [hlo]
      have := hhi
      simp only [kdopOps] at this
      simp [this]
    have hm : exDeep.isMesh = true := rfl
    simp [rebuiltShapeCollide, bvhShapeCollide, hsat, hm, shapeRun, collisionRecurse, shapeNode, Trav.bvhShape, BT.isLeaf, BT.bv,
      Front.push, hov]

/-- **C94 is violated by planes that touch a mesh:** a square that lies in the plane is reported to be apart from it, whatever
splitter its hierarchy is built with. -/
theorem C94_violated_plane_touch {big prec : ℝ} (hb : 1 ≤ big) (hprec : 0 ≤ prec) (absorb : ℝ → ℝ → Bool) :
    (OVol.obb big (Jacobi.eigenOld absorb)).Built exSquare fun t => ∀ (o1 : ℕ) (free1 free2 : Bool) (cost : ℕ → CostSource ℝ) (q : MeshRequest)
      (approx : Option (Option (CostSource ℝ))),
      (∀ i < exSquare.numPrims, exSquare.placed Pose.id i ⊆ Placed (Pose.id : Pose ℝ).R (Pose.id : Pose ℝ).t (Geo.plane ⟨0, 0, 1⟩ 0).pts) ∧
      ∃ bv2 r, ComputeBV.obb big prec (Jacobi.eigenOld absorb) (.plane ⟨0, 0, 1⟩ 0) Pose.id = some bv2 ∧
        (OVol.obb big (Jacobi.eigenOld absorb)).shapeCollide exSquare.numPrims exSquare t Pose.id bv2
          (planeMesh (.caller o1) ⟨0, 0, 1⟩ 0 Pose.id exSquare Pose.id true free1 free2 cost) q approx CollResult.empty = .result r ∧
        r.isCollision = false := by
  intro junk right bvs prims h1 h2
  obtain ⟨s, t, ids, e, it, h⟩ := OVol.C94_plane_obb_partial (big := big) hprec exSquare_wf rfl (exSquare_fits big absorb) junk right bvs prims h1 h2
  have hn : (⟨0, 0, 1⟩ : V3 ℝ).dot ⟨0, 0, 1⟩ = 1 := by norm_num [V3.dot]
  have hin : ∀ i < exSquare.numPrims, ∀ x ∈ exSquare.placed Pose.id i, x.z = 0 ∧ x.nrm ≤ 1 := by
    intro i hi
    have hT := Geom.placed_corners exSquare_wf rfl Pose.id hi
    rw [hT]
    have hi' : i = 0 ∨ i = 1 := by
      have : exSquare.numPrims = 2 := rfl
      omega
    intro x hx
    obtain ⟨u, v, w, hu, hv, hw, hs, rfl⟩ := (hull_triangle _ _ _ _).1 hx
    simp only [Pose.id_apply]
    rcases hi' with rfl | rfl
    · refine ⟨by simp [exSquare, Geom.tri], (V3.nrm_le_iff zero_le_one).2 ?_⟩
      simp [exSquare, Geom.tri, V3.dot]
      nlinarith [mul_nonneg hu hv, mul_nonneg hu hw, mul_nonneg hv hw]
    · refine ⟨by simp [exSquare, Geom.tri], (V3.nrm_le_iff zero_le_one).2 ?_⟩
      simp [exSquare, Geom.tri, V3.dot]
      nlinarith [mul_nonneg hu hv, mul_nonneg hu hw, mul_nonneg hv hw]
  refine ⟨s, t, ids, e, it, fun o1 free1 free2 cost q approx => ⟨fun i hi x hx => ⟨x, ?_, by
    apply V3.ext' <;> simp [Pose.id, M3.mulVec, M3.one, V3.dot]⟩, ?_⟩⟩
  · show (⟨0, 0, 1⟩ : V3 ℝ).dot x = 0
    simp [V3.dot, (hin i hi x hx).1]
  · obtain ⟨bv2, r, e1, e2, hr⟩ := h Pose.id Pose.id Pose.id_rigid Pose.id_rigid ⟨0, 0, 1⟩ 0 hn (fun i hi x hx => by
      have e : (Pose.id : Pose ℝ).apply ((0 : ℝ) • (⟨0, 0, 1⟩ : V3 ℝ)) = 0 := by rw [Pose.id_apply]; apply V3.ext' <;> simp
      rw [e, dist_eq]
      have e' : x - 0 = x := by v3
      rw [e']
      exact ⟨(hin i hi x hx).2.trans hb, (hin i hi x hx).2.trans hb⟩) _ rfl o1 free1 free2 cost q approx
    refine ⟨bv2, r, e1, e2, ?_⟩
    by_contra hc
    rw [Bool.not_eq_false] at hc
    obtain ⟨i, hi, ⟨x, hx, hlt⟩, -⟩ := hr.no hc
    have hz := (hin i hi x hx).1
    simp [Pose.id, M3.mulVec, M3.one, V3.dot, hz] at hlt

/-! ### Concrete cases -/

/-- A square and a half-space, in all positions. -/
example {big : ℝ} (hb : 1 ≤ big) (prec : ℝ) (absorb : ℝ → ℝ → Bool) :
    (OVol.kios big (Jacobi.eigenOld absorb)).CollidesHalfspace big
      (fun n d X => ComputeBV.kios big prec (Jacobi.eigenOld absorb) (.halfspace n d) X) exSquare :=
  OVol.C94_halfspace_kios exSquare_wf rfl (OVol.exSquare_near hb) (exSquare_fits big absorb) prec

/-- A square and a sphere, in all positions. -/
example {big : ℝ} (prec : ℝ) (absorb : ℝ → ℝ → Bool) :
    (OVol.obb big (Jacobi.eigenOld absorb)).CollidesSphere (1 / 10 ^ 15) (fun rad X => ComputeBV.obb big prec (Jacobi.eigenOld absorb) (.sphere rad) X) exSquare :=
  OVol.C94_sphere_obb (by norm_num) exSquare_wf rfl exSquare_proper (exSquare_fits big absorb) prec

/-- ... and with AABBs. -/
example (big : ℝ) (right : AABB ℝ → List ℕ → ℕ → Bool) {bvs : List (BVNode (AABB ℝ))} {prims : List ℕ} (hb : 3 ≤ bvs.length) (hl : 2 ≤ prims.length) :=
  C94_sphere_rebuilt (aabb_sound big (-big)) (eps := 1 / 10 ^ 15) (by norm_num) exSquare_wf rfl exSquare_proper exTurn_rigid right hb hl

/-- A unit sphere at `(0, 0, 1/2)` touches both triangles of the square. -/
example : ∀ i < exSquare.numPrims, Touch (exSquare.placed Pose.id i) (Placed (Pose.id : Pose ℝ).R ⟨0, 0, 1 / 2⟩ (Geo.sphere 1).pts) := by
  intro i hi
  refine ⟨⟨0, 0, 0⟩, ?_, ⟨⟨0, 0, -1 / 2⟩, ?_, ?_⟩⟩
  · have hi' : i = 0 ∨ i = 1 := by
      have : exSquare.numPrims = 2 := rfl
      omega
    rw [Geom.placed_corners exSquare_wf rfl Pose.id hi]
    refine (hull_triangle _ _ _ _).2 ⟨1 / 2, 1 / 2, 0, by norm_num, by norm_num, le_rfl, by norm_num, ?_⟩
    simp only [Pose.id_apply]
    rcases hi' with rfl | rfl <;> (apply V3.ext' <;> simp [exSquare, Geom.tri])
  · norm_num [Geo.pts, Shape.ball, V3.dot]
  · apply V3.ext' <;> norm_num [Pose.id, M3.mulVec, M3.one, V3.dot]

end Fcl
