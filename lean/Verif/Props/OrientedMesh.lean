import Verif.BVH.Oriented
import Verif.Props.BVH
import Verif.Props.OBB

/-!
# C66: collision of two meshes with oriented boxes, at arbitrary poses
-/

namespace Fcl

/-! ### Specification -/

/-- The points of primitive `p` of a mesh placed at `X`. -/
def Geom.placed {K : Type*} [Field K] [LinearOrder K] (g : Geom K) (X : Pose K) (p : ℕ) : Set (V3 K) :=
  {x | ∃ y ∈ g.solid p, x = X.apply y}

/-- A primitive of one mesh and a primitive of the other, each at its pose, have a point in common. -/
def MeshTouch {K : Type*} [Field K] [LinearOrder K] (g1 : Geom K) (tf1 : Pose K) (g2 : Geom K) (tf2 : Pose K) (i j : ℕ) : Prop :=
  ∃ x, x ∈ g1.placed tf1 i ∧ x ∈ g2.placed tf2 j

/-- The eigenvalue iteration succeeds on every set of primitives the construction can ask for. -/
def FitsAll (big : ℝ) (eig : OBB.EigenFn ℝ) (g : Geom ℝ) : Prop :=
  ∀ l : List ℕ, l ≠ [] → l.Nodup → (∀ p ∈ l, p < g.numPrims) → ∃ b, OBB.fitn big eig (l.flatMap g.primVerts) = some b

/-! ### The leaf test -/

section
variable {K V : Type*} [LinearOrder K]

theorem orientedContacts_eq (M : MeshPair K) (q : MeshRequest) (r : CollResult (ℕ × ℕ) K) (a b : ℕ) :
    orientedContacts M q r a b = meshContacts M q r a b := by
  unfold orientedContacts meshContacts
  split
  · rfl
  · cases M.hitC a b with
    | none => rfl
    | some n =>
      have : (if q.req.numMax < r.numContacts + n then
          (if q.req.numMax > r.numContacts then q.req.numMax - r.numContacts else 0) else n) =
        if q.req.numMax < n + r.numContacts then
          (if q.req.numMax ≥ r.numContacts then q.req.numMax - r.numContacts else 0) else n := by
        split_ifs <;> omega
      simp only [this]

theorem orientedNode_eq (overlap : V → V → Bool) (M : MeshPair K) (q : MeshRequest) :
    orientedNode overlap M q = meshNode overlap M q := by
  have : ∀ r a b, orientedLeaf M q r a b = meshLeaf M q r a b := fun r a b => by
    simp only [orientedLeaf, meshLeaf, orientedContacts_eq]
  unfold orientedNode meshNode
  congr 1
  funext r a b
  cases a <;> cases b <;> simp [this]

end

/-! ### Poses -/

section
variable {K : Type*} [Field K] {X Y : Pose K}

theorem Pose.relative_rigid (hX : X.Rigid) (hY : Y.Rigid) : (X.relative Y).Rigid := by
  have hr : ∀ {m n : M3 K}, m.Orthonormal → n.Orthonormal → (m.tr.mul n).Orthonormal := by
    intro m n hm hn
    have h1 : m.tr.Orthonormal := hm.tr
    exact h1.mul hn
  exact hr hX hY

theorem Pose.relative_apply (hX : X.Rigid) {x y : V3 K} (h : X.apply x = Y.apply y) :
    x = (X.relative Y).R.mulVec y + (X.relative Y).t := by
  have : X.R.tr.mulVec (X.apply x) = X.R.tr.mulVec (Y.apply y) := by rw [h]
  simp only [Pose.apply, M3.mulVec_add, M3.Orthonormal.tr_mul hX] at this
  simp only [Pose.relative, M3.mul_mulVec, M3.mulVec_sub]
  apply V3.ext'
  · have := congrArg V3.x this; simp at this ⊢; linear_combination this
  · have := congrArg V3.y this; simp at this ⊢; linear_combination this
  · have := congrArg V3.z this; simp at this ⊢; linear_combination this

end

/-! ### C66 -/

section
variable {K : Type*} [Field K] [LinearOrder K] [IsStrictOrderedRing K] {g1 g2 : Geom K} {tf1 tf2 : Pose K} {t1 t2 : BT (OBB K) ℕ}

/-- The box is well-formed and contains the point. -/
def OBB.wpts (b : OBB K) : Set (V3 K) := {p | b.WF ∧ p ∈ b.pts}

/-- Boxes that enclose two touching triangles overlap at the relative pose. -/
theorem overlapAt_of_touch (w1 : g1.WF) (w2 : g2.WF) (r1 : tf1.Rigid) (r2 : tf2.Rigid)
    (h1 : Enclosing (Encloses OBB.wpts g1) t1) (h2 : Enclosing (Encloses OBB.wpts g2) t2) :
    ∀ u, BT.Below u t1 → ∀ v, BT.Below v t2 → ∀ i ∈ u.prims, ∀ j ∈ v.prims, MeshTouch g1 tf1 g2 tf2 i j →
      OBB.overlapAt (tf1.relative tf2).R (tf1.relative tf2).t u.bv v.bv = true := by
  rintro u hu v hv i hi j hj ⟨x, ⟨a, ha, ea⟩, b, hb, eb⟩
  obtain ⟨wu, pu⟩ := (h1 u hu i hi).now w1 ha
  obtain ⟨wv, pv⟩ := (h2 v hv j hj).now w2 hb
  exact OBB.C45_overlapAt (Pose.relative_rigid r1 r2) wu wv pu pv (Pose.relative_apply r1 (ea.symm.trans eb))

/-- **C66.** Collision of two meshes with oriented boxes at two rigid poses, from hierarchies that enclose their
triangles: the query ends; it reports only pairs of triangles that the triangle test reports; at most
`num_max_contacts`; and if it reports fewer, it reports every pair of triangles that touch at these poses and that the
test reports. Without contact information no pair is reported twice. -/
theorem C66_oriented_collide (w1 : g1.WF) (w2 : g2.WF) (m1 : g1.isMesh = true) (m2 : g2.isMesh = true)
    (r1 : tf1.Rigid) (r2 : tf2.Rigid)
    (h1 : Enclosing (Encloses OBB.wpts g1) t1) (h2 : Enclosing (Encloses OBB.wpts g2) t2)
    (p1 : t1.prims.Perm (List.range g1.numPrims)) (p2 : t2.prims.Perm (List.range g2.numPrims))
    (larger : OBB K → OBB K → Bool) {fuel : ℕ} (hf : t1.depth + t2.depth < fuel) (M : MeshPair K) (ho : M.occupied = true)
    (q : MeshRequest) :
    ∃ r : CollResult (ℕ × ℕ) K, orientedMeshCollide larger fuel g1 t1 tf1 g2 t2 tf2 M q CollResult.empty = .result r ∧
      (∀ c ∈ r.contacts, c.1 < g1.numPrims ∧ c.2 < g2.numPrims ∧ M.Reports q c.1 c.2) ∧
      r.contacts.length ≤ q.req.numMax ∧
      (r.contacts.length < q.req.numMax → ∀ i < g1.numPrims, ∀ j < g2.numPrims, MeshTouch g1 tf1 g2 tf2 i j →
        M.Reports q i j → (i, j) ∈ r.contacts) ∧
      (q.enableContact = false → r.contacts.Nodup) := by
  obtain ⟨r, e, h⟩ := mesh_collide_touch (overlapAt_of_touch w1 w2 r1 r2 h1 h2) p1 p2 larger hf M ho q
  refine ⟨r, ?_, h⟩
  have hs : q.req.isSatisfied (CollResult.empty : CollResult (ℕ × ℕ) K) = false := by
    simp [CollRequest.isSatisfied, CollResult.isCollision, CollResult.empty]
  simp only [orientedMeshCollide, hs, m1, m2, orientedNode_eq, e]
  simp

/-- **C66.** With a triangle test that is exact, `collide` on two such meshes finds a collision if and only if the
meshes, each at its pose, have a point in common. -/
theorem C66_iff (w1 : g1.WF) (w2 : g2.WF) (m1 : g1.isMesh = true) (m2 : g2.isMesh = true)
    (r1 : tf1.Rigid) (r2 : tf2.Rigid)
    (h1 : Enclosing (Encloses OBB.wpts g1) t1) (h2 : Enclosing (Encloses OBB.wpts g2) t2)
    (p1 : t1.prims.Perm (List.range g1.numPrims)) (p2 : t2.prims.Perm (List.range g2.numPrims))
    (larger : OBB K → OBB K → Bool) {fuel : ℕ} (hf : t1.depth + t2.depth < fuel) (M : MeshPair K) (ho : M.occupied = true)
    (q : MeshRequest) (hq : 0 < q.req.numMax)
    (hM : ∀ i < g1.numPrims, ∀ j < g2.numPrims, M.Reports q i j ↔ MeshTouch g1 tf1 g2 tf2 i j) :
    ∃ r : CollResult (ℕ × ℕ) K, orientedMeshCollide larger fuel g1 t1 tf1 g2 t2 tf2 M q CollResult.empty = .result r ∧
      (r.isCollision = true ↔ ∃ i < g1.numPrims, ∃ j < g2.numPrims, MeshTouch g1 tf1 g2 tf2 i j) := by
  obtain ⟨r, e, a1, -, a3, -⟩ := C66_oriented_collide w1 w2 m1 m2 r1 r2 h1 h2 p1 p2 larger hf M ho q
  refine ⟨r, e, ?_⟩
  simp only [CollResult.isCollision, decide_eq_true_eq]
  constructor
  · intro h
    obtain ⟨c, hc⟩ := List.exists_mem_of_length_pos h
    obtain ⟨hi, hj, hrep⟩ := a1 c hc
    exact ⟨c.1, hi, c.2, hj, (hM _ hi _ hj).1 hrep⟩
  · rintro ⟨i, hi, j, hj, hx⟩
    by_contra hn
    have hz : r.contacts.length = 0 := by omega
    have := a3 (by omega) i hi j hj hx ((hM i hi j hj).2 hx)
    rw [List.length_eq_zero_iff.1 hz] at this
    cases this

omit [IsStrictOrderedRing K] in
/-- **C66.** On a model without triangles the query reads a null pointer, unless it is satisfied from the start. -/
theorem C66_violated_points (hm : g1.isMesh = false ∨ g2.isMesh = false) (larger : OBB K → OBB K → Bool) (fuel : ℕ)
    (M : MeshPair K) (q : MeshRequest) {r : CollResult (ℕ × ℕ) K} (hr : q.req.isSatisfied r = false) :
    orientedMeshCollide larger fuel g1 t1 tf1 g2 t2 tf2 M q r = .undefinedBehaviour := by
  rcases hm with h | h <;> simp [orientedMeshCollide, hr, h]

end

section
variable {big : ℝ} {absorb : ℝ → ℝ → Bool} {junk : OBB ℝ}

theorem OBB.wpts_convex (b : OBB ℝ) (p q : V3 ℝ) (hp : p ∈ b.wpts) (hq : q ∈ b.wpts) (t : ℝ) (h0 : 0 ≤ t) (h1 : t ≤ 1) :
    (1 - t) • p + t • q ∈ b.wpts := by
  obtain ⟨w, y, y1, y2, y3, ey⟩ := hp
  obtain ⟨-, z, z1, z2, z3, ez⟩ := hq
  have key : ∀ {a b e : ℝ}, |a| ≤ e → |b| ≤ e → |(1 - t) * a + t * b| ≤ e := fun {a b e} ha hb => by
    rw [abs_le] at *
    constructor <;> nlinarith
  refine ⟨w, (1 - t) • y + t • z, ?_, ?_, ?_, ?_⟩
  · simpa using key y1 z1
  · simpa using key y2 z2
  · simpa using key y3 z3
  · rw [ey, ez]; v3

theorem below_prims_sublist {V P : Type*} {t u : BT V P} (h : BT.Below u t) : u.prims.Sublist t.prims := by
  induction h with
  | refl => exact List.Sublist.refl _
  | left _ ih => exact ih.trans (List.sublist_append_left _ _)
  | right _ ih => exact ih.trans (List.sublist_append_right _ _)

/-- A hierarchy whose volumes are fits of their primitives encloses them. -/
theorem obb_enclosing {g : Geom ℝ} (hfit : FitsAll big (Jacobi.eigenOld absorb) g) {t : BT (OBB ℝ) ℕ}
    (hp : t.prims.Perm (List.range g.numPrims))
    (hF : Fitted (obbFit big (Jacobi.eigenOld absorb) junk g) t) : Enclosing (Encloses OBB.wpts g) t := by
  intro u hu p hpu
  obtain ⟨l, hl, e⟩ := hF u hu
  have hpl : p ∈ l := hl.mem_iff.2 hpu
  have hsub := below_prims hu
  obtain ⟨b, hb⟩ := hfit l (List.ne_nil_of_mem hpl)
    (hl.nodup_iff.2 ((below_prims_sublist hu).nodup (hp.nodup_iff.2 List.nodup_range)))
    (fun p hp' => List.mem_range.1 (hp.mem_iff.1 (hsub p (hl.mem_iff.1 hp'))))
  have hv : u.bv = b := by rw [e, obbFit, hb]; rfl
  obtain ⟨hw, hm⟩ := OBB.C65_fitn big absorb hb
  rw [hv]
  refine encloses_of_convex (OBB.wpts_convex b) (fun x hx => ⟨hw, hm x ?_⟩) fun old ho x hx => ⟨hw, hm x ?_⟩
  · exact List.mem_flatMap.2 ⟨p, hpl, List.mem_append_left _ hx⟩
  · refine List.mem_flatMap.2 ⟨p, hpl, List.mem_append_right _ ?_⟩
    rw [ho]; exact hx

/-- **C66.** From the arrays of two meshes to the answer: whatever splitters are used and whatever is in the arrays
before, building both hierarchies of oriented boxes and running the query with an exact triangle test finds a
collision if and only if the meshes, each at its pose, have a point in common. -/
theorem C66_built {g1 g2 : Geom ℝ} (w1 : g1.WF) (w2 : g2.WF) (m1 : g1.isMesh = true) (m2 : g2.isMesh = true)
    (fit1 : FitsAll big (Jacobi.eigenOld absorb) g1) (fit2 : FitsAll big (Jacobi.eigenOld absorb) g2)
    (right1 right2 : OBB ℝ → List ℕ → ℕ → Bool) {bvs1 bvs2 : List (BVNode (OBB ℝ))} {prims1 prims2 : List ℕ}
    (b1 : 2 * g1.numPrims - 1 ≤ bvs1.length) (b2 : 2 * g2.numPrims - 1 ≤ bvs2.length)
    (l1 : g1.numPrims ≤ prims1.length) (l2 : g2.numPrims ≤ prims2.length) :
    ∃ s1 s2 t1 t2 ids1 ids2,
      buildTree (obbBuilder big (Jacobi.eigenOld absorb) junk g1 right1) g1.numPrims g1.numPrims bvs1 prims1 = some s1 ∧
      buildTree (obbBuilder big (Jacobi.eigenOld absorb) junk g2 right2) g2.numPrims g2.numPrims bvs2 prims2 = some s2 ∧
      IsTree s1.bvs s1.prims 0 0 g1.numPrims ids1 t1 ∧ IsTree s2.bvs s2.prims 0 0 g2.numPrims ids2 t2 ∧
      ∀ (tf1 tf2 : Pose ℝ), tf1.Rigid → tf2.Rigid → ∀ (larger : OBB ℝ → OBB ℝ → Bool) (M : MeshPair ℝ) (q : MeshRequest),
        M.occupied = true → 0 < q.req.numMax →
        (∀ i < g1.numPrims, ∀ j < g2.numPrims, M.Reports q i j ↔ MeshTouch g1 tf1 g2 tf2 i j) →
        ∃ r : CollResult (ℕ × ℕ) ℝ,
          orientedMeshCollide larger (g1.numPrims + g2.numPrims) g1 t1 tf1 g2 t2 tf2 M q CollResult.empty = .result r ∧
          (r.isCollision = true ↔ ∃ i < g1.numPrims, ∃ j < g2.numPrims, MeshTouch g1 tf1 g2 tf2 i j) := by
  have hn : ∀ {g : Geom ℝ}, g.isMesh = true → 1 ≤ g.numPrims := fun {g} h => by
    rw [Geom.numPrims, if_pos h]
    rw [Geom.isMesh] at h
    cases e : g.tris with
    | nil => rw [e] at h; cases h
    | cons => simp
  obtain ⟨v1, q1, t1, ids1, e1, -, -, i1, -, -, p1, d1, f1, -⟩ :=
    C31_build (obbBuilder big (Jacobi.eigenOld absorb) junk g1 right1) (hn m1) le_rfl b1 l1
  obtain ⟨v2, q2, t2, ids2, e2, -, -, i2, -, -, p2, d2, f2, -⟩ :=
    C31_build (obbBuilder big (Jacobi.eigenOld absorb) junk g2 right2) (hn m2) le_rfl b2 l2
  refine ⟨_, _, t1, t2, ids1, ids2, e1, e2, i1, i2, fun tf1 tf2 r1 r2 larger M q ho hq hM => ?_⟩
  exact C66_iff w1 w2 m1 m2 r1 r2 (obb_enclosing fit1 p1 f1) (obb_enclosing fit2 p2 f2) p1 p2 larger
    (by omega) M ho q hq hM

/-- **C66.** After the vertices were replaced, or moved with the old ones kept, top-down refitting gives a hierarchy of
oriented boxes that encloses every triangle: the hypothesis of `C66_oriented_collide` and `C66_iff`. (Bottom-up
refitting does not, see `OBB.C46_violated_near` and `OBB.C65_violated`.) -/
theorem C66_refit_topdown {g : Geom ℝ} (hfit : FitsAll big (Jacobi.eigenOld absorb) g)
    {bvs : List (BVNode (OBB ℝ))} {prims ids : List ℕ} {t : BT (OBB ℝ) ℕ}
    (h : IsTree bvs prims 0 0 g.numPrims ids t) (hp : t.prims.Perm (List.range g.numPrims))
    (hids : ids.Perm (List.range (2 * g.numPrims - 1))) (hl : bvs.length = 2 * g.numPrims - 1) :
    ∃ bvs' t', refitTopDown (obbFit big (Jacobi.eigenOld absorb) junk g) prims (2 * g.numPrims - 1) 0 bvs = some bvs' ∧
      SameTopology bvs bvs' ∧ IsTree bvs' prims 0 0 g.numPrims ids t' ∧ t'.prims = t.prims ∧
      Enclosing (Encloses OBB.wpts g) t' := by
  obtain ⟨bvs', t', e, hst, ht, hsh, hF⟩ := C32_topdown h hids hl (obbFit big (Jacobi.eigenOld absorb) junk g)
  have hpr : t'.prims = t.prims := by rw [← shape_prims, hsh, shape_prims]
  exact ⟨bvs', t', e, hst, ht, hpr, obb_enclosing hfit (hpr ▸ hp) hF⟩

end

/-! ### A concrete case -/

local macro "ex_cov" : tactic => `(tactic| (
  rw [OBB.covariance]
  simp only [List.map_cons, List.map_nil, List.foldl_cons, List.foldl_nil, List.length_cons, List.length_nil, M3.mk.injEq, V3.mk.injEq]
  norm_num))


section examples

/-- Two triangles that share an edge: a square. -/
def exSquare : Geom ℝ where
  verts := [⟨-1, 0, 0⟩, ⟨1, 0, 0⟩, ⟨0, 1, 0⟩, ⟨0, -1, 0⟩]
  prev := none
  tris := [(0, 1, 2), (0, 1, 3)]

theorem exSquare_wf : exSquare.WF := ⟨by simp [exSquare], by simp [exSquare]⟩

/-- On every set of its triangles the eigenvalue iteration succeeds, whatever the arithmetic absorbs. -/
theorem exSquare_fits (big : ℝ) (absorb : ℝ → ℝ → Bool) : FitsAll big (Jacobi.eigenOld absorb) exSquare := by
  intro l hne hnd hl
  have hn : exSquare.numPrims = 2 := rfl
  rw [hn] at hl
  have p0 : exSquare.primVerts 0 = [⟨-1, 0, 0⟩, ⟨1, 0, 0⟩, ⟨0, 1, 0⟩] := rfl
  have p1 : exSquare.primVerts 1 = [⟨-1, 0, 0⟩, ⟨1, 0, 0⟩, ⟨0, -1, 0⟩] := rfl
  have hd : ∃ d : V3 ℝ, OBB.covariance (l.flatMap exSquare.primVerts) = ⟨⟨d.x, 0, 0⟩, ⟨0, d.y, 0⟩, ⟨0, 0, d.z⟩⟩ := by
    have hlen : l.length ≤ 2 := by
      have := (List.Nodup.subperm hnd (fun p hp => List.mem_range.2 (hl p hp))).length_le
      simpa using this
    have h2 : ∀ p ∈ l, p = 0 ∨ p = 1 := fun p hp => by have := hl p hp; omega
    match l, hlen, hne, hnd, h2 with
    | [a], _, _, _, h2 =>
      rcases h2 a (by simp) with rfl | rfl
      · exact ⟨⟨2, 2/3, 0⟩, by simp only [List.flatMap_cons, List.flatMap_nil, p0, List.append_nil]; ex_cov⟩
      · exact ⟨⟨2, 2/3, 0⟩, by simp only [List.flatMap_cons, List.flatMap_nil, p1, List.append_nil]; ex_cov⟩
    | [a, b], _, _, hnd, h2 =>
      rcases h2 a (by simp) with rfl | rfl <;> rcases h2 b (by simp) with rfl | rfl
      · simp at hnd
      · exact ⟨⟨4, 2, 0⟩, by simp only [List.flatMap_cons, List.flatMap_nil, p0, p1, List.append_nil, List.cons_append, List.nil_append]; ex_cov⟩
      · exact ⟨⟨4, 2, 0⟩, by simp only [List.flatMap_cons, List.flatMap_nil, p0, p1, List.append_nil, List.cons_append, List.nil_append]; ex_cov⟩
      · simp at hnd
  obtain ⟨d, hd⟩ := hd
  rw [OBB.fitn, hd, Jacobi.eigenOld_diag absorb d]
  exact ⟨_, rfl⟩

/-- A quarter turn about the x axis. -/
def exTurn : Pose ℝ := ⟨⟨⟨1, 0, 0⟩, ⟨0, 0, -1⟩, ⟨0, 1, 0⟩⟩, ⟨1, 0, 0⟩⟩

theorem exTurn_rigid : exTurn.Rigid := by
  constructor <;> simp [exTurn, M3.mul, M3.tr, M3.col, M3.one, V3.dot, V3.get]

/-- The hypotheses of `C66_built` are met by two squares. -/
example (big : ℝ) (absorb : ℝ → ℝ → Bool) (junk : OBB ℝ) (right : OBB ℝ → List ℕ → ℕ → Bool) :=
  C66_built (junk := junk) exSquare_wf exSquare_wf rfl rfl (exSquare_fits big absorb) (exSquare_fits big absorb) right right
    (bvs1 := List.replicate 3 ⟨junk, 9, 9, 9⟩) (bvs2 := List.replicate 3 ⟨junk, 9, 9, 9⟩) (prims1 := [8, 8]) (prims2 := [8, 8])
    (Nat.le_refl 3) (Nat.le_refl 3) (by decide) (by decide)

/-- One at the origin and one turned and moved do touch, at (1/2, 0, 0). -/
example : MeshTouch exSquare Pose.id exSquare exTurn 0 1 := by
  have e1 : (exSquare.primIdx 0).filterMap (exSquare.verts[·]?) = [⟨-1, 0, 0⟩, ⟨1, 0, 0⟩, ⟨0, 1, 0⟩] := rfl
  have e2 : (exSquare.primIdx 1).filterMap (exSquare.verts[·]?) = [⟨-1, 0, 0⟩, ⟨1, 0, 0⟩, ⟨0, -1, 0⟩] := rfl
  refine ⟨⟨1/2, 0, 0⟩, ⟨⟨1/2, 0, 0⟩, ?_, ?_⟩, ⟨-1/2, 0, 0⟩, ?_, ?_⟩
  · show HullOf _ _
    rw [e1, hull_triangle]
    exact ⟨1/4, 3/4, 0, by norm_num, by norm_num, by norm_num, by norm_num, V3.ext' (by norm_num) (by norm_num) (by norm_num)⟩
  · apply V3.ext' <;> simp [Pose.apply, Pose.id, M3.one, M3.mulVec, V3.dot]
  · show HullOf _ _
    rw [e2, hull_triangle]
    exact ⟨3/4, 1/4, 0, by norm_num, by norm_num, by norm_num, by norm_num, V3.ext' (by norm_num) (by norm_num) (by norm_num)⟩
  · apply V3.ext' <;> norm_num [Pose.apply, exTurn, M3.mulVec, V3.dot]

end examples

end Fcl
