import Verif.BVH.MeshShapeDistSpec
import Verif.BVH.MeshDistLemmas
import Verif.Props.MeshShape

/-!
# C95: the distance of a mesh and a shape
-/

namespace Fcl
open V3
variable {V O : Type*}

/-- What a leaf test offers: the distance, the point of the mesh and the point of the shape. -/
noncomputable def offered (o : Prim.TriOut) (junk : ℝ × V3 ℝ × V3 ℝ) : ℝ × V3 ℝ × V3 ℝ :=
  (o.dist.getD junk.1, (o.pts.map Prod.snd).getD junk.2.1, (o.pts.map Prod.fst).getD junk.2.2)

/-- The result that goes with the best leaf found so far. -/
noncomputable def viewShape (tri : ℕ → ℝ × V3 ℝ × V3 ℝ) (o1 o2 : O) (r : MeshDistResult O)
    (s : BestPair ℝ (BT V ℕ) (BT Unit Unit)) : MeshDistResult O :=
  match s.pair with
  | none => { r with minDist := s.minDistance }
  | some (a, _) => ⟨s.minDistance, (tri a.primD).2, some o1, some o2, a.primD, -1⟩

/-- What the traversal finds: a result that is as small as the distance of every triangle, and that is the old one or the one of a
triangle at a smaller distance. -/
theorem shapeTraversal {bvDist : V → ℝ} {o : ℕ → Prim.TriOut} {junk : ℕ → ℝ × V3 ℝ × V3 ℝ} (o1 o2 : O) {tri : ℕ → ℝ × V3 ℝ × V3 ℝ}
    {t : BT V ℕ} (ht : tri = fun i => offered (o i) (junk i))
    (hB : ∀ u, BT.Below u t → ∀ i ∈ u.prims, bvDist u.bv ≤ (tri i).1) {fuel : ℕ} (hf : t.depth < fuel) (r : MeshDistResult O) :
    ∃ r', distanceRecurse (shapeDistNode bvDist o junk o1 o2) Trav.bvhShape fuel t (.leaf () ()) (r, none) = some (r', none) ∧
      (∀ i ∈ t.prims, r'.minDist ≤ (tri i).1) ∧
      (r' = r ∨ ∃ i ∈ t.prims, (tri i).1 < r.minDist ∧ r' = ⟨(tri i).1, (tri i).2, some o1, some o2, i, -1⟩) := by
  have hB' : LowerBounds (fun (a : BT V ℕ) (_ : BT Unit Unit) => bvDist a.bv) (fun a _ => (tri a.primD).1) t (.leaf () ()) := by
    intro u v hu hv p hp
    obtain ⟨h1, -⟩ := List.mem_product.1 hp
    obtain ⟨_, i, e1, hi⟩ := leaves_prim h1
    rw [e1]
    exact hB u hu i hi
  obtain ⟨s', L, e, w, -⟩ := distanceRecurse_ok (absErr := (0 : ℝ)) (relErr := 0) (by simp) follows_bvhShape fuel rfl
    hB' hf (⟨r.minDist, none⟩, none)
  have sim := distanceRecurse_sim (N := meshDistNode (fun (a : BT V ℕ) (_ : BT Unit Unit) => bvDist a.bv)
      (fun (a : BT V ℕ) (_ : BT Unit Unit) => (tri a.primD).1) 0 0) (M := shapeDistNode bvDist o junk o1 o2) Trav.bvhShape
    (viewShape tri o1 o2 r) rfl (by
      intro s a b ha hb
      cases a with
      | node => exact absurd ha Bool.false_ne_true
      | leaf bva i =>
        rcases s with ⟨m, pr⟩
        have k : ∀ r : MeshDistResult O, shapeOffer o1 o2 (junk i) i (o i) r = r.update ⟨(tri i).1, some o1, some o2, i, -1, some (tri i).2⟩ := by
          intro r; rw [ht]; rfl
        by_cases h : (tri i).1 < m <;> rcases pr with _ | ⟨x, y⟩ <;>
          simp [shapeDistNode, meshDistNode, k, DistResult.update, viewShape, BT.primD, BT.prim?, h])
    (by
      intro s c
      rcases s with ⟨m, _ | ⟨x, y⟩⟩ <;> rfl)
    fuel t (.leaf () ()) ⟨r.minDist, none⟩ none
  have e0 : viewShape tri o1 o2 r (⟨r.minDist, none⟩ : BestPair ℝ (BT V ℕ) (BT Unit Unit)) = r := rfl
  rw [e0, e] at sim
  refine ⟨_, sim, fun i hi => ?_, ?_⟩
  · obtain ⟨b1, m1⟩ := prims_leaf hi
    have hm : (viewShape tri o1 o2 r s').minDist = s'.minDistance := by
      rcases s' with ⟨m, _ | ⟨x, y⟩⟩ <;> rfl
    rw [hm]
    rcases w.near (_, .leaf () ()) (List.mem_product.2 ⟨m1, by simp [BT.leaves]⟩) with h | h
    · exact h
    · have := h.1
      rw [add_zero] at this
      exact this
  · rcases w.found with h | ⟨p, hp, h, hlt⟩
    · left
      rw [h]
      exact e0
    · right
      obtain ⟨h1, -⟩ := List.mem_product.1 hp
      obtain ⟨_, i, e1, hi⟩ := leaves_prim h1
      rw [h, e1] at hlt
      refine ⟨i, hi, hlt, ?_⟩
      rw [h]
      obtain ⟨p1, p2⟩ := p
      simp only at e1
      subst e1
      rfl

variable {g : Geom ℝ} {vol : OVol V} {wpts : V → Set (V3 ℝ)} {ok : V3 ℝ → Prop}

/-- What is asked of the call of `shapeTriangleDistance` for a triangle `A` that does not touch the shape `B`: the distance, a point of the
shape in its frame, and a point of the triangle in the frame of the mesh. -/
def TriDistOK (A B : Set (V3 ℝ)) (tf1 tf2 : Pose ℝ) (o : Prim.TriOut) : Prop :=
  ∃ d p q, o.dist = some d ∧ o.pts = some (p, q) ∧ 0 < d ∧ IsDist A B d (tf1.apply q) (tf2.apply p)

theorem TriDistOK.offered {A B : Set (V3 ℝ)} {tf1 tf2 : Pose ℝ} {o : Prim.TriOut} (h : TriDistOK A B tf1 tf2 o) (junk : ℝ × V3 ℝ × V3 ℝ) :
    0 < (offered o junk).1 ∧ IsDist A B (Fcl.offered o junk).1 (tf1.apply (Fcl.offered o junk).2.1) (tf2.apply (Fcl.offered o junk).2.2) := by
  obtain ⟨d, p, q, e1, e2, h0, h1⟩ := h
  simp only [Fcl.offered, e1, e2, Option.getD_some, Option.map_some]
  exact ⟨h0, h1⟩

/-- **C95.** Whatever splitter is used and whatever is in the arrays before, the hierarchy is built; and then at every pose, for every
volume that encloses the shape and every exact test of triangles: the result is what `ShapeDistFound` asks for. -/
theorem C95_oriented (hs : vol.Sound wpts ok) (w : g.WF) (m : g.isMesh = true) (k : ∀ p < g.numPrims, ∀ x ∈ g.primVerts p, ok x)
    (f : vol.FitsAll g) : vol.Built g fun t => ∀ (tf1 tf2 : Pose ℝ), tf1.Rigid → ∀ (B : Set (V3 ℝ)) (bv2 : V), B ⊆ wpts bv2 →
      ∀ (tri : ℕ → Prim.TriOut), (∀ i < g.numPrims, TriDistOK (g.placed tf1 i) B tf1 tf2 (tri i)) →
      ∃ d p q, 0 < d ∧ IsDist (unionOf g.numPrims (g.placed tf1)) B d p q ∧
        ∀ (o1 o2 : O) (junk0 : ℝ × V3 ℝ × V3 ℝ) (junk : ℕ → ℝ × V3 ℝ × V3 ℝ) (r : MeshDistResult O), 0 < r.minDist →
        ∃ r', vol.shapeDistance g.numPrims o1 g t tf1 o2 bv2 tri junk0 junk r = .result r' ∧
          ShapeDistFound g.numPrims (g.placed tf1) B tf1 tf2 o1 o2 d r r' := by
  intro junkV right bvs prims hb hl
  obtain ⟨v, qs, t, ids, e, -, -, it, -, -, pr, dp, F, -⟩ := C31_build (vol.builder junkV g right) (OVol.mesh_pos m) le_rfl hb hl
  refine ⟨_, t, ids, e, it, fun tf1 tf2 r1 B bv2 hB tri htri => ?_⟩
  have E := hs.enclosing k f pr F
  have mem : ∀ {i}, i ∈ t.prims ↔ i < g.numPrims := fun {i} => by rw [pr.mem_iff, List.mem_range]
  have hn : 0 < g.numPrims := OVol.mesh_pos m
  have T := fun (junk : ℕ → ℝ × V3 ℝ × V3 ℝ) (i : ℕ) (hi : i < g.numPrims) => (htri i hi).offered (junk i)
  have hlow : ∀ (junk : ℕ → ℝ × V3 ℝ × V3 ℝ) u, BT.Below u t → ∀ i ∈ u.prims, vol.distAt tf1 bv2 u.bv ≤ (offered (tri i) (junk i)).1 := by
    intro junk u hu i hi
    obtain ⟨-, h⟩ := T junk i (mem.1 (below_prims hu i hi))
    rw [← h.attained, V3.dist_comm]
    obtain ⟨y, hy, ey⟩ := h.left
    rw [ey]
    exact hs.dist r1 (hB h.right) ((E u hu i hi).now w hy)
  have run := fun (junk : ℕ → ℝ × V3 ℝ × V3 ℝ) (o1 o2 : O) => shapeTraversal (junk := junk) o1 o2 (o := tri) rfl (hlow junk) (fuel := g.numPrims) (by omega)
  -- the smallest distance
  obtain ⟨i0, h0, hmin⟩ : ∃ i < g.numPrims, ∀ j < g.numPrims, (offered (tri i) (0, 0, 0)).1 ≤ (offered (tri j) (0, 0, 0)).1 := by
    obtain ⟨r', -, hle, h⟩ := shapeTraversal (junk := fun _ => (0, 0, 0)) () () (o := tri) rfl (hlow _) (fuel := g.numPrims) (by omega)
      ⟨(offered (tri 0) (0, 0, 0)).1 + 1, (0, 0), none, none, 0, 0⟩
    have h00 := hle 0 (mem.2 hn)
    rcases h with rfl | ⟨i, hi, -, rfl⟩
    · simp only at h00
      linarith
    · exact ⟨i, mem.1 hi, fun j hj => hle j (mem.2 hj)⟩
  obtain ⟨hpos, hd⟩ := T (fun _ => (0, 0, 0)) i0 h0
  refine ⟨_, _, _, hpos, ⟨⟨i0, h0, hd.left⟩, hd.right, hd.attained, ?_⟩, fun o1 o2 junk0 junk r hr => ?_⟩
  · rintro a ⟨i, hi, ha⟩ b hb
    exact (hmin i hi).trans ((T (fun _ => (0, 0, 0)) i hi).2.least a ha b hb)
  · obtain ⟨D, hD⟩ : ∃ D, D = (offered (tri i0) (0, 0, 0)).1 := ⟨_, rfl⟩
    have same : ∀ i < g.numPrims, ∀ junk, (offered (tri i) junk).1 = (offered (tri i) (0, 0, 0)).1 := by
      intro i hi junk
      obtain ⟨d, p, q, e1, -⟩ := htri i hi
      simp [offered, e1]
    rw [← hD]
    obtain ⟨r', e', hle, h⟩ := run junk o1 o2 (shapeOffer o1 o2 junk0 0 (tri 0) r)
    have hDle : r'.minDist ≤ D := by
      have := hle i0 (mem.2 h0)
      rwa [same i0 h0, ← hD] at this
    have hge : ∀ i < g.numPrims, ∀ junk, D ≤ (offered (tri i) junk).1 := by
      intro i hi junk
      rw [same i hi, hD]
      exact hmin i hi
    refine ⟨r', ?_, ?_⟩
    · rw [OVol.shapeDistance, if_neg (not_le.2 hr)]
      simp only [m, Bool.not_true, Bool.false_eq_true, if_false, e']
    -- a triangle whose distance is `D` and which is the one reported
    have found : ∀ i < g.numPrims, ∀ jk, (offered (tri i) jk).1 < r.minDist →
        r' = ⟨(offered (tri i) jk).1, (offered (tri i) jk).2, some o1, some o2, i, -1⟩ →
        ShapeDistFound g.numPrims (g.placed tf1) B tf1 tf2 o1 o2 D r r' := by
      intro i hi jk hlt hr'
      have hii : (offered (tri i) jk).1 = D := le_antisymm (by rw [hr'] at hDle; exact hDle) (hge i hi jk)
      have hh := ((htri i hi).offered jk).2
      rw [hii] at hlt hh
      rw [hr']
      refine ⟨?_, fun h => absurd hlt (not_lt.2 h), fun _ => ⟨rfl, rfl, rfl⟩, fun _ => ⟨i, hi, rfl, hh⟩⟩
      rw [min_eq_right hlt.le]
      exact hii
    have hoff : shapeOffer o1 o2 junk0 0 (tri 0) r = if (offered (tri 0) junk0).1 < r.minDist then
        ⟨(offered (tri 0) junk0).1, (offered (tri 0) junk0).2, some o1, some o2, (0 : ℕ), -1⟩ else r := by
      simp only [shapeOffer, DistResult.update, offered]
      split <;> simp_all
    rw [hoff] at h
    rcases h with h | ⟨i, hi, hlt, h⟩
    · split at h
      · rename_i hlt
        exact found 0 hn junk0 hlt h
      · rw [h] at hDle ⊢
        exact ⟨(min_eq_left hDle).symm, fun _ => rfl, fun h => absurd h (not_lt.2 hDle), fun h => absurd h (not_lt.2 hDle)⟩
    · refine found i (mem.1 hi) (junk i) ?_ h
      split at hlt
      · rename_i h'
        exact hlt.trans h'
      · exact hlt

namespace OVol
variable {big prec eps : ℝ} {absorb : ℝ → ℝ → Bool}

theorem Sound.sphereDist (hs : vol.Sound wpts ok) (w : g.WF) (m : g.isMesh = true) (p : g.Proper)
    (k : ∀ p < g.numPrims, ∀ x ∈ g.primVerts p, ok x) (f : vol.FitsAll g) {near : ℝ → Pose ℝ → Prop} {bv : ℝ → Pose ℝ → Option V}
    (hbv : ∀ rad X b, 0 ≤ rad → X.Rigid → near rad X → bv rad X = some b → ∀ p ∈ Placed X.R X.t (Geo.sphere rad).pts, p ∈ wpts b) :
    vol.DistancesSphere near bv g := by
  intro junkV right bvs prims hb hl
  obtain ⟨s, t, ids, e, it, h⟩ := C95_oriented (O := ℕ) hs w m k f junkV right bvs prims hb hl
  refine ⟨s, t, ids, e, it, fun tf1 tf2 r1 r2 rad hr hn bv2 eb B hB hno => ?_⟩
  refine h tf1 tf2 r1 B bv2 (fun x hx => hbv rad tf2 bv2 hr r2 hn eb x (hB ▸ hx)) _ fun i hi => ?_
  have key := Prim.C93_posed hr r2 r1 (p i hi)
  rw [← Geom.placed_triangle w m tf1 hi, ← hB] at key
  obtain ⟨d, x, y, e1, e2, h0, h1⟩ := key.apart (key.ret.2 fun h => hno i hi (touch_symm.1 h))
  exact ⟨d, x, y, e1, e2, h0, ⟨h1.right, h1.left, by rw [V3.dist_comm]; exact h1.attained, fun a ha b hb => by
    rw [V3.dist_comm]; exact h1.least b hb a ha⟩⟩

/-- **C95.** Spheres and meshes with RSSs. -/
theorem C95_sphere_rss_partial (he : 0 < eps) (w : g.WF) (m : g.isMesh = true) (p : g.Proper) (f : Fcl.FitsAll big (Jacobi.eigenOld absorb) g) (prec : ℝ) :
    (rss eps (Jacobi.eigenOld absorb)).DistancesSphere (fun _ _ => True) (fun rad X => ComputeBV.rss big prec (Jacobi.eigenOld absorb) (.sphere rad) X) g :=
  (rss_sound he).sphereDist w m p (fun _ _ _ _ => trivial) (rss_fits f w m).1 fun rad _ _ hr hX _ e x hx => by
    obtain ⟨w, h⟩ := C89_rss_partial (g := .sphere rad) hr trivial trivial hX e
    exact ⟨w, h hx⟩

/-- **C95.** Spheres and meshes with OBBRSSs. -/
theorem C95_sphere_obbrss_partial (he : 0 < eps) (w : g.WF) (m : g.isMesh = true) (p : g.Proper) (f : Fcl.FitsAll big (Jacobi.eigenOld absorb) g) (prec : ℝ) :
    (obbrss big eps (Jacobi.eigenOld absorb)).DistancesSphere (fun _ _ => True)
      (fun rad X => ComputeBV.obbrss big prec (Jacobi.eigenOld absorb) (.sphere rad) X) g :=
  (obbrss_sound he).sphereDist w m p (fun _ _ _ _ => trivial) (rss_fits f w m).2.1 fun rad _ _ hr hX _ e x hx => by
    obtain ⟨w, h⟩ := C89_obbrss_partial (g := .sphere rad) hr trivial trivial hX e
    exact ⟨w, h hx⟩

/-- **C95.** Spheres and meshes with kIOSs, if no vertex of the mesh and no bound vertex of the sphere is further from the origin than
the greatest representable number. -/
theorem C95_sphere_kios_partial (w : g.WF) (m : g.isMesh = true) (p : g.Proper) (k : ∀ p < g.numPrims, ∀ x ∈ g.primVerts p, x.nrm ≤ big)
    (f : Fcl.FitsAll big (Jacobi.eigenOld absorb) g) (prec : ℝ) :
    (kios big (Jacobi.eigenOld absorb)).DistancesSphere (fun rad X => ∀ p ∈ (Geo.sphere rad).boundVertices X, p.nrm ≤ big)
      (fun rad X => ComputeBV.kios big prec (Jacobi.eigenOld absorb) (.sphere rad) X) g :=
  kios_sound.sphereDist w m p k (rss_fits (eps := 1) f w m).2.2 fun rad _ _ hr hX hn e x hx => by
    obtain ⟨w, h⟩ := C89_kios_partial (g := .sphere rad) hr trivial trivial hX hn e
    exact ⟨w, h hx⟩

end OVol

/-! ### What does not hold -/

/-- **C95, violated.** A sphere that touches the mesh: if the only triangle touches it, the query reports as distance whatever
number the uninitialised variable holds, if it is smaller than the distance in the result. -/
theorem C95_violated_contact (m : g.isMesh = true) (w : g.WF) (p : g.Proper) {tf1 tf2 : Pose ℝ} (r1 : tf1.Rigid) (r2 : tf2.Rigid) {rad : ℝ}
    (hr : 0 ≤ rad) (ht : Touch (g.placed tf1 0) (Placed tf2.R tf2.t (Geo.sphere rad).pts)) (vol : OVol V) (bv bv2 : V) (o1 o2 : O)
    (x : ℝ) (a b : V3 ℝ) (r : MeshDistResult O) (h0 : 0 < r.minDist) (hx : x < r.minDist) :
    ∃ r', vol.shapeDistance 1 o1 g (.leaf bv 0) tf1 o2 bv2 (sphereMeshDist rad tf2 g tf1) (x, a, b) (fun _ => (x, a, b)) r = .result r' ∧
      r'.minDist = x ∧ r'.nearest = (a, b) := by
  have hn : 0 < g.numPrims := OVol.mesh_pos m
  have e : sphereMeshDist rad tf2 g tf1 0 = ⟨false, none, none⟩ := by
    rw [sphereMeshDist, Prim.sphereTrianglePosed, Prim.C93_violated_contact hr r2 (Prim.area_apply r1 (p 0 hn)) ?_]
    · rfl
    · rw [← Prim.triangle_placed, ← Geom.placed_triangle w m tf1 hn]
      exact touch_symm.1 ht
  have e1 : shapeOffer o1 o2 (x, a, b) 0 ⟨false, none, none⟩ r = ⟨x, (a, b), some o1, some o2, (0 : ℕ), -1⟩ := by
    simp [shapeOffer, DistResult.update, hx]
  have e2 : shapeOffer o1 o2 (x, a, b) 0 ⟨false, none, none⟩ (⟨x, (a, b), some o1, some o2, (0 : ℕ), -1⟩ : MeshDistResult O) =
      ⟨x, (a, b), some o1, some o2, (0 : ℕ), -1⟩ := by
    simp [shapeOffer, DistResult.update]
  refine ⟨⟨x, (a, b), some o1, some o2, (0 : ℕ), -1⟩, ?_, rfl, rfl⟩
  rw [OVol.shapeDistance, if_neg (not_le.2 h0)]
  simp only [m, Bool.not_true, Bool.false_eq_true, if_false, e, e1, distanceRecurse, Trav.bvhShape, BT.isLeaf, Bool.and_self, if_true, shapeDistNode, e2]

/-- **C95, violated.** The nearest points are not in the world frame, as they are promised to be (narrowphase/distance_result.h 66):
when the mesh at its pose does not meet the mesh at the identity, the first point is not on the mesh at its pose. -/
theorem C95_violated_world {tf1 tf2 : Pose ℝ} (r1 : tf1.Rigid) {B : Set (V3 ℝ)} {o1 o2 : O} {d : ℝ} {r r' : MeshDistResult O}
    (h : ShapeDistFound g.numPrims (g.placed tf1) B tf1 tf2 o1 o2 d r r') (hd : d < r.minDist)
    (hdis : ∀ x ∈ unionOf g.numPrims g.solid, x ∉ unionOf g.numPrims (g.placed tf1)) :
    r'.nearest.1 ∉ unionOf g.numPrims (g.placed tf1) := by
  obtain ⟨i, hi, -, hD⟩ := h.prim hd
  obtain ⟨y, hy, e⟩ := hD.left
  rw [Pose.apply_injective r1 e]
  exact hdis y ⟨i, hi, hy⟩

/-- **C95, violated.** A cloud of points (no triangles) makes the query read a null pointer. -/
theorem C95_violated_point_cloud {vol : OVol V} {fuel : ℕ} {t : BT V ℕ} (h : g.isMesh = false) (tf1 : Pose ℝ) (o1 o2 : O) (bv2 : V) (tri : ℕ → Prim.TriOut)
    (junk0 : ℝ × V3 ℝ × V3 ℝ) (junk : ℕ → ℝ × V3 ℝ × V3 ℝ) {r : MeshDistResult O} (hr : 0 < r.minDist) :
    vol.shapeDistance fuel o1 g t tf1 o2 bv2 tri junk0 junk r = .undefinedBehaviour := by
  rw [OVol.shapeDistance, if_neg (not_le.2 hr), h]
  rfl

/-! ### Concrete cases -/

/-- A square and a sphere, in all positions in which they do not touch. -/
example {big eps : ℝ} (he : 0 < eps) (prec : ℝ) (absorb : ℝ → ℝ → Bool) :
    (OVol.rss eps (Jacobi.eigenOld absorb)).DistancesSphere (fun _ _ => True)
      (fun rad X => ComputeBV.rss big prec (Jacobi.eigenOld absorb) (.sphere rad) X) exSquare :=
  OVol.C95_sphere_rss_partial he exSquare_wf rfl exSquare_proper (exSquare_fits big absorb) prec

theorem exSquare_z {x : V3 ℝ} (h : x ∈ unionOf exSquare.numPrims exSquare.solid) : x.z = 0 := by
  obtain ⟨i, hi, hx⟩ := h
  rw [Geom.solid_eq exSquare_wf rfl hi] at hx
  obtain ⟨u, v, w, -, -, -, -, rfl⟩ := (hull_triangle _ _ _ _).1 hx
  have hi' : i = 0 ∨ i = 1 := by
    have : exSquare.numPrims = 2 := rfl
    omega
  rcases hi' with rfl | rfl <;> simp [exSquare, Geom.tri]

/-- The square at height 100 and the unit sphere about (0, 0, 105): the distance is 4, and the first point reported is not on the
square. -/
theorem C95_violated_square {big eps : ℝ} (he : 0 < eps) (prec : ℝ) (absorb : ℝ → ℝ → Bool) :
    (OVol.rss eps (Jacobi.eigenOld absorb)).Built exSquare fun t => ∀ bv2,
      ComputeBV.rss big prec (Jacobi.eigenOld absorb) (.sphere 1) ⟨M3.one, ⟨0, 0, 105⟩⟩ = some bv2 →
      ∀ (o1 o2 : ℕ) (junk0 : ℝ × V3 ℝ × V3 ℝ) (junk : ℕ → ℝ × V3 ℝ × V3 ℝ) (r : MeshDistResult ℕ), 4 < r.minDist →
      ∃ r', (OVol.rss eps (Jacobi.eigenOld absorb)).shapeDistance 2 o1 exSquare t ⟨M3.one, ⟨0, 0, 100⟩⟩ o2 bv2
          (sphereMeshDist 1 ⟨M3.one, ⟨0, 0, 105⟩⟩ exSquare ⟨M3.one, ⟨0, 0, 100⟩⟩) junk0 junk r = .result r' ∧ r'.minDist = 4 ∧
        r'.nearest.1 ∉ unionOf 2 (exSquare.placed ⟨M3.one, ⟨0, 0, 100⟩⟩) := by
  intro junkV right bvs prims hb hl
  obtain ⟨s, t, ids, e, it, h⟩ := OVol.C95_sphere_rss_partial (big := big) he exSquare_wf rfl exSquare_proper (exSquare_fits big absorb) prec
    junkV right bvs prims hb hl
  refine ⟨s, t, ids, e, it, fun bv2 eb o1 o2 junk0 junk r hr => ?_⟩
  have hin : ∀ x ∈ unionOf exSquare.numPrims (exSquare.placed ⟨M3.one, ⟨0, 0, 100⟩⟩), x.z = 100 := by
    rintro x ⟨i, hi, y, hy, rfl⟩
    have := exSquare_z ⟨i, hi, hy⟩
    rw [exPose_apply]
    simp [this]
  have hB : Placed (M3.one : M3 ℝ) ⟨0, 0, 105⟩ (Geo.sphere 1).pts = Thick {⟨0, 0, 105⟩} 1 :=
    placed_ball (X := ⟨M3.one, ⟨0, 0, 105⟩⟩) (exDistPose_rigid _) zero_le_one
  have hz : ∀ y ∈ Thick {(⟨0, 0, 105⟩ : V3 ℝ)} 1, 104 ≤ y.z := by
    rintro y ⟨o, rfl, hy⟩
    rw [dist_eq, V3.nrm_le_iff zero_le_one] at hy
    simp only [V3.dot, V3.sub_x, V3.sub_y, V3.sub_z] at hy
    nlinarith [mul_self_nonneg (y.x - 0), mul_self_nonneg (y.y - 0)]
  obtain ⟨d, p, q, hd0, hd, run⟩ := h ⟨M3.one, ⟨0, 0, 100⟩⟩ ⟨M3.one, ⟨0, 0, 105⟩⟩ (exDistPose_rigid _) (exDistPose_rigid _) 1 zero_le_one trivial bv2 eb
    (Thick {⟨0, 0, 105⟩} 1) hB.symm (fun i hi ⟨x, hx, hx2⟩ => by
      have h1 := hin x ⟨i, hi, hx⟩
      have h2 := hz x hx2
      linarith)
  have hd4 : d = 4 := by
    apply le_antisymm
    · have m1 : (⟨0, 0, 100⟩ : V3 ℝ) ∈ unionOf exSquare.numPrims (exSquare.placed ⟨M3.one, ⟨0, 0, 100⟩⟩) := by
        have h0 : 0 < exSquare.numPrims := by decide
        refine ⟨0, h0, ⟨0, 0, 0⟩, ?_, ?_⟩
        · rw [Geom.solid_eq exSquare_wf rfl h0]
          refine (hull_triangle _ _ _ _).2 ⟨1 / 2, 1 / 2, 0, by norm_num, by norm_num, le_rfl, by norm_num, ?_⟩
          apply V3.ext' <;> simp [exSquare, Geom.tri]
        · rw [exPose_apply]; apply V3.ext' <;> simp
      have m2 : (⟨0, 0, 104⟩ : V3 ℝ) ∈ Thick {(⟨0, 0, 105⟩ : V3 ℝ)} 1 :=
        ⟨_, rfl, by rw [dist_eq, V3.nrm_le_iff zero_le_one]; norm_num [V3.dot]⟩
      have := hd.least _ m1 _ m2
      have e : (⟨0, 0, 100⟩ : V3 ℝ).dist ⟨0, 0, 104⟩ ≤ 4 := by rw [dist_eq, V3.nrm_le_iff (by norm_num)]; norm_num [V3.dot]
      linarith
    · have h1 := hin p hd.left
      have h2 := hz q hd.right
      by_contra hlt
      push Not at hlt
      have := hd.attained
      rw [← this, dist_eq] at hlt
      have h3 := (V3.nrm_le_iff (by norm_num : (0 : ℝ) ≤ 4)).1 hlt.le
      have h4 : (q.z - p.z) * (q.z - p.z) ≤ 4 * 4 := by
        refine le_trans ?_ h3
        simp only [V3.dot, V3.sub_x, V3.sub_y, V3.sub_z]
        nlinarith [mul_self_nonneg (p.x - q.x), mul_self_nonneg (p.y - q.y)]
      have h5 : q.z - p.z = 4 := by nlinarith
      have h6 : (4 : ℝ) ≤ (p - q).nrm := by
        by_contra hc
        push Not at hc
        have := V3.nrm_mul_self (p - q)
        have h7 : (p - q).nrm * (p - q).nrm < 4 * 4 := by nlinarith [V3.nrm_nonneg (p - q)]
        rw [this] at h7
        simp only [V3.dot, V3.sub_x, V3.sub_y, V3.sub_z] at h7
        nlinarith [mul_self_nonneg (p.x - q.x), mul_self_nonneg (p.y - q.y)]
      linarith
  subst hd4
  obtain ⟨r', er, hf⟩ := run o1 o2 junk0 junk r (by linarith)
  refine ⟨r', er, by rw [hf.min, min_eq_right hr.le], C95_violated_world (g := exSquare) (exDistPose_rigid _) hf hr fun x hx hx' => ?_⟩
  have h1 := exSquare_z hx
  have h2 := hin x hx'
  linarith

end Fcl
