import Verif.BVH.MeshDistLemmas
import Verif.Props.TriDist

/-! # C84: the distance of two meshes -/

namespace Fcl
open V3

theorem Tri.triOK {thin : ℝ} (ht : 0 ≤ thin) {T1 T2 : Tri ℝ} (h1 : T1.nor ≠ 0 → thin < T1.nor.dot T1.nor)
    (h2 : T2.nor ≠ 0 → thin < T2.nor.dot T2.nor) : TriOK T1.pts T2.pts (Tri.triDist thin T1 T2) := by
  obtain ⟨-, m1, m2, -⟩ := Tri.C83_any ht T1 T2
  obtain ⟨h3, h4, -⟩ := Tri.C83_distance_partial ht h1 h2
  exact ⟨m1, m2, h3, h4⟩

variable {V O : Type*} {g1 g2 : Geom ℝ} {t1 t2 : BT V ℕ} {thin : ℝ}

/-- **C84.** The distance query of two meshes given by hierarchies whose volumes enclose their triangles, with a distance
of volumes that is a lower bound for the distance of their points: for meshes of degenerate triangles and of triangles
with a normal of square greater than `1e-15`, the query ends, and the result is the distance of the two meshes with
two triangles and, if asked for, two points at that distance (`MeshFound`), whatever was in the result before. -/
theorem C84_mesh_partial (ht : 0 ≤ thin) (w1 : g1.WF) (w2 : g2.WF) (m1 : g1.isMesh = true) (m2 : g2.isMesh = true)
    (k1 : g1.Thick thin) (k2 : g2.Thick thin) {pts : V → Set (V3 ℝ)} {bvDist : V → V → ℝ}
    (hbv : ∀ u v, ∀ p ∈ pts u, ∀ q ∈ pts v, bvDist u v ≤ p.dist q)
    (e1 : Enclosing (Encloses pts g1) t1) (e2 : Enclosing (Encloses pts g2) t2)
    (p1 : t1.prims.Perm (List.range g1.numPrims)) (p2 : t2.prims.Perm (List.range g2.numPrims))
    (n1 : 0 < g1.numPrims) (n2 : 0 < g2.numPrims) (larger : V → V → Bool) {fuel : ℕ} (hf : t1.depth + t2.depth < fuel)
    (points : Bool) (o1 o2 : O) :
    ∃ d p q, IsDist (unionOf g1.numPrims g1.solid) (unionOf g2.numPrims g2.solid) d p q ∧
      ∀ r : MeshDistResult O, 0 < r.minDist →
        ∃ r', meshDistance bvDist larger thin fuel points o1 g1 t1 o2 g2 t2 r = .result r' ∧
          MeshFound g1.numPrims g2.numPrims g1.solid g2.solid points o1 o2 d r r' := by
  obtain ⟨d, p, q, h, run⟩ := traversal_found (bvDist := bvDist) (tri := fun i j => Tri.triDist thin (g1.tri i) (g2.tri j))
    (A := g1.solid) (B := g2.solid) points o1 o2 p1 p2 n1 n2 (fun i hi j hj => by
      rw [Geom.solid_eq w1 m1 hi, Geom.solid_eq w2 m2 hj]
      exact Tri.triOK ht (k1 i hi) (k2 j hj))
    (fun u v hu hv i hi j hj a ha b hb => hbv _ _ a ((e1 u hu i hi).now w1 ha) b ((e2 v hv j hj).now w2 hb)) larger hf
  refine ⟨d, p, q, h, fun r hr => ?_⟩
  obtain ⟨r', e, hr'⟩ := run r
  refine ⟨r', ?_, hr'⟩
  rw [meshDistance, if_neg (not_le.2 hr)]
  simp only [m1, m2, Bool.not_true, Bool.or_self, Bool.false_eq_true, if_false, e]

/-- A result with a distance that is not positive is left as it is. -/
theorem C84_satisfied {bvDist : V → V → ℝ} (larger : V → V → Bool) (fuel : ℕ) (points : Bool) (o1 o2 : O) {r : MeshDistResult O}
    (h : r.minDist ≤ 0) : meshDistance bvDist larger thin fuel points o1 g1 t1 o2 g2 t2 r = .result r := by
  rw [meshDistance, if_pos h]

/-! ### Meshes at poses -/

theorem Geom.tri_move {g : Geom ℝ} (w : g.WF) (m : g.isMesh = true) (X : Pose ℝ) {i : ℕ} (hi : i < g.numPrims) :
    (g.move X).tri i = (g.tri i).move X := by
  rw [Geom.numPrims, if_pos m] at hi
  rcases ht : g.tris[i] with ⟨a, b, c⟩
  obtain ⟨ha, hb, hc⟩ := w.tris _ (List.getElem_mem hi)
  rw [ht] at ha hb hc
  have e : g.tris[i]? = some (a, b, c) := by rw [List.getElem?_eq_getElem hi, ht]
  simp only [Geom.tri, Geom.move, e, List.getElem?_map, List.getElem?_eq_getElem ha, List.getElem?_eq_getElem hb,
    List.getElem?_eq_getElem hc, Option.map_some, Option.getD_some]
  rfl

theorem Geom.move_wf {g : Geom ℝ} (w : g.WF) (X : Pose ℝ) : (g.move X).WF where
  tris := by simpa [Geom.move] using w.tris
  prev := by simp [Geom.move]

theorem Geom.move_solid {g : Geom ℝ} (w : g.WF) (m : g.isMesh = true) (X : Pose ℝ) {i : ℕ} (hi : i < g.numPrims) :
    (g.move X).solid i = g.placed X i := by
  rw [Geom.solid_eq (Geom.move_wf w X) (show (g.move X).isMesh = true from m)
    (show i < (g.move X).numPrims by simpa [Geom.numPrims, Geom.move, Geom.isMesh] using hi), Geom.tri_move w m X hi]
  ext x
  rw [Tri.move_pts]
  simp only [Geom.placed, Set.mem_ofPred_eq, Geom.solid_eq w m hi]

theorem Tri.move_nor {P : Tri ℝ} {X : Pose ℝ} (hX : X.Rigid) : (P.move X).nor.dot (P.move X).nor = P.nor.dot P.nor := by
  have e1 : (P.move X).e1 = X.R.mulVec P.e1 := by simp only [Tri.e1]; rw [M3.mulVec_sub]; simp only [Tri.move]; v3
  have e2 : (P.move X).e2 = X.R.mulVec P.e2 := by simp only [Tri.e2]; rw [M3.mulVec_sub]; simp only [Tri.move]; v3
  have lag : ∀ u v : V3 ℝ, (u.cross v).dot (u.cross v) = u.dot u * v.dot v - u.dot v * u.dot v := fun u v => by
    simp only [dot, cross]; ring
  simp only [Tri.nor, e1, e2, lag, M3.Orthonormal.dot hX]

theorem Tri.move_thick {P : Tri ℝ} {X : Pose ℝ} (hX : X.Rigid) (h : P.nor ≠ 0 → thin < P.nor.dot P.nor) :
    (P.move X).nor ≠ 0 → thin < (P.move X).nor.dot (P.move X).nor := by
  intro h0
  rw [Tri.move_nor hX]
  refine h fun h1 => h0 (dot_self_eq_zero ?_)
  rw [Tri.move_nor hX, h1]
  simp [dot]

theorem Geom.move_thick {g : Geom ℝ} (w : g.WF) (m : g.isMesh = true) {X : Pose ℝ} (hX : X.Rigid) (k : g.Thick thin) :
    (g.move X).Thick thin := by
  intro i hi
  have hi : i < g.numPrims := by simpa [Geom.numPrims, Geom.move, Geom.isMesh] using hi
  rw [Geom.tri_move w m X hi]
  exact Tri.move_thick hX (k i hi)

theorem unionOf_congr {n : ℕ} {A B : ℕ → Set (V3 ℝ)} (h : ∀ i < n, A i = B i) : unionOf n A = unionOf n B := by
  ext x
  constructor
  · rintro ⟨i, hi, hx⟩; exact ⟨i, hi, h i hi ▸ hx⟩
  · rintro ⟨i, hi, hx⟩; exact ⟨i, hi, h i hi ▸ hx⟩

theorem MeshFound.congr {n1 n2 : ℕ} {A A' B B' : ℕ → Set (V3 ℝ)} {points : Bool} {o1 o2 : O} {d : ℝ} {r r' : MeshDistResult O}
    (hA : ∀ i < n1, A i = A' i) (hB : ∀ i < n2, B i = B' i) (h : MeshFound n1 n2 A B points o1 o2 d r r') :
    MeshFound n1 n2 A' B' points o1 o2 d r r' where
  min := h.min
  old := h.old
  objs := h.objs
  prims hd := by
    obtain ⟨i, hi, j, hj, h⟩ := h.prims hd
    refine ⟨i, hi, j, hj, ?_⟩
    rwa [hA i hi, hB j hj] at h
  unasked := h.unasked

/-- **C84.** Two meshes with AABBs at two poses, from the arrays to the result of `distance`: whatever splitters are used
and whatever is in the arrays before, the hierarchies for the moved vertices are built and the query gives the
distance of the two meshes at their poses, two triangles and two points at that distance. -/
theorem C84_aabb_partial (ht : 0 ≤ thin) (w1 : g1.WF) (w2 : g2.WF) (m1 : g1.isMesh = true) (m2 : g2.isMesh = true)
    (k1 : g1.Thick thin) (k2 : g2.Thick thin) (n1 : 1 ≤ g1.numPrims) (n2 : 1 ≤ g2.numPrims) {tf1 tf2 : Pose ℝ}
    (r1 : tf1.Rigid) (r2 : tf2.Rigid) (big nbig : ℝ) (right1 right2 : AABB ℝ → List ℕ → ℕ → Bool)
    {bvs1 bvs2 : List (BVNode (AABB ℝ))} {prims1 prims2 : List ℕ}
    (b1 : 2 * g1.numPrims - 1 ≤ bvs1.length) (b2 : 2 * g2.numPrims - 1 ≤ bvs2.length)
    (l1 : g1.numPrims ≤ prims1.length) (l2 : g2.numPrims ≤ prims2.length) :
    ∃ s1 s2 t1 t2 ids1 ids2,
      buildTree ((aabbOps big nbig).builder (g1.move tf1) right1) g1.numPrims g1.numPrims bvs1 prims1 = some s1 ∧
      buildTree ((aabbOps big nbig).builder (g2.move tf2) right2) g2.numPrims g2.numPrims bvs2 prims2 = some s2 ∧
      IsTree s1.bvs s1.prims 0 0 g1.numPrims ids1 t1 ∧ IsTree s2.bvs s2.prims 0 0 g2.numPrims ids2 t2 ∧
      ∃ d p q, IsDist (unionOf g1.numPrims (g1.placed tf1)) (unionOf g2.numPrims (g2.placed tf2)) d p q ∧
        ∀ (larger : AABB ℝ → AABB ℝ → Bool) (points : Bool) (a1 a2 : ℕ) (r : MeshDistResult MeshPtr), 0 < r.minDist →
          ∃ r', aabbMeshDistance larger thin (g1.numPrims + g2.numPrims) points a1 (g1.move tf1) t1 a2 (g2.move tf2) t2 r =
              .result r' ∧
            MeshFound g1.numPrims g2.numPrims (g1.placed tf1) (g2.placed tf2) points (.deletedCopy a1) (.deletedCopy a2) d r r' := by
  have hs := aabb_sound big nbig
  obtain ⟨v1, q1, t1, ids1, e1, -, -, i1, -, -, p1, d1, f1, -⟩ :=
    C31_build ((aabbOps big nbig).builder (g1.move tf1) right1) n1 le_rfl b1 l1
  obtain ⟨v2, q2, t2, ids2, e2, -, -, i2, -, -, p2, d2, f2, -⟩ :=
    C31_build ((aabbOps big nbig).builder (g2.move tf2) right2) n2 le_rfl b2 l2
  have E1 := C31_enclosing _ f1 (Encl := Encloses AABB.pts (g1.move tf1)) fun l p hp => fit_encloses hs hp
  have E2 := C31_enclosing _ f2 (Encl := Encloses AABB.pts (g2.move tf2)) fun l p hp => fit_encloses hs hp
  have c1 : (g1.move tf1).numPrims = g1.numPrims := by simp [Geom.numPrims, Geom.move, Geom.isMesh]
  have c2 : (g2.move tf2).numPrims = g2.numPrims := by simp [Geom.numPrims, Geom.move, Geom.isMesh]
  have run : ∀ (larger : AABB ℝ → AABB ℝ → Bool) (points : Bool) (a1 a2 : ℕ), _ := fun larger points a1 a2 =>
    C84_mesh_partial (t1 := t1) (t2 := t2) (bvDist := AABB.distance) ht (Geom.move_wf w1 tf1) (Geom.move_wf w2 tf2) m1 m2
      (Geom.move_thick w1 m1 r1 k1) (Geom.move_thick w2 m2 r2 k2) (fun u v p hp q hq => C03_distance_lower_bound u v p q hp hq)
      E1 E2 (c1.symm ▸ p1) (c2.symm ▸ p2) (c1.symm ▸ n1) (c2.symm ▸ n2) larger (fuel := g1.numPrims + g2.numPrims) (by omega)
      points (MeshPtr.deletedCopy a1) (MeshPtr.deletedCopy a2)
  have u1 : unionOf (g1.move tf1).numPrims (g1.move tf1).solid = unionOf g1.numPrims (g1.placed tf1) := by
    rw [c1]; exact unionOf_congr fun i hi => Geom.move_solid w1 m1 tf1 hi
  have u2 : unionOf (g2.move tf2).numPrims (g2.move tf2).solid = unionOf g2.numPrims (g2.placed tf2) := by
    rw [c2]; exact unionOf_congr fun i hi => Geom.move_solid w2 m2 tf2 hi
  obtain ⟨d, p, q, h, -⟩ := run (fun _ _ => true) true 0 0
  rw [u1, u2] at h
  refine ⟨_, _, t1, t2, ids1, ids2, e1, e2, i1, i2, d, p, q, h, fun larger points a1 a2 r hr => ?_⟩
  obtain ⟨d', p', q', h', hrun⟩ := run larger points a1 a2
  rw [u1, u2] at h'
  have hd : d' = d := le_antisymm (by rw [← h.attained]; exact h'.least _ h.left _ h.right)
    (by rw [← h'.attained]; exact h.least _ h'.left _ h'.right)
  obtain ⟨r', e, hm⟩ := hrun r hr
  rw [hd, c1, c2] at hm
  exact ⟨r', e, hm.congr (fun i hi => Geom.move_solid w1 m1 tf1 hi) fun i hi => Geom.move_solid w2 m2 tf2 hi⟩

/-! ### Oriented volumes -/

theorem MeshFound.offered {n1 n2 : ℕ} {A B : ℕ → Set (V3 ℝ)} {points : Bool} {o1 o2 : O} {d : ℝ} {r r' : MeshDistResult O}
    {t : ℝ × V3 ℝ × V3 ℝ} (hn1 : 0 < n1) (hn2 : 0 < n2) (ok : TriOK (A 0) (B 0) t) (hd : d ≤ t.1)
    (h : MeshFound n1 n2 A B points o1 o2 d (MeshDistResult.offer points o1 o2 0 0 t r) r') :
    MeshFound n1 n2 A B points o1 o2 d r r' := by
  by_cases hlt : t.1 < r.minDist
  · have e : MeshDistResult.offer points o1 o2 0 0 t r = ⟨t.1, if points then t.2 else r.nearest, some o1, some o2, 0, 0⟩ := by
      cases points <;> simp [MeshDistResult.offer, DistResult.update, hlt]
    rw [e] at h
    rcases eq_or_lt_of_le hd with rfl | hd'
    · have hr' := h.old le_rfl
      subst hr'
      refine ⟨(min_eq_right hlt.le).symm, fun h => absurd hlt (not_lt.2 h), fun _ => ⟨rfl, rfl⟩, fun _ => ⟨0, hn1, 0, hn2, rfl, rfl,
        ok.dist, fun hp => ?_⟩, fun hp => by simp [hp]⟩
      simp only [hp, if_true]
      exact ⟨ok.left, ok.right, fun h0 => (ok.near h0).attained⟩
    · refine ⟨?_, fun h' => absurd (hlt.trans_le h') (not_lt.2 hd), fun _ => h.objs hd', fun _ => h.prims hd', fun hp => ?_⟩
      · rw [h.min, min_eq_right hd, min_eq_right (hd.trans hlt.le)]
      · rw [h.unasked hp]; simp [hp]
  · have e : MeshDistResult.offer points o1 o2 0 0 t r = r := by simp [MeshDistResult.offer, DistResult.update, hlt]
    rwa [e] at h

/-- The sets moved by a pose. -/
theorem isDist_apply {A B : Set (V3 ℝ)} {X : Pose ℝ} (hX : X.Rigid) {d : ℝ} {p q : V3 ℝ} (h : IsDist A B d p q) :
    IsDist {x | ∃ y ∈ A, x = X.apply y} {x | ∃ y ∈ B, x = X.apply y} d (X.apply p) (X.apply q) where
  left := ⟨p, h.left, rfl⟩
  right := ⟨q, h.right, rfl⟩
  attained := by rw [Pose.dist_apply hX, h.attained]
  least := by
    rintro _ ⟨a, ha, rfl⟩ _ ⟨b, hb, rfl⟩
    rw [Pose.dist_apply hX]
    exact h.least a ha b hb

variable [DecidableEq O]

theorem MeshFound.post {n1 n2 : ℕ} {A B : ℕ → Set (V3 ℝ)} {points : Bool} {o1 o2 : O} {d : ℝ} {r r' : MeshDistResult O}
    {X : Pose ℝ} (hX : X.Rigid) (hr : ¬(points = true ∧ r.o1 = some o1 ∧ r.o2 = some o2))
    (h : MeshFound n1 n2 A B points o1 o2 d r r') :
    MeshFound n1 n2 (fun i => {x | ∃ y ∈ A i, x = X.apply y}) (fun i => {x | ∃ y ∈ B i, x = X.apply y}) points o1 o2 d r
      (distPostprocess points o1 o2 X r') where
  min := by rw [distPostprocess]; split <;> exact h.min
  old hd := by rw [h.old hd, distPostprocess, if_neg hr]
  objs hd := by rw [distPostprocess]; split <;> exact h.objs hd
  prims hd := by
    obtain ⟨i, hi, j, hj, e1, e2, ⟨p, q, hpq⟩, h3⟩ := h.prims hd
    refine ⟨i, hi, j, hj, ?_, ?_, ⟨_, _, isDist_apply hX hpq⟩, fun hp => ?_⟩
    · rw [distPostprocess]; split <;> exact e1
    · rw [distPostprocess]; split <;> exact e2
    · rw [distPostprocess, if_pos ⟨hp, h.objs hd⟩]
      obtain ⟨h4, h5, h6⟩ := h3 hp
      exact ⟨⟨_, h4, rfl⟩, ⟨_, h5, rfl⟩, fun h0 => by simp only; rw [Pose.dist_apply hX, h6 h0]⟩
  unasked hp := by
    rw [distPostprocess, if_neg (by rw [hp]; simp)]
    exact h.unasked hp

theorem placed_frame1 (w1 : g1.WF) (m1 : g1.isMesh = true) (tf1 : Pose ℝ) {i : ℕ} (hi : i < g1.numPrims) :
    {x | ∃ y ∈ (g1.tri i).pts, x = tf1.apply y} = g1.placed tf1 i := by
  rw [← Geom.solid_eq w1 m1 hi]
  rfl

theorem relative_key {tf1 : Pose ℝ} (r1 : tf1.Rigid) (tf2 : Pose ℝ) (y : V3 ℝ) :
    tf1.apply ((tf1.relative tf2).apply y) = tf2.apply y := by
  simp only [Pose.relative, Pose.apply, M3.mulVec_add, M3.mul_mulVec, M3.Orthonormal.mul_tr r1]
  v3

theorem placed_frame2 (w2 : g2.WF) (m2 : g2.isMesh = true) {tf1 : Pose ℝ} (r1 : tf1.Rigid) (tf2 : Pose ℝ) {j : ℕ} (hj : j < g2.numPrims) :
    {x | ∃ y ∈ ((g2.tri j).move (tf1.relative tf2)).pts, x = tf1.apply y} = g2.placed tf2 j := by
  ext x
  simp only [Set.mem_ofPred_eq, Geom.placed, Tri.move_pts, Geom.solid_eq w2 m2 hj]
  constructor
  · rintro ⟨_, ⟨y, hy, rfl⟩, rfl⟩
    exact ⟨y, hy, relative_key r1 tf2 y⟩
  · rintro ⟨y, hy, rfl⟩
    exact ⟨_, ⟨y, hy, rfl⟩, (relative_key r1 tf2 y).symm⟩

/-- The traversal of oriented volumes in the frame of the first mesh, with the first triangles tested before. -/
theorem oriented_frame1 (ht : 0 ≤ thin) (w1 : g1.WF) (w2 : g2.WF) (m1 : g1.isMesh = true) (m2 : g2.isMesh = true)
    (k1 : g1.Thick thin) (k2 : g2.Thick thin) {tf1 tf2 : Pose ℝ} (r1 : tf1.Rigid) (r2 : tf2.Rigid)
    {bvDist : Pose ℝ → V → V → ℝ}
    (hbv : ∀ u v, BT.Below u t1 → BT.Below v t2 → ∀ i ∈ u.prims, ∀ j ∈ v.prims, ∀ a ∈ g1.solid i, ∀ b ∈ g2.solid j,
      bvDist (tf1.relative tf2) u.bv v.bv ≤ a.dist ((tf1.relative tf2).apply b))
    (p1 : t1.prims.Perm (List.range g1.numPrims)) (p2 : t2.prims.Perm (List.range g2.numPrims))
    (n1 : 0 < g1.numPrims) (n2 : 0 < g2.numPrims) (larger : V → V → Bool) {fuel : ℕ} (hf : t1.depth + t2.depth < fuel)
    (points : Bool) (o1 o2 : O) :
    ∃ d p q, IsDist (unionOf g1.numPrims (g1.placed tf1)) (unionOf g2.numPrims (g2.placed tf2)) d p q ∧
      ∀ r : MeshDistResult O, 0 < r.minDist →
        ∃ r', orientedMeshDistance bvDist larger thin fuel points o1 g1 t1 tf1 o2 g2 t2 tf2 r =
            .result (distPostprocess points o1 o2 tf1 r') ∧
          MeshFound g1.numPrims g2.numPrims (fun i => (g1.tri i).pts) (fun j => ((g2.tri j).move (tf1.relative tf2)).pts)
            points o1 o2 d r r' := by
  have hX := Pose.relative_rigid r1 r2
  have ok : ∀ i < g1.numPrims, ∀ j < g2.numPrims, TriOK (g1.tri i).pts ((g2.tri j).move (tf1.relative tf2)).pts
      (Tri.triDist thin (g1.tri i) ((g2.tri j).move (tf1.relative tf2))) := fun i hi j hj =>
    Tri.triOK ht (k1 i hi) (Tri.move_thick hX (k2 j hj))
  obtain ⟨d, p, q, h, run⟩ := traversal_found (bvDist := bvDist (tf1.relative tf2))
    (tri := fun i j => Tri.triDist thin (g1.tri i) ((g2.tri j).move (tf1.relative tf2)))
    (A := fun i => (g1.tri i).pts) (B := fun j => ((g2.tri j).move (tf1.relative tf2)).pts) points o1 o2 p1 p2 n1 n2 ok
    (fun u v hu hv i hi j hj a ha b hb => by
      have hi' : i < g1.numPrims := List.mem_range.1 (p1.mem_iff.1 (below_prims hu i hi))
      have hj' : j < g2.numPrims := List.mem_range.1 (p2.mem_iff.1 (below_prims hv j hj))
      obtain ⟨y, hy, rfl⟩ := Tri.move_pts.1 hb
      exact hbv u v hu hv i hi j hj a (by rw [Geom.solid_eq w1 m1 hi']; exact ha) y (by rw [Geom.solid_eq w2 m2 hj']; exact hy)) larger hf
  have hworld := isDist_apply r1 h
  have u1 : {x | ∃ y ∈ unionOf g1.numPrims fun i => (g1.tri i).pts, x = tf1.apply y} = unionOf g1.numPrims (g1.placed tf1) := by
    rw [← unionOf_congr fun i hi => placed_frame1 w1 m1 tf1 hi]
    ext x
    constructor
    · rintro ⟨y, ⟨i, hi, hy⟩, e⟩; exact ⟨i, hi, y, hy, e⟩
    · rintro ⟨i, hi, y, hy, e⟩; exact ⟨y, ⟨i, hi, hy⟩, e⟩
  have u2 : {x | ∃ y ∈ unionOf g2.numPrims fun j => ((g2.tri j).move (tf1.relative tf2)).pts, x = tf1.apply y} =
      unionOf g2.numPrims (g2.placed tf2) := by
    rw [← unionOf_congr fun i hi => placed_frame2 w2 m2 r1 tf2 hi]
    ext x
    constructor
    · rintro ⟨y, ⟨i, hi, hy⟩, e⟩; exact ⟨i, hi, y, hy, e⟩
    · rintro ⟨i, hi, y, hy, e⟩; exact ⟨y, ⟨i, hi, hy⟩, e⟩
  rw [u1, u2] at hworld
  refine ⟨d, _, _, hworld, fun r hr => ?_⟩
  obtain ⟨r', e, hr'⟩ := run (MeshDistResult.offer points o1 o2 0 0
    (Tri.triDist thin (g1.tri 0) ((g2.tri 0).move (tf1.relative tf2))) r)
  refine ⟨r', ?_, hr'.offered n1 n2 (ok 0 n1 0 n2) ?_⟩
  · rw [orientedMeshDistance, if_neg (not_le.2 hr)]
    simp only [m1, m2, Bool.not_true, Bool.or_self, Bool.false_eq_true, if_false, e]
  · obtain ⟨p', q', h'⟩ := (ok 0 n1 0 n2).dist
    rw [← h'.attained]
    exact h.least _ ⟨0, n1, h'.left⟩ _ ⟨0, n2, h'.right⟩

/-- **C84.** The query for meshes with oriented volumes at two poses, for any distance of volumes that is a lower bound
for the distance of the triangles below them: the result is the distance of the two meshes at their poses, two
triangles and two points in the world frame at that distance, unless the result already names the same two meshes
and nearest points are asked for (`C84_violated_reuse`). -/
theorem C84_oriented_partial (ht : 0 ≤ thin) (w1 : g1.WF) (w2 : g2.WF) (m1 : g1.isMesh = true) (m2 : g2.isMesh = true)
    (k1 : g1.Thick thin) (k2 : g2.Thick thin) {tf1 tf2 : Pose ℝ} (r1 : tf1.Rigid) (r2 : tf2.Rigid)
    {bvDist : Pose ℝ → V → V → ℝ}
    (hbv : ∀ u v, BT.Below u t1 → BT.Below v t2 → ∀ i ∈ u.prims, ∀ j ∈ v.prims, ∀ a ∈ g1.solid i, ∀ b ∈ g2.solid j,
      bvDist (tf1.relative tf2) u.bv v.bv ≤ a.dist ((tf1.relative tf2).apply b))
    (p1 : t1.prims.Perm (List.range g1.numPrims)) (p2 : t2.prims.Perm (List.range g2.numPrims))
    (n1 : 0 < g1.numPrims) (n2 : 0 < g2.numPrims) (larger : V → V → Bool) {fuel : ℕ} (hf : t1.depth + t2.depth < fuel)
    (points : Bool) (o1 o2 : O) :
    ∃ d p q, IsDist (unionOf g1.numPrims (g1.placed tf1)) (unionOf g2.numPrims (g2.placed tf2)) d p q ∧
      ∀ r : MeshDistResult O, 0 < r.minDist → ¬(points = true ∧ r.o1 = some o1 ∧ r.o2 = some o2) →
        ∃ r', orientedMeshDistance bvDist larger thin fuel points o1 g1 t1 tf1 o2 g2 t2 tf2 r = .result r' ∧
          MeshFound g1.numPrims g2.numPrims (g1.placed tf1) (g2.placed tf2) points o1 o2 d r r' := by
  obtain ⟨d, p, q, h, run⟩ := oriented_frame1 ht w1 w2 m1 m2 k1 k2 r1 r2 hbv p1 p2 n1 n2 larger hf points o1 o2
  refine ⟨d, p, q, h, fun r hr ho => ?_⟩
  obtain ⟨r', e, hr'⟩ := run r hr
  exact ⟨_, e, (hr'.post r1 ho).congr (fun i hi => placed_frame1 w1 m1 tf1 hi) fun j hj => placed_frame2 w2 m2 r1 tf2 hj⟩

/-- **C84, negative.** When the result already holds a smaller distance for the same two meshes, for example from the
same query asked before or from two other objects with the same geometries, the query moves the nearest points of
that result by the pose of the first mesh once more, and changes nothing else. -/
theorem C84_violated_reuse (ht : 0 ≤ thin) (w1 : g1.WF) (w2 : g2.WF) (m1 : g1.isMesh = true) (m2 : g2.isMesh = true)
    (k1 : g1.Thick thin) (k2 : g2.Thick thin) {tf1 tf2 : Pose ℝ} (r1 : tf1.Rigid) (r2 : tf2.Rigid)
    {bvDist : Pose ℝ → V → V → ℝ}
    (hbv : ∀ u v, BT.Below u t1 → BT.Below v t2 → ∀ i ∈ u.prims, ∀ j ∈ v.prims, ∀ a ∈ g1.solid i, ∀ b ∈ g2.solid j,
      bvDist (tf1.relative tf2) u.bv v.bv ≤ a.dist ((tf1.relative tf2).apply b))
    (p1 : t1.prims.Perm (List.range g1.numPrims)) (p2 : t2.prims.Perm (List.range g2.numPrims))
    (n1 : 0 < g1.numPrims) (n2 : 0 < g2.numPrims) (larger : V → V → Bool) {fuel : ℕ} (hf : t1.depth + t2.depth < fuel)
    (o1 o2 : O) :
    ∃ d p q, IsDist (unionOf g1.numPrims (g1.placed tf1)) (unionOf g2.numPrims (g2.placed tf2)) d p q ∧
      ∀ r : MeshDistResult O, 0 < r.minDist → r.minDist ≤ d → r.o1 = some o1 → r.o2 = some o2 →
        orientedMeshDistance bvDist larger thin fuel true o1 g1 t1 tf1 o2 g2 t2 tf2 r =
          .result { r with nearest := (tf1.apply r.nearest.1, tf1.apply r.nearest.2) } := by
  obtain ⟨d, p, q, h, run⟩ := oriented_frame1 ht w1 w2 m1 m2 k1 k2 r1 r2 hbv p1 p2 n1 n2 larger hf true o1 o2
  refine ⟨d, p, q, h, fun r hr hd h1 h2 => ?_⟩
  obtain ⟨r', e, hr'⟩ := run r hr
  rw [e, hr'.old hd, distPostprocess, if_pos ⟨rfl, h1, h2⟩]

/-! ### Examples -/

/-- A mesh of one triangle. -/
def exOne : Geom ℝ := ⟨[⟨-1, -1, 0⟩, ⟨1, -1, 0⟩, ⟨0, 1, 0⟩], none, [(0, 1, 2)]⟩

theorem exOne_wf : exOne.WF := ⟨by simp [exOne], by simp [exOne]⟩

theorem exOne_tri (i : ℕ) (hi : i < exOne.numPrims) : exOne.tri i = ⟨⟨-1, -1, 0⟩, ⟨1, -1, 0⟩, ⟨0, 1, 0⟩⟩ := by
  have hi : i < 1 := hi
  obtain rfl : i = 0 := by omega
  rfl

theorem exOne_thick : exOne.Thick (1 / 10 ^ 15) := by
  intro i hi _
  rw [exOne_tri i hi]
  norm_num [Tri.nor, Tri.e1, Tri.e2, V3.dot, V3.cross]

theorem exOne_pts {x : V3 ℝ} {i : ℕ} (hi : i < exOne.numPrims) (hx : x ∈ exOne.solid i) : -1 ≤ x.x ∧ x.x ≤ 1 ∧ x.z = 0 := by
  rw [Geom.solid_eq exOne_wf rfl hi, exOne_tri i hi] at hx
  have h : HullOf _ _ := hx
  obtain ⟨u, w, u0, w0, uw, rfl⟩ := Ccd.hull_three h
  simp
  constructor <;> linarith

/-- The two poses: ten to the side, and the second one five higher. -/
noncomputable def exPose1 : Pose ℝ := ⟨M3.one, ⟨10, 0, 0⟩⟩
/-- See `exPose1`. -/
noncomputable def exPose2 : Pose ℝ := ⟨M3.one, ⟨10, 0, 5⟩⟩

theorem exDistPose_rigid (t : V3 ℝ) : (⟨M3.one, t⟩ : Pose ℝ).Rigid := by
  constructor <;> norm_num [M3.mul, M3.tr, M3.col, M3.one, V3.dot, V3.get]

theorem exPose_apply (t x : V3 ℝ) : (⟨M3.one, t⟩ : Pose ℝ).apply x = x + t := by
  apply V3.ext' <;> simp [Pose.apply, M3.one, M3.mulVec, V3.dot]

/-- **C84, negative.** A query with a fresh result gives nearest points of the two meshes; asked a second time with the
same result it leaves a point that is not on the first mesh. -/
theorem C84_violated_twice (junk : V3 ℝ × V3 ℝ) :
    ∃ r1 r2 : MeshDistResult ℕ,
      orientedMeshDistance (fun _ _ _ => 0) (fun _ _ => true) (1 / 10 ^ 15) 1 true 7 exOne (.leaf () 0) exPose1 8 exOne (.leaf () 0)
        exPose2 (DistResult.init 1000 junk) = .result r1 ∧
      orientedMeshDistance (fun _ _ _ => 0) (fun _ _ => true) (1 / 10 ^ 15) 1 true 7 exOne (.leaf () 0) exPose1 8 exOne (.leaf () 0)
        exPose2 r1 = .result r2 ∧
      r1.nearest.1 ∈ exOne.placed exPose1 0 ∧ r2.nearest.1 ∉ exOne.placed exPose1 0 := by
  have H := C84_oriented_partial (O := ℕ) (V := Unit) (g1 := exOne) (g2 := exOne) (t1 := .leaf () 0) (t2 := .leaf () 0)
    (thin := 1 / 10 ^ 15) (tf1 := exPose1) (tf2 := exPose2) (bvDist := fun _ _ _ => 0) (by norm_num) exOne_wf exOne_wf rfl rfl
    exOne_thick exOne_thick (exDistPose_rigid _) (exDistPose_rigid _) (fun _ _ _ _ _ _ _ _ a _ b _ => dist_nonneg _ _)
    (by simp [BT.prims, Geom.numPrims, exOne, Geom.isMesh]) (by simp [BT.prims, Geom.numPrims, exOne, Geom.isMesh])
    (by simp [Geom.numPrims, exOne, Geom.isMesh]) (by simp [Geom.numPrims, exOne, Geom.isMesh]) (fun _ _ => true) (fuel := 1)
    (by simp [BT.depth]) true 7 8
  have H2 := C84_violated_reuse (O := ℕ) (V := Unit) (g1 := exOne) (g2 := exOne) (t1 := .leaf () 0) (t2 := .leaf () 0)
    (thin := 1 / 10 ^ 15) (tf1 := exPose1) (tf2 := exPose2) (bvDist := fun _ _ _ => 0) (by norm_num) exOne_wf exOne_wf rfl rfl
    exOne_thick exOne_thick (exDistPose_rigid _) (exDistPose_rigid _) (fun _ _ _ _ _ _ _ _ a _ b _ => dist_nonneg _ _)
    (by simp [BT.prims, Geom.numPrims, exOne, Geom.isMesh]) (by simp [BT.prims, Geom.numPrims, exOne, Geom.isMesh])
    (by simp [Geom.numPrims, exOne, Geom.isMesh]) (by simp [Geom.numPrims, exOne, Geom.isMesh]) (fun _ _ => true) (fuel := 1)
    (by simp [BT.depth]) 7 8
  obtain ⟨d, p, q, hd, run⟩ := H
  obtain ⟨d', p', q', hd', run'⟩ := H2
  have hdd : d' = d := le_antisymm (by rw [← hd.attained]; exact hd'.least _ hd.left _ hd.right)
    (by rw [← hd'.attained]; exact hd.least _ hd'.left _ hd'.right)
  obtain ⟨i, hi, y, hy, ep⟩ := hd.left
  obtain ⟨j, hj, z, hz, eq⟩ := hd.right
  -- the meshes are apart
  have hpos : 0 < d := by
    rcases lt_or_eq_of_le (isDist_nonneg hd) with h | h
    · exact h
    · exfalso
      obtain ⟨x, ⟨i, hi, y, hy, ep⟩, j, hj, z, hz, eq⟩ := (isDist_touch hd).2 h.symm
      have h1 := (exOne_pts hi hy).2.2
      have h2 := (exOne_pts hj hz).2.2
      rw [exPose1, exPose_apply] at ep
      rw [exPose2, exPose_apply] at eq
      have := congrArg V3.z (ep.symm.trans eq)
      simp [h1, h2] at this
  have hlt : d < 1000 := by
    have m : (⟨-1, -1, 0⟩ : V3 ℝ) ∈ exOne.solid 0 := by
      have h0 : 0 < exOne.numPrims := by simp [Geom.numPrims, exOne, Geom.isMesh]
      rw [Geom.solid_eq exOne_wf rfl h0, exOne_tri 0 h0]
      exact .pt (by simp)
    have h0 : 0 < exOne.numPrims := by simp [Geom.numPrims, exOne, Geom.isMesh]
    have := hd.least _ ⟨0, h0, _, m, rfl⟩ _ ⟨0, h0, _, m, rfl⟩
    rw [exPose1, exPose_apply, exPose2, exPose_apply, V3.dist_comm, dist_eq,
      nrm_unique (r := 5) (by norm_num) (by norm_num [V3.dot])] at this
    linarith
  obtain ⟨r1, e1, f1⟩ := run (DistResult.init 1000 junk) (by norm_num [DistResult.init]) (by simp [DistResult.init])
  have hm : r1.minDist = d := by rw [f1.min]; exact min_eq_right hlt.le
  obtain ⟨ho1, ho2⟩ := f1.objs hlt
  obtain ⟨i, hi, j, hj, -, -, -, hn⟩ := f1.prims hlt
  obtain ⟨hn1, -⟩ := hn rfl
  have hi0 : i = 0 := by
    have : i < 1 := hi
    omega
  subst hi0
  have e2 := run' r1 (by rw [hm]; exact hpos) (by rw [hm, hdd]) ho1 ho2
  refine ⟨r1, _, e1, e2, hn1, ?_⟩
  rintro ⟨y, hy, ey⟩
  obtain ⟨z, hz, ez⟩ := hn1
  have h1 := exOne_pts hi hy
  have h2 := exOne_pts hi hz
  simp only [ez, exPose1, exPose_apply] at ey
  have := congrArg V3.x ey
  simp at this
  linarith [h1.2.1, h2.1]

/-- The hypotheses of `C84_aabb_partial` are met by this mesh and the square of two triangles. -/
theorem exSquare_thick : exSquare.Thick (1 / 10 ^ 15) := by
  intro i hi _
  have hi : i < 2 := hi
  have : i = 0 ∨ i = 1 := by omega
  rcases this with rfl | rfl <;> norm_num [exSquare, Geom.tri, Tri.nor, Tri.e1, Tri.e2, V3.dot, V3.cross]

/-- See `exSquare_thick`. -/
example (b : AABB ℝ) (right : AABB ℝ → List ℕ → ℕ → Bool) :=
  C84_aabb_partial (by norm_num : (0 : ℝ) ≤ 1 / 10 ^ 15) exSquare_wf exOne_wf rfl rfl exSquare_thick exOne_thick (by decide) (by decide)
    (exDistPose_rigid ⟨1, 2, 3⟩) (exDistPose_rigid ⟨4, 5, 6⟩) 1000 (-1000) right right
    (bvs1 := List.replicate 3 ⟨b, 9, 9, 9⟩) (bvs2 := [⟨b, 9, 9, 9⟩]) (prims1 := [8, 8]) (prims2 := [8])
    (Nat.le_refl 3) (Nat.le_refl 1) (by decide) (by decide)

end Fcl
