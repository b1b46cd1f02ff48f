import Verif.BVH.VolumesSpec
import Verif.Props.MeshDist
import Verif.Props.RSSFit
import Verif.Props.KIOS

/-!
# C88: collision and distance of meshes with OBBRSS, RSS and kIOS volumes, from the arrays to the answer
-/

namespace Fcl
open V3

/-! ### OBBRSS -/

namespace OBBRSS
variable {b b1 b2 : OBBRSS ℝ} {X : Pose ℝ} {eps : ℝ}

/-- **C88.** Volumes with a common point overlap at every pose. -/
theorem C88_overlap (w1 : b1.WF) (w2 : b2.WF) (hX : X.Rigid) {p q : V3 ℝ} (hp : p ∈ b1.pts) (hq : q ∈ b2.pts) (e : p = X.apply q) :
    overlapAt X.R X.t b1 b2 = true :=
  OBB.C45_overlapAt hX w1.obb w2.obb hp.1 hq.1 e

/-- **C88.** The distance of two volumes is not more than the distance of two of their points. -/
theorem C88_lower (w1 : b1.WF) (w2 : b2.WF) (hX : X.Rigid) (he : 0 < eps) {p q : V3 ℝ} (hp : p ∈ b1.pts) (hq : q ∈ b2.pts) :
    0 ≤ distanceAt eps X.R X.t b1 b2 ∧ distanceAt eps X.R X.t b1 b2 ≤ p.dist (X.apply q) :=
  RSS.C85_lower w1.rss w2.rss hX he hp.2 hq.2

/-- **C88.** The fit of any points encloses them. -/
theorem C88_fitn (big : ℝ) (absorb : ℝ → ℝ → Bool) {p0 : V3 ℝ} {ps : List (V3 ℝ)} (h : fitn big (Jacobi.eigenOld absorb) p0 ps = some b) :
    b.WF ∧ ∀ p ∈ p0 :: ps, p ∈ b.pts := by
  rw [fitn] at h
  rcases e : Jacobi.eigenOld absorb (OBB.covariance (p0 :: ps)) with _ | ⟨s, E⟩
  · simp only [e] at h; cases h
  · simp only [e] at h
    have hb := Option.some.inj h
    obtain ⟨o1, o2⟩ := OBB.C65_fitn (b := OBB.fitAxis big (OBB.axisFromEigen E s) (p0 :: ps)) big absorb (ps := p0 :: ps) (by simp only [OBB.fitn, e])
    obtain ⟨r1, r2⟩ := RSS.C86_fitn (b := RSS.fitAxis (OBB.axisFromEigen E s) p0 ps) absorb (p0 := p0) (ps := ps) (by simp only [RSS.fitn, e])
    rw [← hb]
    exact ⟨⟨o1, r1⟩, fun p hp => ⟨o2 p hp, r2 p hp⟩⟩

end OBBRSS

/-! ### Any volume -/

namespace OVol
variable {V : Type*} {g g1 g2 : Geom ℝ}

/-- What is needed of a volume; `ok` are the points it can be fitted to. -/
structure Sound (vol : OVol V) (wpts : V → Set (V3 ℝ)) (ok : V3 ℝ → Prop) : Prop where
  fit : ∀ {ps b}, (∀ p ∈ ps, ok p) → vol.fit ps = some b → ∀ p ∈ ps, p ∈ wpts b
  convex : ∀ b p q, p ∈ wpts b → q ∈ wpts b → ∀ t : ℝ, 0 ≤ t → t ≤ 1 → (1 - t) • p + t • q ∈ wpts b
  overlap : ∀ {X : Pose ℝ}, X.Rigid → ∀ {b1 b2 p q}, p ∈ wpts b1 → q ∈ wpts b2 → p = X.apply q → vol.overlapAt X b1 b2 = true
  dist : ∀ {X : Pose ℝ}, X.Rigid → ∀ {b1 b2 p q}, p ∈ wpts b1 → q ∈ wpts b2 → vol.distAt X b1 b2 ≤ p.dist (X.apply q)

variable {vol : OVol V} {wpts : V → Set (V3 ℝ)} {ok : V3 ℝ → Prop} {junk : V}

theorem Sound.enclosing (hs : vol.Sound wpts ok) (hk : ∀ p < g.numPrims, ∀ x ∈ g.primVerts p, ok x) (hfit : vol.FitsAll g) {t : BT V ℕ}
    (hp : t.prims.Perm (List.range g.numPrims)) (hF : Fitted (vol.fitPrims junk g) t) : Enclosing (Encloses wpts g) t := by
  intro u hu p hpu
  obtain ⟨l, hl, e⟩ := hF u hu
  have hpl : p ∈ l := hl.mem_iff.2 hpu
  have hsub := below_prims hu
  have hr : ∀ p ∈ l, p < g.numPrims := fun p hp' => List.mem_range.1 (hp.mem_iff.1 (hsub p (hl.mem_iff.1 hp')))
  obtain ⟨b, hb⟩ := hfit l (List.ne_nil_of_mem hpl)
    (hl.nodup_iff.2 ((below_prims_sublist hu).nodup (hp.nodup_iff.2 List.nodup_range))) hr
  have hv : u.bv = b := by rw [e, fitPrims, hb]; rfl
  have hm := hs.fit (fun x hx => by
    obtain ⟨p, hp, hx⟩ := List.mem_flatMap.1 hx
    exact hk p (hr p hp) x hx) hb
  rw [hv]
  refine encloses_of_convex (hs.convex b) (fun x hx => hm x ?_) fun old ho x hx => hm x ?_
  · exact List.mem_flatMap.2 ⟨p, hpl, List.mem_append_left _ hx⟩
  · refine List.mem_flatMap.2 ⟨p, hpl, List.mem_append_right _ ?_⟩
    rw [ho]; exact hx

theorem mesh_pos (h : g.isMesh = true) : 1 ≤ g.numPrims := by
  rw [Geom.numPrims, if_pos h]
  rw [Geom.isMesh] at h
  cases e : g.tris with
  | nil => rw [e] at h; cases h
  | cons => simp

theorem Sound.collides (hs : vol.Sound wpts ok) (w1 : g1.WF) (w2 : g2.WF) (m1 : g1.isMesh = true) (m2 : g2.isMesh = true)
    (p1 : g1.Proper) (p2 : g2.Proper) (k1 : ∀ p < g1.numPrims, ∀ x ∈ g1.primVerts p, ok x)
    (k2 : ∀ p < g2.numPrims, ∀ x ∈ g2.primVerts p, ok x) (f1 : vol.FitsAll g1) (f2 : vol.FitsAll g2) : vol.CollidesExactly g1 g2 := by
  intro junk right1 right2 bvs1 bvs2 prims1 prims2 b1 b2 l1 l2
  obtain ⟨v1, q1, t1, ids1, e1, -, -, i1, -, -, pr1, d1, F1, -⟩ := C31_build (vol.builder junk g1 right1) (mesh_pos m1) le_rfl b1 l1
  obtain ⟨v2, q2, t2, ids2, e2, -, -, i2, -, -, pr2, d2, F2, -⟩ := C31_build (vol.builder junk g2 right2) (mesh_pos m2) le_rfl b2 l2
  refine ⟨_, _, t1, t2, ids1, ids2, e1, e2, i1, i2, fun tf1 tf2 r1 r2 larger big hb junk' free cost q hq => ?_⟩
  have E1 := hs.enclosing k1 f1 pr1 F1
  have E2 := hs.enclosing k2 f2 pr2 F2
  obtain ⟨M, hM⟩ : ∃ M, M = orientedPair big junk' g1 tf1 g2 tf2 true free cost := ⟨_, rfl⟩
  have hex := orientedPair_exact hb junk' w1 w2 m1 m2 p1 p2 r1 r2 true free cost q
  rw [← hM] at hex ⊢
  obtain ⟨r, e, a1, a2, a3, -⟩ := mesh_collide_touch (touch := MeshTouch g1 tf1 g2 tf2) (overlap := vol.overlapAt (tf1.relative tf2))
    (fun u hu v hv i hi j hj ⟨x, ⟨a, ha, ea⟩, b, hb, eb⟩ =>
      hs.overlap (Pose.relative_rigid r1 r2) ((E1 u hu i hi).now w1 ha) ((E2 v hv j hj).now w2 hb) (Pose.relative_apply r1 (ea.symm.trans eb)))
    pr1 pr2 larger (fuel := g1.numPrims + g2.numPrims) (by omega) M (by rw [hM]; rfl) q
  have a3' : r.contacts.length < q.req.numMax → ∀ i < g1.numPrims, ∀ j < g2.numPrims, MeshTouch g1 tf1 g2 tf2 i j → (i, j) ∈ r.contacts :=
    fun hl i hi j hj ht => a3 hl i hi j hj ht ((hex i hi j hj).2 ht)
  have a1' : ∀ c ∈ r.contacts, c.1 < g1.numPrims ∧ c.2 < g2.numPrims ∧ MeshTouch g1 tf1 g2 tf2 c.1 c.2 := fun c hc => by
    obtain ⟨hi, hj, hr⟩ := a1 c hc
    exact ⟨hi, hj, (hex _ hi _ hj).1 hr⟩
  refine ⟨r, ?_, ?_, a1', a2, a3'⟩
  · have hsat : q.req.isSatisfied (CollResult.empty : CollResult (ℕ × ℕ) ℝ) = false := by
      simp [CollRequest.isSatisfied, CollResult.isCollision, CollResult.empty]
    simp only [meshCollide, hsat, m1, m2, orientedNode_eq, e]
    simp
  · simp only [CollResult.isCollision, decide_eq_true_eq]
    constructor
    · intro h
      obtain ⟨c, hc⟩ := List.exists_mem_of_length_pos h
      obtain ⟨hi, hj, ht⟩ := a1' c hc
      exact ⟨_, hi, _, hj, ht⟩
    · rintro ⟨i, hi, j, hj, hx⟩
      by_contra hn
      have hz : r.contacts.length = 0 := by omega
      have := a3' (by omega) i hi j hj hx
      rw [List.length_eq_zero_iff.1 hz] at this
      cases this

theorem Sound.distances (hs : vol.Sound wpts ok) {thin : ℝ} (ht : 0 ≤ thin) (w1 : g1.WF) (w2 : g2.WF) (m1 : g1.isMesh = true)
    (m2 : g2.isMesh = true) (h1 : g1.Thick thin) (h2 : g2.Thick thin) (k1 : ∀ p < g1.numPrims, ∀ x ∈ g1.primVerts p, ok x)
    (k2 : ∀ p < g2.numPrims, ∀ x ∈ g2.primVerts p, ok x) (f1 : vol.FitsAll g1) (f2 : vol.FitsAll g2) :
    vol.DistancesExactly thin g1 g2 := by
  intro junk right1 right2 bvs1 bvs2 prims1 prims2 b1 b2 l1 l2
  obtain ⟨v1, q1, t1, ids1, e1, -, -, i1, -, -, pr1, d1, F1, -⟩ := C31_build (vol.builder junk g1 right1) (mesh_pos m1) le_rfl b1 l1
  obtain ⟨v2, q2, t2, ids2, e2, -, -, i2, -, -, pr2, d2, F2, -⟩ := C31_build (vol.builder junk g2 right2) (mesh_pos m2) le_rfl b2 l2
  refine ⟨_, _, t1, t2, ids1, ids2, e1, e2, i1, i2, fun tf1 tf2 r1 r2 => ?_⟩
  have E1 := hs.enclosing k1 f1 pr1 F1
  have E2 := hs.enclosing k2 f2 pr2 F2
  have run : ∀ (larger : V → V → Bool) (points : Bool) (a1 a2 : ℕ), _ := fun larger points a1 a2 =>
    C84_oriented_partial (t1 := t1) (t2 := t2) (bvDist := vol.distAt) ht w1 w2 m1 m2 h1 h2 r1 r2
      (fun u v hu hv i hi j hj a ha b hb =>
        hs.dist (Pose.relative_rigid r1 r2) ((E1 u hu i hi).now w1 ha) ((E2 v hv j hj).now w2 hb)) pr1 pr2
      (mesh_pos m1) (mesh_pos m2) larger (fuel := g1.numPrims + g2.numPrims) (by omega) points a1 a2
  obtain ⟨d, p, q, h, -⟩ := run (fun _ _ => true) true 0 0
  refine ⟨d, p, q, h, fun larger points a1 a2 r hr ho => ?_⟩
  obtain ⟨d', p', q', h', hrun⟩ := run larger points a1 a2
  have hd : d' = d := le_antisymm (by rw [← h.attained]; exact h'.least _ h.left _ h.right)
    (by rw [← h'.attained]; exact h.least _ h'.left _ h'.right)
  obtain ⟨r', e, hm⟩ := hrun r hr ho
  exact ⟨r', e, hd ▸ hm⟩

/-! ### The volumes -/

variable {big eps : ℝ} {absorb : ℝ → ℝ → Bool}

theorem obb_sound : (obb big (Jacobi.eigenOld absorb)).Sound OBB.wpts fun _ => True where
  fit _ h p hp := by
    obtain ⟨w, h⟩ := OBB.C65_fitn big absorb h
    exact ⟨w, h p hp⟩
  convex := OBB.wpts_convex
  overlap hX _ _ _ _ hp hq e := OBB.C45_overlapAt hX hp.1 hq.1 hp.2 hq.2 e
  dist _ _ _ _ _ _ _ := V3.dist_nonneg _ _

theorem rss_sound (he : 0 < eps) : (rss eps (Jacobi.eigenOld absorb)).Sound (fun b => {p | b.WF ∧ p ∈ b.pts}) fun _ => True where
  fit {ps b} _ h p hp := by
    cases ps with
    | nil => cases hp
    | cons p0 ps =>
      obtain ⟨w, h⟩ := RSS.C86_fitn absorb h
      exact ⟨w, h p hp⟩
  convex b p q hp hq t h0 h1 := ⟨hp.1, RSS.pts_convex hp.1.r p q hp.2 hq.2 t h0 h1⟩
  overlap {X} hX b1 b2 p q hp hq e := by
    by_contra h
    exact RSS.C85_overlap hp.1 hq.1 hX he (by simpa [rss] using h) p hp.2 q hq.2 e
  dist hX _ _ _ _ hp hq := (RSS.C85_lower hp.1 hq.1 hX he hp.2 hq.2).2

theorem obbrss_sound (he : 0 < eps) :
    (obbrss big eps (Jacobi.eigenOld absorb)).Sound (fun b => {p | b.WF ∧ p ∈ b.pts}) fun _ => True where
  fit {ps b} _ h p hp := by
    cases ps with
    | nil => cases hp
    | cons p0 ps =>
      obtain ⟨w, h⟩ := OBBRSS.C88_fitn big absorb h
      exact ⟨w, h p hp⟩
  convex b p q hp hq t h0 h1 := ⟨hp.1, (OBB.wpts_convex b.obb p q ⟨hp.1.obb, hp.2.1⟩ ⟨hp.1.obb, hq.2.1⟩ t h0 h1).2,
    RSS.pts_convex hp.1.rss.r p q hp.2.2 hq.2.2 t h0 h1⟩
  overlap hX _ _ _ _ hp hq e := OBBRSS.C88_overlap hp.1 hq.1 hX hp.2 hq.2 e
  dist hX _ _ _ _ hp hq := (OBBRSS.C88_lower hp.1 hq.1 hX he hp.2 hq.2).2

theorem ball_convex {s : Ball ℝ} (hr : 0 ≤ s.r) {p q : V3 ℝ} (hp : p ∈ s.pts) (hq : q ∈ s.pts) {t : ℝ} (h0 : 0 ≤ t) (h1 : t ≤ 1) :
    (1 - t) • p + t • q ∈ s.pts := by
  rw [KIOS.ball_iff hr, dist_eq] at *
  have e : (1 - t) • p + t • q - s.o = (1 - t) • (p - s.o) + t • (q - s.o) := by v3
  rw [e]
  refine (V3.nrm_add_le _ _).trans ?_
  rw [V3.nrm_smul, V3.nrm_smul, abs_of_nonneg h0, abs_of_nonneg (by linarith : (0 : ℝ) ≤ 1 - t)]
  have := mul_le_mul_of_nonneg_left hp (by linarith : (0 : ℝ) ≤ 1 - t)
  have := mul_le_mul_of_nonneg_left hq h0
  linarith

theorem kios_sound : (kios big (Jacobi.eigenOld absorb)).Sound (fun b => {p | b.WF ∧ p ∈ b.pts}) fun p => p.nrm ≤ big where
  fit hk h p hp := by
    obtain ⟨w, h⟩ := KIOS.C87_fitn absorb hk h
    exact ⟨w, h p hp⟩
  convex b p q hp hq t h0 h1 := ⟨hp.1, fun s hs => ball_convex (hp.1.radius s hs) (hp.2.1 s hs) (hq.2.1 s hs) h0 h1,
    (OBB.wpts_convex b.obb p q ⟨hp.1.obb, hp.2.2⟩ ⟨hp.1.obb, hq.2.2⟩ t h0 h1).2⟩
  overlap hX _ _ _ _ hp hq e := KIOS.C87_overlap hp.1 hq.1 hX hp.2 hq.2 e
  dist hX _ _ _ _ hp hq := (KIOS.C87_lower hp.1 hq.1 hX hp.2 hq.2).2

theorem rss_fits (h : Fcl.FitsAll big (Jacobi.eigenOld absorb) g) (w : g.WF) (m : g.isMesh = true) :
    (rss eps (Jacobi.eigenOld absorb)).FitsAll g ∧ (obbrss big eps (Jacobi.eigenOld absorb)).FitsAll g ∧
      (kios big (Jacobi.eigenOld absorb)).FitsAll g := by
  have key : ∀ l : List ℕ, l ≠ [] → (∀ p ∈ l, p < g.numPrims) → ∃ p ps, l.flatMap g.primVerts = p :: ps := by
    intro l hne hl
    obtain ⟨i, l', rfl⟩ := List.exists_cons_of_ne_nil hne
    have hi := hl i (by simp)
    rw [Geom.numPrims, if_pos m] at hi
    rcases ht : g.tris[i] with ⟨a, b, c⟩
    obtain ⟨ha, -, -⟩ := w.tris _ (List.getElem_mem hi)
    rw [ht] at ha
    have e : g.tris[i]? = some (a, b, c) := by rw [List.getElem?_eq_getElem hi, ht]
    have hne : g.verts[a] ∈ (i :: l').flatMap g.primVerts := by
      refine List.mem_flatMap.2 ⟨i, by simp, List.mem_append_left _ (List.mem_filterMap.2 ⟨a, ?_, List.getElem?_eq_getElem ha⟩)⟩
      simp [Geom.primIdx, m, e]
    exact List.exists_cons_of_ne_nil (List.ne_nil_of_mem hne)
  refine ⟨fun l hne hnd hl => ?_, fun l hne hnd hl => ?_, fun l hne hnd hl => ?_⟩ <;>
  · obtain ⟨b, hb⟩ := h l hne hnd hl
    obtain ⟨p, ps, e⟩ := key l hne hl
    rw [e] at hb ⊢
    rw [OBB.fitn] at hb
    rcases e' : Jacobi.eigenOld absorb (OBB.covariance (p :: ps)) with _ | ⟨s, E⟩
    · simp only [e'] at hb; cases hb
    · simp [rss, obbrss, kios, RSS.fitn, OBBRSS.fitn, KIOS.fitn, OBB.fitn, e']

/-! ### C88 -/

/-- **C88.** Collision of meshes with OBBs, as in C66. -/
theorem C88_collide_obb (w1 : g1.WF) (w2 : g2.WF) (m1 : g1.isMesh = true) (m2 : g2.isMesh = true) (p1 : g1.Proper) (p2 : g2.Proper)
    (f1 : Fcl.FitsAll big (Jacobi.eigenOld absorb) g1) (f2 : Fcl.FitsAll big (Jacobi.eigenOld absorb) g2) :
    (obb big (Jacobi.eigenOld absorb)).CollidesExactly g1 g2 :=
  obb_sound.collides w1 w2 m1 m2 p1 p2 (fun _ _ _ _ => trivial) (fun _ _ _ _ => trivial) f1 f2

/-- **C88.** Collision of meshes with OBBRSSs. -/
theorem C88_collide_obbrss (he : 0 < eps) (w1 : g1.WF) (w2 : g2.WF) (m1 : g1.isMesh = true) (m2 : g2.isMesh = true)
    (p1 : g1.Proper) (p2 : g2.Proper) (f1 : Fcl.FitsAll big (Jacobi.eigenOld absorb) g1) (f2 : Fcl.FitsAll big (Jacobi.eigenOld absorb) g2) :
    (obbrss big eps (Jacobi.eigenOld absorb)).CollidesExactly g1 g2 :=
  (obbrss_sound he).collides w1 w2 m1 m2 p1 p2 (fun _ _ _ _ => trivial) (fun _ _ _ _ => trivial) (rss_fits f1 w1 m1).2.1 (rss_fits f2 w2 m2).2.1

/-- **C88.** Collision of meshes with kIOSs, if no vertex is beyond the greatest representable number. -/
theorem C88_collide_kios (w1 : g1.WF) (w2 : g2.WF) (m1 : g1.isMesh = true) (m2 : g2.isMesh = true)
    (p1 : g1.Proper) (p2 : g2.Proper) (k1 : ∀ p < g1.numPrims, ∀ x ∈ g1.primVerts p, x.nrm ≤ big)
    (k2 : ∀ p < g2.numPrims, ∀ x ∈ g2.primVerts p, x.nrm ≤ big)
    (f1 : Fcl.FitsAll big (Jacobi.eigenOld absorb) g1) (f2 : Fcl.FitsAll big (Jacobi.eigenOld absorb) g2) :
    (kios big (Jacobi.eigenOld absorb)).CollidesExactly g1 g2 :=
  kios_sound.collides w1 w2 m1 m2 p1 p2 k1 k2 (rss_fits (eps := 0) f1 w1 m1).2.2 (rss_fits (eps := 0) f2 w2 m2).2.2

/-- **C88.** Distance of meshes with RSSs. Missing, as in C84: thin triangles, a result that names the same meshes. -/
theorem C88_distance_rss_partial {thin : ℝ} (ht : 0 ≤ thin) (he : 0 < eps) (w1 : g1.WF) (w2 : g2.WF) (m1 : g1.isMesh = true)
    (m2 : g2.isMesh = true) (h1 : g1.Thick thin) (h2 : g2.Thick thin)
    (f1 : Fcl.FitsAll big (Jacobi.eigenOld absorb) g1) (f2 : Fcl.FitsAll big (Jacobi.eigenOld absorb) g2) :
    (rss eps (Jacobi.eigenOld absorb)).DistancesExactly thin g1 g2 :=
  (rss_sound he).distances ht w1 w2 m1 m2 h1 h2 (fun _ _ _ _ => trivial) (fun _ _ _ _ => trivial) (rss_fits f1 w1 m1).1 (rss_fits f2 w2 m2).1

/-- **C88.** Distance of meshes with OBBRSSs. Missing: as for RSSs. -/
theorem C88_distance_obbrss_partial {thin : ℝ} (ht : 0 ≤ thin) (he : 0 < eps) (w1 : g1.WF) (w2 : g2.WF) (m1 : g1.isMesh = true)
    (m2 : g2.isMesh = true) (h1 : g1.Thick thin) (h2 : g2.Thick thin)
    (f1 : Fcl.FitsAll big (Jacobi.eigenOld absorb) g1) (f2 : Fcl.FitsAll big (Jacobi.eigenOld absorb) g2) :
    (obbrss big eps (Jacobi.eigenOld absorb)).DistancesExactly thin g1 g2 :=
  (obbrss_sound he).distances ht w1 w2 m1 m2 h1 h2 (fun _ _ _ _ => trivial) (fun _ _ _ _ => trivial) (rss_fits f1 w1 m1).2.1
    (rss_fits f2 w2 m2).2.1

/-- **C88.** Distance of meshes with kIOSs, if no vertex is beyond the greatest representable number. Missing: as for
RSSs. -/
theorem C88_distance_kios_partial {thin : ℝ} (ht : 0 ≤ thin) (w1 : g1.WF) (w2 : g2.WF) (m1 : g1.isMesh = true)
    (m2 : g2.isMesh = true) (h1 : g1.Thick thin) (h2 : g2.Thick thin) (k1 : ∀ p < g1.numPrims, ∀ x ∈ g1.primVerts p, x.nrm ≤ big)
    (k2 : ∀ p < g2.numPrims, ∀ x ∈ g2.primVerts p, x.nrm ≤ big)
    (f1 : Fcl.FitsAll big (Jacobi.eigenOld absorb) g1) (f2 : Fcl.FitsAll big (Jacobi.eigenOld absorb) g2) :
    (kios big (Jacobi.eigenOld absorb)).DistancesExactly thin g1 g2 :=
  kios_sound.distances ht w1 w2 m1 m2 h1 h2 k1 k2 (rss_fits (eps := 0) f1 w1 m1).2.2 (rss_fits (eps := 0) f2 w2 m2).2.2

/-- **C88.** Collision of meshes with RSSs, from the arrays to the answer: the meshes are moved to their poses and the
hierarchies built anew. -/
theorem C88_collide_rss (he : 0 < eps) (w1 : g1.WF) (w2 : g2.WF) (m1 : g1.isMesh = true) (m2 : g2.isMesh = true)
    (p1 : g1.Proper) (p2 : g2.Proper) {tf1 tf2 : Pose ℝ} (r1 : tf1.Rigid) (r2 : tf2.Rigid)
    (f1 : Fcl.FitsAll big (Jacobi.eigenOld absorb) (g1.move tf1)) (f2 : Fcl.FitsAll big (Jacobi.eigenOld absorb) (g2.move tf2))
    (junk : RSS ℝ) (right1 right2 : RSS ℝ → List ℕ → ℕ → Bool) {bvs1 bvs2 : List (BVNode (RSS ℝ))} {prims1 prims2 : List ℕ}
    (b1 : 2 * g1.numPrims - 1 ≤ bvs1.length) (b2 : 2 * g2.numPrims - 1 ≤ bvs2.length)
    (l1 : g1.numPrims ≤ prims1.length) (l2 : g2.numPrims ≤ prims2.length) :
    ∃ s1 s2 t1 t2 ids1 ids2,
      buildTree ((rss eps (Jacobi.eigenOld absorb)).builder junk (g1.move tf1) right1) g1.numPrims g1.numPrims bvs1 prims1 = some s1 ∧
      buildTree ((rss eps (Jacobi.eigenOld absorb)).builder junk (g2.move tf2) right2) g2.numPrims g2.numPrims bvs2 prims2 = some s2 ∧
      IsTree s1.bvs s1.prims 0 0 g1.numPrims ids1 t1 ∧ IsTree s2.bvs s2.prims 0 0 g2.numPrims ids2 t2 ∧
      ∀ (larger : RSS ℝ → RSS ℝ → Bool) (big : ℝ), 0 < big →
        ∀ (junk : Option ℕ) (free : Bool) (cost : ℕ → ℕ → CostSource ℝ) (q : MeshRequest), 0 < q.req.numMax →
        ∃ r : CollResult (ℕ × ℕ) ℝ,
          rebuiltCollide (RSS.overlap eps) larger (g1.numPrims + g2.numPrims) (g1.move tf1) t1 (g2.move tf2) t2
            (meshPair big junk (g1.move tf1) (g2.move tf2) true free cost) q CollResult.empty = .result r ∧
          (r.isCollision = true ↔ ∃ i < g1.numPrims, ∃ j < g2.numPrims, MeshTouch g1 tf1 g2 tf2 i j) := by
  have c1 : (g1.move tf1).numPrims = g1.numPrims := by simp [Geom.numPrims, Geom.move, Geom.isMesh]
  have c2 : (g2.move tf2).numPrims = g2.numPrims := by simp [Geom.numPrims, Geom.move, Geom.isMesh]
  have w1' := Geom.move_wf w1 tf1
  have w2' := Geom.move_wf w2 tf2
  have P1 : (g1.move tf1).Proper := fun i hi => by
    rw [c1] at hi; rw [Geom.tri_move w1 m1 tf1 hi]; exact Tri.move_proper r1 (p1 i hi)
  have P2 : (g2.move tf2).Proper := fun i hi => by
    rw [c2] at hi; rw [Geom.tri_move w2 m2 tf2 hi]; exact Tri.move_proper r2 (p2 i hi)
  obtain ⟨v1, q1, t1, ids1, e1, -, -, i1, -, -, pr1, d1, F1, -⟩ :=
    C31_build ((rss eps (Jacobi.eigenOld absorb)).builder junk (g1.move tf1) right1) (mesh_pos m1) le_rfl b1 l1
  obtain ⟨v2, q2, t2, ids2, e2, -, -, i2, -, -, pr2, d2, F2, -⟩ :=
    C31_build ((rss eps (Jacobi.eigenOld absorb)).builder junk (g2.move tf2) right2) (mesh_pos m2) le_rfl b2 l2
  refine ⟨_, _, t1, t2, ids1, ids2, e1, e2, i1, i2, fun larger big hb junk' free cost q hq => ?_⟩
  have E1 := (rss_sound he).enclosing (fun _ _ _ _ => trivial) (rss_fits f1 w1' m1).1 (c1.symm ▸ pr1) F1
  have E2 := (rss_sound he).enclosing (fun _ _ _ _ => trivial) (rss_fits f2 w2' m2).1 (c2.symm ▸ pr2) F2
  obtain ⟨M, hM⟩ : ∃ M, M = meshPair big junk' (g1.move tf1) (g2.move tf2) true free cost := ⟨_, rfl⟩
  have hex := meshPair_exact hb junk' w1' w2' m1 m2 P1 P2 true free cost q
  rw [← hM] at hex ⊢
  obtain ⟨r, e, hr⟩ := mesh_collide_iff (overlap := RSS.overlap eps) (touch := fun i j => ∃ x, x ∈ (g1.move tf1).solid i ∧ x ∈ (g2.move tf2).solid j)
    (fun u hu v hv i hi j hj ⟨x, hx1, hx2⟩ => by
      obtain ⟨wu, pu⟩ := (E1 u hu i hi).now w1' hx1
      obtain ⟨wv, pv⟩ := (E2 v hv j hj).now w2' hx2
      by_contra h
      exact RSS.C85_member_overlap wu wv he (by simpa using h) ⟨x, pu, pv⟩)
    pr1 pr2 larger (fuel := g1.numPrims + g2.numPrims) (by omega) M (by rw [hM]; rfl) q hq (by rwa [c1, c2] at hex)
  refine ⟨r, ?_, ?_⟩
  · have hsat : q.req.isSatisfied (CollResult.empty : CollResult (ℕ × ℕ) ℝ) = false := by
      simp [CollRequest.isSatisfied, CollResult.isCollision, CollResult.empty]
    have m1' : (g1.move tf1).isMesh = true := m1
    have m2' : (g2.move tf2).isMesh = true := m2
    simp only [rebuiltCollide, hsat, m1', m2', e]
    simp
  · rw [hr]
    constructor
    · rintro ⟨i, hi, j, hj, x, hx1, hx2⟩
      rw [Geom.move_solid w1 m1 tf1 hi] at hx1
      rw [Geom.move_solid w2 m2 tf2 hj] at hx2
      exact ⟨i, hi, j, hj, x, hx1, hx2⟩
    · rintro ⟨i, hi, j, hj, x, hx1, hx2⟩
      rw [← Geom.move_solid w1 m1 tf1 hi] at hx1
      rw [← Geom.move_solid w2 m2 tf2 hj] at hx2
      exact ⟨i, hi, j, hj, x, hx1, hx2⟩

/-! ### A concrete case -/

theorem exSquare_near {big : ℝ} (hb : 1 ≤ big) : ∀ p < exSquare.numPrims, ∀ x ∈ exSquare.primVerts p, x.nrm ≤ big := by
  intro p hp x hx
  have hn : ∀ x ∈ exSquare.verts, x.nrm ≤ 1 := by
    intro x hx
    rw [V3.nrm_le_iff zero_le_one]
    simp only [exSquare, List.mem_cons, List.not_mem_nil, or_false] at hx
    rcases hx with rfl | rfl | rfl | rfl <;> norm_num [dot]
  rcases List.mem_append.1 hx with hx | hx
  · obtain ⟨i, -, hi⟩ := List.mem_filterMap.1 hx
    exact (hn x (List.mem_of_getElem? hi)).trans hb
  · cases hx

/-- The hypotheses are met by two squares. -/
example {big : ℝ} (hb : 1 ≤ big) (absorb : ℝ → ℝ → Bool) :=
  C88_collide_kios exSquare_wf exSquare_wf rfl rfl exSquare_proper exSquare_proper (exSquare_near hb) (exSquare_near hb)
    (exSquare_fits big absorb) (exSquare_fits big absorb)

example (big : ℝ) (absorb : ℝ → ℝ → Bool) :=
  C88_collide_obbrss (by norm_num : (0 : ℝ) < 1 / 10 ^ 7) exSquare_wf exSquare_wf rfl rfl exSquare_proper exSquare_proper
    (exSquare_fits big absorb) (exSquare_fits big absorb)

example {big : ℝ} (hb : 1 ≤ big) (absorb : ℝ → ℝ → Bool) :=
  C88_distance_kios_partial (by norm_num : (0 : ℝ) ≤ 1 / 10 ^ 15) exSquare_wf exSquare_wf rfl rfl exSquare_thick exSquare_thick
    (exSquare_near hb) (exSquare_near hb) (exSquare_fits big absorb) (exSquare_fits big absorb)

theorem exSquare_move_id : exSquare.move Pose.id = exSquare := by
  have : (Pose.id : Pose ℝ).apply = id := funext Pose.id_apply
  simp [Geom.move, this, exSquare]

example (big : ℝ) (absorb : ℝ → ℝ → Bool) (junk : RSS ℝ) (right : RSS ℝ → List ℕ → ℕ → Bool) :=
  C88_collide_rss (tf1 := Pose.id) (tf2 := Pose.id) (by norm_num : (0 : ℝ) < 1 / 10 ^ 7) exSquare_wf exSquare_wf rfl rfl exSquare_proper
    exSquare_proper Pose.id_rigid Pose.id_rigid (exSquare_move_id.symm ▸ exSquare_fits big absorb)
    (exSquare_move_id.symm ▸ exSquare_fits big absorb) junk right right
    (bvs1 := List.replicate 3 ⟨junk, 9, 9, 9⟩) (bvs2 := List.replicate 3 ⟨junk, 9, 9, 9⟩) (prims1 := [8, 8]) (prims2 := [8, 8])
    (Nat.le_refl 3) (Nat.le_refl 3) (by decide) (by decide)

end OVol
end Fcl
