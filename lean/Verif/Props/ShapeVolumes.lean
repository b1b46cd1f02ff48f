import Verif.Geom.HullLemmas
import Verif.Props.Volumes
import Verif.Props.KDOP

/-!
# C89: the bounding volume computed for a shape encloses the shape

`computeBV(shape, tf, bv)` for all volumes but AABBs, which are C43's.
-/

namespace Fcl
open V3

/-- The points to which the generic code fits a volume are in general position: the corners of a triangle are not on a
line, nor are the vertices of a `Convex` if there are three, and two vertices are different. -/
def Geo.Fittable : Geo ℝ → Prop
  | .triangle a b c => (a - b).cross (b - c) ≠ 0
  | .convex vs => (∀ p1 p2, vs = [p1, p2] → p1 ≠ p2) ∧ ∀ p1 p2 p3, vs = [p1, p2, p3] → (p1 - p2).cross (p2 - p3) ≠ 0
  | _ => True

variable {g : Geo ℝ} {X : Pose ℝ} {big prec : ℝ} {absorb : ℝ → ℝ → Bool}

/-- **C89.** The bound vertices of a shape surround the shape, at every pose. -/
theorem C89_hull (hw : g.WF) (hb : g.Bounded) (X : Pose ℝ) : Placed X.R X.t g.pts ⊆ {p | HullOf (g.boundVertices X) p} := by
  rintro _ ⟨p, hp, rfl⟩
  exact hull_apply X (BoundVertices.ofGeo_hull hw hb hp)

/-- Any convex set with the bound vertices has the shape. -/
theorem C89_convex (hw : g.WF) (hb : g.Bounded) {S : Set (V3 ℝ)} (hS : ConvexSet S) (h : ∀ p ∈ g.boundVertices X, p ∈ S) :
    Placed X.R X.t g.pts ⊆ S := fun _ hp => HullOf.subset h (fun p q hp hq => hS p hp q hq) (C89_hull hw hb X hp)

theorem cross_apply (hX : X.Rigid) {a b c : V3 ℝ} (h : (a - b).cross (b - c) ≠ 0) :
    (X.apply a - X.apply b).cross (X.apply b - X.apply c) ≠ 0 := by
  have e : ∀ a b c : V3 ℝ, (b - a).cross (c - a) = (a - b).cross (b - c) := fun a b c => by
    apply V3.ext' <;> simp [V3.cross] <;> ring
  have := Tri.move_proper (P := ⟨a, b, c⟩) hX (by show (b - a).cross (c - a) ≠ 0; rw [e]; exact h)
  change (X.apply b - X.apply a).cross (X.apply c - X.apply a) ≠ 0 at this
  rwa [e] at this

theorem fittable_general (hf : g.Fittable) (hX : X.Rigid) : (∀ p1 p2, g.boundVertices X = [p1, p2] → p1 ≠ p2) ∧
    ∀ p1 p2 p3, g.boundVertices X = [p1, p2, p3] → (p1 - p2).cross (p2 - p3) ≠ 0 := by
  have len : ∀ {l : List (V3 ℝ)}, g.boundVertices X = l → (BoundVertices.ofGeo g).length = l.length := fun h => by
    rw [← h]; simp [Geo.boundVertices]
  cases g with
  | triangle a b c =>
    refine ⟨fun p1 p2 h => by simpa [BoundVertices.ofGeo] using len h, fun p1 p2 p3 h => ?_⟩
    simp only [Geo.boundVertices, BoundVertices.ofGeo, List.map_cons, List.map_nil, List.cons.injEq] at h
    obtain ⟨rfl, rfl, rfl, -⟩ := h
    exact cross_apply hX hf
  | convex vs =>
    refine ⟨fun p1 p2 h => ?_, fun p1 p2 p3 h => ?_⟩
    · have hl := len h
      simp only [BoundVertices.ofGeo, List.length_cons, List.length_nil] at hl
      obtain ⟨a, b, rfl⟩ := List.length_eq_two.1 hl
      simp only [Geo.boundVertices, BoundVertices.ofGeo, List.map_cons, List.map_nil, List.cons.injEq] at h
      obtain ⟨rfl, rfl, -⟩ := h
      exact fun e => hf.1 a b rfl (Pose.apply_injective hX e)
    · have hl := len h
      simp only [BoundVertices.ofGeo, List.length_cons, List.length_nil] at hl
      obtain ⟨a, b, c, rfl⟩ := List.length_eq_three.1 hl
      simp only [Geo.boundVertices, BoundVertices.ofGeo, List.map_cons, List.map_nil, List.cons.injEq] at h
      obtain ⟨rfl, rfl, rfl, -⟩ := h
      exact cross_apply hX (hf.2 a b c rfl)
  | _ =>
    exact ⟨fun p1 p2 h => by have := len h; simp [BoundVertices.ofGeo, BoundVertices.box, BoundVertices.sphere, BoundVertices.ellipsoid,
        BoundVertices.icosahedron, BoundVertices.capsule, BoundVertices.cone, BoundVertices.cylinder, BoundVertices.hexagon] at this,
      fun p1 p2 p3 h => by have := len h; simp [BoundVertices.ofGeo, BoundVertices.box, BoundVertices.sphere, BoundVertices.ellipsoid,
        BoundVertices.icosahedron, BoundVertices.capsule, BoundVertices.cone, BoundVertices.cylinder, BoundVertices.hexagon] at this⟩

/-! ### Bounded shapes -/

/-- **C89 for k-DOPs.** The volume encloses the shape and whatever it enclosed before the call. -/
theorem C89_kdop {k : KDopN} (hw : g.WF) (hb : g.Bounded) (X : Pose ℝ) (big : ℝ) (bv : KDOP k ℝ) :
    Placed X.R X.t g.pts ⊆ (ComputeBV.kdop big bv g X).pts ∧ bv.pts ⊆ (ComputeBV.kdop big bv g X).pts := by
  have e : ComputeBV.kdop big bv g X = (g.boundVertices X).foldl KDOP.addPoint bv := by
    cases g <;> first | rfl | exact hb.elim
  have key : ∀ (l : List (V3 ℝ)) (bv : KDOP k ℝ), bv.pts ⊆ (l.foldl KDOP.addPoint bv).pts ∧ ∀ p ∈ l, p ∈ (l.foldl KDOP.addPoint bv).pts := by
    intro l
    induction l with
    | nil => exact fun bv => ⟨le_rfl, by simp⟩
    | cons a l ih =>
      intro bv
      obtain ⟨h1, h2⟩ := C44_addPoint bv a
      obtain ⟨i1, i2⟩ := ih (bv.addPoint a)
      refine ⟨h2.trans i1, fun p hp => ?_⟩
      rcases List.mem_cons.1 hp with rfl | hp
      · exact i1 h1
      · exact i2 p hp
  rw [e]
  refine ⟨C89_convex hw hb (fun p hp q hq t h0 h1 => ?_) (key _ bv).2, (key _ bv).1⟩
  rw [KDOP.mem_pts] at *
  intro i hi
  obtain ⟨a1, a2⟩ := hp i hi
  obtain ⟨b1, b2⟩ := hq i hi
  have e : slabValue k ((1 - t) • p + t • q) i = (1 - t) * slabValue k p i + t * slabValue k q i := by
    obtain ⟨v, hv⟩ := half_normals.1 hi
    rw [slabValue_along _ hv, slabValue_along _ hv, slabValue_along _ hv]
    simp only [along, V3.add_x, V3.add_y, V3.add_z, V3.smul_x, V3.smul_y, V3.smul_z]; ring
  rw [e]
  have s0 : 0 ≤ 1 - t := by linarith
  constructor <;> nlinarith

/-- **C89 for RSSs.** Missing: a triangle without area, a `Convex` with all vertices on a line, if there are no more than
three (`C86_violated_fit`). -/
theorem C89_rss_partial (hw : g.WF) (hb : g.Bounded) (hf : g.Fittable) (hX : X.Rigid) {b : RSS ℝ}
    (h : ComputeBV.rss big prec (Jacobi.eigenOld absorb) g X = some b) : b.WF ∧ Placed X.R X.t g.pts ⊆ b.pts := by
  have e : ComputeBV.rss big prec (Jacobi.eigenOld absorb) g X = RSS.fit prec (Jacobi.eigenOld absorb) (g.boundVertices X) := by
    cases g <;> first | rfl | exact hb.elim
  rw [e] at h
  obtain ⟨w, hm⟩ := RSS.C86_fit_partial prec absorb (fittable_general hf hX).1 (fittable_general hf hX).2 h
  exact ⟨w, C89_convex hw hb (fun p hp q hq => RSS.pts_convex w.r p q hp hq) hm⟩

/-- **C89 for kIOSs**, if no bound vertex is further from the origin than the greatest representable number. Missing: as
for RSSs. -/
theorem C89_kios_partial (hw : g.WF) (hb : g.Bounded) (hf : g.Fittable) (hX : X.Rigid) (hn : ∀ p ∈ g.boundVertices X, p.nrm ≤ big) {b : KIOS ℝ}
    (h : ComputeBV.kios big prec (Jacobi.eigenOld absorb) g X = some b) : b.WF ∧ Placed X.R X.t g.pts ⊆ b.pts := by
  have e : ComputeBV.kios big prec (Jacobi.eigenOld absorb) g X = KIOS.fit big prec (Jacobi.eigenOld absorb) (g.boundVertices X) := by
    cases g <;> first | rfl | exact hb.elim
  rw [e] at h
  obtain ⟨w, hm⟩ := KIOS.C87_fit_partial prec absorb hn (fittable_general hf hX).1 (fittable_general hf hX).2 h
  exact ⟨w, C89_convex hw hb (fun p hp q hq t h0 h1 => (OVol.kios_sound (big := big) (absorb := absorb)).convex b p q ⟨w, hp⟩ ⟨w, hq⟩ t h0 h1 |>.2) hm⟩

theorem OBBRSS.fit_points (prec : ℝ) {ps : List (V3 ℝ)}
    (h2 : ∀ p1 p2, ps = [p1, p2] → p1 ≠ p2) (h3 : ∀ p1 p2 p3, ps = [p1, p2, p3] → (p1 - p2).cross (p2 - p3) ≠ 0) {b : OBBRSS ℝ}
    (h : OBBRSS.fit big prec (Jacobi.eigenOld absorb) ps = some b) : b.WF ∧ ∀ p ∈ ps, p ∈ b.pts := by
  rw [OBBRSS.fit.eq_def] at h
  split at h
  · cases h
  · next p =>
    rw [← Option.some.inj h]
    exact ⟨⟨(OBB.C65_fit1 p).1, (RSS.C86_fit1 p).1⟩, fun q hq => by
      rw [List.mem_singleton.1 hq]; exact ⟨(OBB.C65_fit1 p).2, (RSS.C86_fit1 p).2⟩⟩
  · next p1 p2 =>
    split at h
    · next o r ho hr =>
      rw [← Option.some.inj h]
      obtain ⟨w1, a1, a2⟩ := OBB.C65_fit2 (h2 p1 p2 rfl) ho
      obtain ⟨w2, c1, c2⟩ := RSS.C86_fit2 (h2 p1 p2 rfl) hr
      refine ⟨⟨w1, w2⟩, fun q hq => ?_⟩
      simp only [List.mem_cons, List.not_mem_nil, or_false] at hq
      rcases hq with rfl | rfl
      · exact ⟨a1, c1⟩
      · exact ⟨a2, c2⟩
    · cases h
  · next p1 p2 p3 =>
    rw [← Option.some.inj h]
    obtain ⟨w1, a⟩ := OBB.C65_fit3 big (h3 p1 p2 p3 rfl)
    obtain ⟨w2, c⟩ := RSS.C86_fit3 (h3 p1 p2 p3 rfl)
    exact ⟨⟨w1, w2⟩, fun q hq => ⟨a q hq, c q hq⟩⟩
  · exact OBBRSS.C88_fitn big absorb h

/-- **C89 for OBBRSSs.** Missing: as for RSSs. -/
theorem C89_obbrss_partial (hw : g.WF) (hb : g.Bounded) (hf : g.Fittable) (hX : X.Rigid) {b : OBBRSS ℝ}
    (h : ComputeBV.obbrss big prec (Jacobi.eigenOld absorb) g X = some b) : b.WF ∧ Placed X.R X.t g.pts ⊆ b.pts := by
  have e : ComputeBV.obbrss big prec (Jacobi.eigenOld absorb) g X = OBBRSS.fit big prec (Jacobi.eigenOld absorb) (g.boundVertices X) := by
    cases g <;> first | rfl | exact hb.elim
  rw [e] at h
  obtain ⟨w, hm⟩ := OBBRSS.fit_points prec (fittable_general hf hX).1 (fittable_general hf hX).2 h
  refine ⟨w, C89_convex hw hb (fun p hp q hq t h0 h1 => ?_) hm⟩
  exact ⟨(OBB.wpts_convex b.obb p q ⟨w.obb, hp.1⟩ ⟨w.obb, hq.1⟩ t h0 h1).2, RSS.pts_convex w.rss.r p q hp.2 hq.2 t h0 h1⟩

theorem obbAt_mem {e p : V3 ℝ} (hx : |p.x| ≤ e.x) (hy : |p.y| ≤ e.y) (hz : |p.z| ≤ e.z) : X.R.mulVec p + X.t ∈ (ComputeBV.obbAt X e).pts :=
  ⟨p, hx, hy, hz, by
    simp only [ComputeBV.obbAt]
    apply V3.ext' <;> simp [M3.mulVec, M3.col, V3.get, V3.dot] <;> ring⟩

/-- **C89 for OBBs.** Missing: a triangle without area, and `Convex`, which `C89_violated_obb_convex` refutes. -/
theorem C89_obb_partial (hw : g.WF) (hb : g.Bounded) (hf : g.Fittable) (hc : ∀ vs, g ≠ .convex vs) (hX : X.Rigid) {b : OBB ℝ}
    (h : ComputeBV.obb big prec (Jacobi.eigenOld absorb) g X = some b) : b.WF ∧ Placed X.R X.t g.pts ⊆ b.pts := by
  have sq : ∀ {x y z r : ℝ}, 0 ≤ r → x * x + y * y + z * z ≤ r * r → |x| ≤ r ∧ |y| ≤ r ∧ |z| ≤ r := fun hr h =>
    ⟨abs_le_of_sq hr (by nlinarith), abs_le_of_sq hr (by nlinarith), abs_le_of_sq hr (by nlinarith)⟩
  cases g with
  | box side =>
    rw [← Option.some.inj h]
    refine ⟨hX, ?_⟩
    rintro _ ⟨p, ⟨hx, hy, hz⟩, rfl⟩
    refine obbAt_mem ?_ ?_ ?_ <;> simp only [V3.smul_x, V3.smul_y, V3.smul_z] <;> rw [abs_le] <;> constructor <;> linarith [hx.1, hx.2, hy.1, hy.2, hz.1, hz.2]
  | sphere r =>
    rw [← Option.some.inj h]
    refine ⟨M3.orthonormal_one, ?_⟩
    rintro _ ⟨p, hp, rfl⟩
    have hn : (X.R.mulVec p).dot (X.R.mulVec p) ≤ r * r := by rw [M3.Orthonormal.dot hX]; exact hp
    obtain ⟨h1, h2, h3⟩ := sq hw hn
    exact ⟨X.R.mulVec p, h1, h2, h3, by apply V3.ext' <;> simp [M3.col, M3.one, V3.get, add_comm]⟩
  | capsule r lz =>
    rw [← Option.some.inj h]
    refine ⟨hX, ?_⟩
    rintro _ ⟨p, ⟨c, c0, c1, hp⟩, rfl⟩
    obtain ⟨h1, h2, h3⟩ := sq hw.1 hp
    refine obbAt_mem h1 h2 ?_
    rw [abs_le] at *
    constructor <;> linarith [h3.1, h3.2]
  | cylinder r lz =>
    rw [← Option.some.inj h]
    refine ⟨hX, ?_⟩
    rintro _ ⟨p, ⟨hp, c0, c1⟩, rfl⟩
    obtain ⟨h1, h2, -⟩ := sq (x := p.x) (y := p.y) (z := 0) hw.1 (by linarith)
    exact obbAt_mem h1 h2 (abs_le.2 ⟨c0, c1⟩)
  | cone r lz =>
    rw [← Option.some.inj h]
    refine ⟨hX, ?_⟩
    rintro _ ⟨p, hp, rfl⟩
    obtain ⟨hp, c0, c1⟩ := cone_subset hw.2 hp
    obtain ⟨h1, h2, -⟩ := sq (x := p.x) (y := p.y) (z := 0) hw.1 (by linarith)
    exact obbAt_mem h1 h2 (abs_le.2 ⟨c0, c1⟩)
  | ellipsoid radii =>
    rw [← Option.some.inj h]
    refine ⟨hX, ?_⟩
    rintro _ ⟨_, ⟨q, hq, rfl⟩, rfl⟩
    obtain ⟨h1, h2, h3⟩ := sq zero_le_one (by linarith : q.x * q.x + q.y * q.y + q.z * q.z ≤ 1 * 1)
    obtain ⟨w1, w2, w3⟩ := hw
    refine obbAt_mem ?_ ?_ ?_ <;> simp only [abs_mul]
    · rw [abs_of_nonneg w1]; exact mul_le_of_le_one_right w1 h1
    · rw [abs_of_nonneg w2]; exact mul_le_of_le_one_right w2 h2
    · rw [abs_of_nonneg w3]; exact mul_le_of_le_one_right w3 h3
  | triangle a b' c =>
    obtain ⟨w, hm⟩ := OBB.C65_fit_partial big prec absorb (by simp [Geo.boundVertices, BoundVertices.ofGeo]) (fittable_general hf hX).1
      (fittable_general hf hX).2 h
    exact ⟨w, C89_convex hw hb (fun p hp q hq t h0 h1 => (OBB.wpts_convex b p q ⟨w, hp⟩ ⟨w, hq⟩ t h0 h1).2) hm⟩
  | convex vs => exact absurd rfl (hc vs)
  | halfspace n d => exact hb.elim
  | plane n d => exact hb.elim

/-! ### Half-spaces and planes

No box encloses them: the volumes have those of their points whose coordinates the number type represents. -/

/-- **C89, half-spaces.** Whatever half-space it is, the volumes enclose every point not further from the origin than the
greatest number. -/
theorem C89_halfspace (n : V3 ℝ) (d : ℝ) (X : Pose ℝ) (prec : ℝ) (eig : OBB.EigenFn ℝ) {p : V3 ℝ} (hp : p.nrm ≤ big) :
    (∃ b, ComputeBV.obb big prec eig (.halfspace n d) X = some b ∧ b.WF ∧ p ∈ b.pts) ∧
    (∃ b, ComputeBV.rss big prec eig (.halfspace n d) X = some b ∧ b.WF ∧ p ∈ b.pts) ∧
    (∃ b, ComputeBV.obbrss big prec eig (.halfspace n d) X = some b ∧ b.WF ∧ p ∈ b.pts) ∧
    ∃ b, ComputeBV.kios big prec eig (.halfspace n d) X = some b ∧ b.WF ∧ p ∈ b.pts := by
  have h0 : 0 ≤ big := (V3.nrm_nonneg p).trans hp
  have hd := (V3.nrm_le_iff h0).1 hp
  rw [V3.dot_def] at hd
  have ho : p ∈ (⟨M3.one, 0, ⟨big, big, big⟩⟩ : OBB ℝ).pts :=
    ⟨p, abs_le_of_sq h0 (by nlinarith), abs_le_of_sq h0 (by nlinarith), abs_le_of_sq h0 (by nlinarith), by
      apply V3.ext' <;> simp [M3.col, M3.one, V3.get]⟩
  have hr : p ∈ (⟨M3.one, 0, big, big, big⟩ : RSS ℝ).pts :=
    ⟨0, ⟨0, 0, le_rfl, h0, le_rfl, h0, by apply V3.ext' <;> simp⟩, by simpa [V3.dot_def] using hd⟩
  have wr : (⟨M3.one, 0, big, big, big⟩ : RSS ℝ).WF := ⟨M3.orthonormal_one, h0, h0, h0⟩
  refine ⟨⟨_, rfl, M3.orthonormal_one, ho⟩, ⟨_, rfl, wr, hr⟩, ⟨_, rfl, ⟨M3.orthonormal_one, wr⟩, ho, hr⟩, ⟨_, rfl, ?_, ?_⟩⟩
  · exact ⟨M3.orthonormal_one, fun s hs => by rw [List.mem_singleton.1 hs]; exact h0⟩
  · exact ⟨fun s hs => by rw [List.mem_singleton.1 hs]; show (p - 0).dot (p - 0) ≤ big * big; simpa [V3.dot_def] using hd, ho⟩

theorem plane_axis {n : V3 ℝ} (hX : X.Rigid) (hn : n.dot n = 1) {axis : M3 ℝ} (h : OBB.coordinateSystem prec (X.R.mulVec n) = some axis) :
    axis.Orthonormal ∧ axis.col 0 = X.R.mulVec n := by
  have h1 : (X.R.mulVec n).dot (X.R.mulVec n) = 1 := by rw [M3.Orthonormal.dot hX, hn]
  have hv : X.R.mulVec n ≠ 0 := fun h0 => by rw [h0] at h1; simp [V3.dot] at h1
  obtain ⟨ho, h0⟩ := OBB.coordinateSystem_orthonormal hv h
  refine ⟨ho, h0.trans ?_⟩
  have e : (X.R.mulVec n).nrm = 1 := V3.nrm_unique zero_le_one (by linarith)
  rw [V3.normalized, e, if_neg one_ne_zero]
  apply V3.ext' <;> simp

/-- The plane at its pose: the points whose difference from the foot is perpendicular to the normal. -/
theorem placed_plane {n : V3 ℝ} {d : ℝ} (hX : X.Rigid) (hn : n.dot n = 1) {p : V3 ℝ} :
    p ∈ Placed X.R X.t (Geo.plane n d).pts ↔ (X.R.mulVec n).dot (p - X.apply (d • n)) = 0 := by
  have key : ∀ q : V3 ℝ, (X.R.mulVec n).dot (X.apply q - X.apply (d • n)) = n.dot q - d := fun q => by
    rw [V3.dot_sub]
    have h1 := transform_dot (n := n) (d := d) hX q
    have h2 := transform_dot (n := n) (d := d) hX (d • n)
    rw [V3.dot_smul, hn] at h2
    linarith
  constructor
  · rintro ⟨q, hq, rfl⟩
    have hq : n.dot q = d := hq
    change (X.R.mulVec n).dot (X.apply q - X.apply (d • n)) = 0
    rw [key, hq]; ring
  · intro h
    refine ⟨X.inv.apply p, ?_, (Pose.apply_inv hX p).symm⟩
    have := key (X.inv.apply p)
    rw [Pose.apply_inv hX, h] at this
    show n.dot (X.inv.apply p) = d
    linarith

/-- **C89, planes:** oriented boxes and kIOSs. They enclose the points of the plane not further from the foot of the
perpendicular from the origin of the plane's frame than the greatest number, and kIOSs those which are not further from the
origin either. -/
theorem C89_plane {n : V3 ℝ} {d : ℝ} (hX : X.Rigid) (hn : n.dot n = 1) (eig : OBB.EigenFn ℝ) {p : V3 ℝ}
    (hp : p ∈ Placed X.R X.t (Geo.plane n d).pts) (hr : p.dist (X.apply (d • n)) ≤ big) :
    (∀ b, ComputeBV.obb big prec eig (.plane n d) X = some b → b.WF ∧ p ∈ b.pts) ∧
    (p.nrm ≤ big → ∀ b, ComputeBV.kios big prec eig (.plane n d) X = some b → b.WF ∧ p ∈ b.pts) := by
  have ho : ∀ b, ComputeBV.obb big prec eig (.plane n d) X = some b → b.WF ∧ p ∈ b.pts := by
    intro b hb
    obtain ⟨axis, ha, rfl⟩ := Option.map_eq_some_iff.1 hb
    obtain ⟨o, h0⟩ := plane_axis hX hn ha
    have hx : (axis.tr.mulVec (p - X.apply (d • n))).x = 0 := by
      rw [OBB.tr_mulVec, h0, V3.dot_comm]; exact (placed_plane hX hn).1 hp
    have hb0 : 0 ≤ big := (V3.dist_nonneg _ _).trans hr
    rw [dist_eq] at hr
    have hd := (V3.nrm_le_iff hb0).1 hr
    rw [← M3.Orthonormal.dot (M3.Orthonormal.tr o), V3.dot_def] at hd
    have hw : axis.mulVec (axis.tr.mulVec (p - X.apply (d • n))) = p - X.apply (d • n) := M3.Orthonormal.mul_tr o _
    have hy := abs_le_of_sq (x := (axis.tr.mulVec (p - X.apply (d • n))).y) hb0 (by nlinarith)
    have hz := abs_le_of_sq (x := (axis.tr.mulVec (p - X.apply (d • n))).z) hb0 (by nlinarith)
    refine ⟨o, OBB.mem_pts_iff.2 ⟨axis.tr.mulVec (p - X.apply (d • n)), ?_, hy, hz, ?_⟩⟩
    · show |(axis.tr.mulVec (p - X.apply (d • n))).x| ≤ 0
      rw [hx, abs_zero]
    · show p = axis.mulVec (axis.tr.mulVec (p - X.apply (d • n))) + X.apply (d • n)
      rw [hw]; apply V3.ext' <;> simp
  refine ⟨ho, fun hn' b hb => ?_⟩
  obtain ⟨o, h, rfl⟩ := Option.map_eq_some_iff.1 hb
  obtain ⟨w, hm⟩ := ho o h
  have hb0 : 0 ≤ big := (V3.nrm_nonneg _).trans hn'
  have hd := (V3.nrm_le_iff hb0).1 hn'
  refine ⟨⟨w, fun s hs => by rw [List.mem_singleton.1 hs]; exact hb0⟩, fun s hs => ?_, hm⟩
  rw [List.mem_singleton.1 hs]; show (p - 0).dot (p - 0) ≤ big * big; simpa [V3.dot_def] using hd

/-- The oriented volumes of a plane exist if its normal has length 1. -/
theorem C89_plane_total {n : V3 ℝ} {d : ℝ} (hp : 0 ≤ prec) (hX : X.Rigid) (hn : n.dot n = 1) (big : ℝ) (eig : OBB.EigenFn ℝ) :
    ∃ b, ComputeBV.obb big prec eig (.plane n d) X = some b := by
  have h1 : (X.R.mulVec n).dot (X.R.mulVec n) = 1 := by rw [M3.Orthonormal.dot hX, hn]
  have hv : X.R.mulVec n ≠ 0 := fun h0 => by rw [h0] at h1; simp [V3.dot] at h1
  have hn : (X.R.mulVec n).normalized ≠ 0 := fun h0 => by
    have := OBB.normalized_dot hv
    rw [h0] at this; simp [V3.dot] at this
  obtain ⟨w, hw⟩ := OBB.unitOrthogonal_isSome hp hn
  rw [ComputeBV.obb, OBB.coordinateSystem]
  simp only [hw]
  exact ⟨_, rfl⟩

/-- **C89 is violated by RSSs of planes:** however close to the foot, points of the plane are outside. The foot is made
a corner, and the rectangle spanned by the normal and one direction of the plane. -/
theorem C89_violated_rss_plane {n : V3 ℝ} {d : ℝ} (hX : X.Rigid) (hn : n.dot n = 1) (eig : OBB.EigenFn ℝ) {b : RSS ℝ}
    (h : ComputeBV.rss big prec eig (.plane n d) X = some b) {δ : ℝ} (hδ : 0 < δ) :
    ∃ p ∈ Placed X.R X.t (Geo.plane n d).pts, p.dist (X.apply (d • n)) = δ ∧ p ∉ b.pts := by
  obtain ⟨axis, ha, rfl⟩ := Option.map_eq_some_iff.1 h
  obtain ⟨o, h0⟩ := plane_axis hX hn ha
  have c01 : (axis.col 0).dot (axis.col 1) = 0 := OBB.row_ne (M3.Orthonormal.tr o) (i := 0) (j := 1) (by decide)
  have c11 : (axis.col 1).dot (axis.col 1) = 1 := OBB.row_self (M3.Orthonormal.tr o) 1
  have e : X.apply (d • n) - δ • axis.col 1 - X.apply (d • n) = (-δ) • axis.col 1 := by apply V3.ext' <;> simp
  refine ⟨X.apply (d • n) - δ • axis.col 1, (placed_plane hX hn).2 ?_, ?_, ?_⟩
  · rw [e, V3.dot_smul, ← h0, c01, mul_zero]
  · rw [dist_eq, e]
    exact V3.nrm_unique hδ.le (by rw [V3.dot_smul, V3.smul_dot, c11]; ring)
  · rintro ⟨c, ⟨x, y, x0, -, y0, -, rfl⟩, hc⟩
    have hz := V3.dot_self_eq_zero (le_antisymm (hc.trans (by simp)) (V3.dot_self_nonneg _))
    have e2 : (X.apply (d • n) - δ • axis.col 1 - (X.apply (d • n) + x • axis.col 0 + y • axis.col 1)) = (-x) • axis.col 0 + (-(δ + y)) • axis.col 1 := by
      apply V3.ext' <;> simp <;> ring
    have hz' : (axis.col 1).dot ((-x) • axis.col 0 + (-(δ + y)) • axis.col 1) = 0 := by
      rw [← e2]
      show (axis.col 1).dot (X.apply (d • n) - δ • axis.col 1 - (X.apply (d • n) + x • axis.col 0 + y • axis.col 1)) = 0
      rw [hz]; simp [V3.dot]
    rw [V3.dot_add, V3.dot_smul, V3.dot_smul, V3.dot_comm, c01, c11] at hz'
    linarith

/-! ### k-DOPs of half-spaces and planes -/

namespace ComputeBV.KDOP
variable {k : KDopN}

theorem full_mem {p : V3 ℝ} (hr : k.InRange big p) : p ∈ (full big : Fcl.KDOP k ℝ).pts :=
  fun _ v hv => hr v (List.mem_of_getElem? hv)

theorem setHi_mem {a : Fcl.KDOP k ℝ} {p : V3 ℝ} {i : ℕ} {x : ℝ} (hp : p ∈ a.pts) (h : ∀ v, k.normals[i]? = some v → along v p ≤ x) :
    p ∈ (setHi a i x).pts := by
  intro j v hv
  refine ⟨(hp j v hv).1, ?_⟩
  show along v p ≤ if j = i then x else a.hi j
  split
  · next e => subst e; exact h v hv
  · exact (hp j v hv).2

theorem setLo_mem {a : Fcl.KDOP k ℝ} {p : V3 ℝ} {i : ℕ} {x : ℝ} (hp : p ∈ a.pts) (h : ∀ v, k.normals[i]? = some v → x ≤ along v p) :
    p ∈ (setLo a i x).pts := by
  intro j v hv
  refine ⟨?_, (hp j v hv).2⟩
  show (if j = i then x else a.lo j) ≤ along v p
  split
  · next e => subst e; exact h v hv
  · exact (hp j v hv).1

end ComputeBV.KDOP

theorem slope {m a s d : ℝ} (hm : 0 < m) (hu : m * (a * a) = 1) (h : a * s ≤ d) : (0 < a → s ≤ a * d * m) ∧ (¬ 0 < a → a * d * m ≤ s) := by
  have e : a * (a * s) * m = s := by linear_combination s * hu
  constructor
  · intro ha
    have := mul_le_mul_of_nonneg_left h (mul_pos ha hm).le
    nlinarith
  · intro ha
    have := mul_le_mul_of_nonpos_left h (mul_nonpos_of_nonpos_of_nonneg (not_lt.1 ha) hm.le)
    nlinarith

theorem slope_eq {m a s d : ℝ} (hu : m * (a * a) = 1) (h : a * s = d) : s = a * d * m := by
  rw [← h]; linear_combination (-s) * hu

open ComputeBV.KDOP in
theorem halfspaceKdop_mem {k : KDopN} {n : V3 ℝ} {d : ℝ} (hn : n.dot n = 1) {p : V3 ℝ} (hp : n.dot p ≤ d) (hr : k.InRange big p)
    (h1 : ¬ (n.y = 0 ∧ n.x = n.z ∧ 0 < n.x)) (h2 : k = .n24 → ¬ (n.x + n.z = 0 ∧ n.x + n.y = 0)) :
    p ∈ (ComputeBV.halfspaceKdop k big n d).pts := by
  obtain ⟨x, y, z⟩ := n
  obtain ⟨px, py, pz⟩ := p
  simp only [V3.dot] at hn hp
  have hf := full_mem (k := k) hr
  rw [ComputeBV.halfspaceKdop]
  dsimp only at h1 h2 ⊢
  have step : ∀ {a m s : ℝ} {i : ℕ} (b : Prop) [Decidable b], (b ↔ 0 < a) → 0 < m → m * (a * a) = 1 → a * s ≤ d →
      (∀ v, k.normals[i]? = some v → along v (⟨px, py, pz⟩ : V3 ℝ) = s) → (⟨px, py, pz⟩ : V3 ℝ) ∈
        (if b then setHi (full big) i (a * d * m) else setLo (full big) i (a * d * m) : KDOP k ℝ).pts := by
    intro a m s i b _ hb hm hu h he
    obtain ⟨u1, u2⟩ := slope hm hu h
    split
    · exact setHi_mem hf fun v hv => by rw [he v hv]; exact u1 (hb.1 ‹_›)
    · exact setLo_mem hf fun v hv => by rw [he v hv]; exact u2 fun h => ‹¬ b› (hb.2 h)
  have unit : ∀ {a s : ℝ} {i : ℕ}, a * a = 1 → a * s ≤ d →
      (∀ v, k.normals[i]? = some v → along v (⟨px, py, pz⟩ : V3 ℝ) = s) → (⟨px, py, pz⟩ : V3 ℝ) ∈
        (if a > 0 then setHi (full big) i d else setLo (full big) i (-d) : KDOP k ℝ).pts := by
    intro a s i hu h he
    obtain ⟨u2, u1⟩ := unit_cases hu
    split
    · exact setHi_mem hf fun v hv => by rw [he v hv]; rw [u1 ‹_›] at h; linarith
    · next hn =>
      have : a < 0 := lt_of_le_of_ne (not_lt.1 hn) fun h0 => by rw [h0] at hu; simp at hu
      exact setLo_mem hf fun v hv => by rw [he v hv]; rw [u2 this] at h; linarith
  by_cases c : y = 0 ∧ z = 0
  · rw [if_pos c]; rw [c.1, c.2] at hn hp; exact unit (s := px) (by linarith) (by linarith) (by cases k <;> simp [KDopN.normals, along])
  rw [if_neg c]; clear c
  by_cases c : x = 0 ∧ z = 0
  · rw [if_pos c]; rw [c.1, c.2] at hn hp; exact unit (s := py) (by linarith) (by linarith) (by cases k <;> simp [KDopN.normals, along])
  rw [if_neg c]; clear c
  by_cases c : x = 0 ∧ y = 0
  · rw [if_pos c]; rw [c.1, c.2] at hn hp; exact unit (s := pz) (by linarith) (by linarith) (by cases k <;> simp [KDopN.normals, along])
  rw [if_neg c]; clear c
  by_cases c : z = 0 ∧ x = y
  · rw [if_pos c]
    obtain ⟨c1, c2⟩ := c
    exact step (s := px + py) _ Iff.rfl (by norm_num) (by rw [c1, ← c2] at hn; linarith) (by rw [c1, ← c2] at hp; linarith)
      (by cases k <;> simp [KDopN.normals, along])
  rw [if_neg c]; clear c
  by_cases c : y = 0 ∧ x = z
  · rw [if_pos c]
    obtain ⟨c1, c2⟩ := c
    exact step (s := px + pz) _ ⟨fun h => absurd h (by rw [c1]; simp), fun h => absurd ⟨c1, c2, h⟩ h1⟩ (by norm_num)
      (by rw [c1, ← c2] at hn; linarith) (by rw [c1, ← c2] at hp; linarith) (by cases k <;> simp [KDopN.normals, along])
  rw [if_neg c]; clear c
  by_cases c : x = 0 ∧ y = z
  · rw [if_pos c]
    obtain ⟨c1, c2⟩ := c
    exact step (s := py + pz) _ Iff.rfl (by norm_num) (by rw [c1, ← c2] at hn; linarith) (by rw [c1, ← c2] at hp; linarith)
      (by cases k <;> simp [KDopN.normals, along])
  rw [if_neg c]; clear c
  by_cases c : z = 0 ∧ x + y = 0
  · rw [if_pos c]
    obtain ⟨c1, c2⟩ := c
    obtain rfl : y = -x := by linarith
    subst c1
    exact step (s := px - py) _ Iff.rfl (by norm_num) (by linarith) (by linarith)
      (by cases k <;> simp [KDopN.normals, along] <;> ring)
  rw [if_neg c]; clear c
  by_cases c : y = 0 ∧ x + z = 0
  · rw [if_pos c]
    obtain ⟨c1, c2⟩ := c
    obtain rfl : z = -x := by linarith
    subst c1
    exact step (s := px - pz) _ Iff.rfl (by norm_num) (by linarith) (by linarith)
      (by cases k <;> simp [KDopN.normals, along] <;> ring)
  rw [if_neg c]; clear c
  by_cases c : k ≠ .n16 ∧ x = 0 ∧ y + z = 0
  · rw [if_pos c]
    obtain ⟨ck, c1, c2⟩ := c
    obtain rfl : z = -y := by linarith
    subst c1
    exact step (s := py - pz) _ Iff.rfl (by norm_num) (by linarith) (by linarith)
      (by cases k <;> simp [KDopN.normals, along] <;> ring)
  rw [if_neg c]; clear c
  by_cases c : k = .n24 ∧ x + z = 0 ∧ x + y = 0
  · rw [if_pos c]; exact absurd c.2 (h2 c.1)
  rw [if_neg c]; clear c
  by_cases c : k = .n24 ∧ x + y = 0 ∧ y + z = 0
  · rw [if_pos c]
    obtain ⟨ck, c1, c2⟩ := c
    obtain rfl : y = -x := by linarith
    obtain rfl : z = x := by linarith
    exact step (s := px - py + pz) _ Iff.rfl (by norm_num) (by linarith) (by linarith)
      (by cases k <;> simp [KDopN.normals, along] <;> ring)
  rw [if_neg c]; clear c
  by_cases c : k = .n24 ∧ x + y = 0 ∧ x + z = 0
  · rw [if_pos c]; exact absurd ⟨c.2.2, c.2.1⟩ (h2 c.1)
  rw [if_neg c]; clear c
  exact hf

open ComputeBV.KDOP in
theorem planeKdop_mem {k : KDopN} {n : V3 ℝ} {d : ℝ} (hn : n.dot n = 1) {p : V3 ℝ} (hp : n.dot p = d) (hr : k.InRange big p)
    (h1 : k = .n16 → ¬ (n.x = 0 ∧ n.y = n.z)) (h2 : k = .n24 → ¬ (n.x + n.z = 0 ∧ n.x + n.y = 0)) :
    p ∈ (ComputeBV.planeKdop k big n d).pts := by
  obtain ⟨x, y, z⟩ := n
  obtain ⟨px, py, pz⟩ := p
  simp only [V3.dot] at hn hp
  have hf := full_mem (k := k) hr
  rw [ComputeBV.planeKdop]
  dsimp only at h1 h2 ⊢
  have both : ∀ {c s : ℝ} {i : ℕ}, s = c → (∀ v, k.normals[i]? = some v → along v (⟨px, py, pz⟩ : V3 ℝ) = s) →
      (⟨px, py, pz⟩ : V3 ℝ) ∈ (setLo (setHi (full big) i c) i c : KDOP k ℝ).pts := fun e he =>
    setLo_mem (setHi_mem hf fun v hv => by rw [he v hv, e]) fun v hv => by rw [he v hv, e]
  have unit : ∀ {a s : ℝ} {i : ℕ}, a * a = 1 → a * s = d →
      (∀ v, k.normals[i]? = some v → along v (⟨px, py, pz⟩ : V3 ℝ) = s) → (⟨px, py, pz⟩ : V3 ℝ) ∈
        (if a > 0 then setLo (setHi (full big) i d) i d else setLo (setHi (full big) i (-d)) i (-d) : KDOP k ℝ).pts := by
    intro a s i hu h he
    obtain ⟨u2, u1⟩ := unit_cases hu
    split
    · exact both (by rw [u1 ‹_›] at h; linarith) he
    · next hn =>
      have : a < 0 := lt_of_le_of_ne (not_lt.1 hn) fun h0 => by rw [h0] at hu; simp at hu
      exact both (by rw [u2 this] at h; linarith) he
  by_cases c : y = 0 ∧ z = 0
  · rw [if_pos c]; rw [c.1, c.2] at hn hp; exact unit (s := px) (by linarith) (by linarith) (by cases k <;> simp [KDopN.normals, along])
  rw [if_neg c]; clear c
  by_cases c : x = 0 ∧ z = 0
  · rw [if_pos c]; rw [c.1, c.2] at hn hp; exact unit (s := py) (by linarith) (by linarith) (by cases k <;> simp [KDopN.normals, along])
  rw [if_neg c]; clear c
  by_cases c : x = 0 ∧ y = 0
  · rw [if_pos c]; rw [c.1, c.2] at hn hp; exact unit (s := pz) (by linarith) (by linarith) (by cases k <;> simp [KDopN.normals, along])
  rw [if_neg c]; clear c
  by_cases c : z = 0 ∧ x = y
  · rw [if_pos c]
    obtain ⟨c1, c2⟩ := c
    exact both (s := px + py) (slope_eq (by rw [c1, ← c2] at hn; linarith) (by rw [c1, ← c2] at hp; linarith))
      (by cases k <;> simp [KDopN.normals, along])
  rw [if_neg c]; clear c
  by_cases c : y = 0 ∧ x = z
  · rw [if_pos c]
    obtain ⟨c1, c2⟩ := c
    exact both (s := px + pz) (slope_eq (by rw [c1, ← c2] at hn; linarith) (by rw [c1, ← c2] at hp; linarith))
      (by cases k <;> simp [KDopN.normals, along])
  rw [if_neg c]; clear c
  by_cases c : x = 0 ∧ y = z
  · rw [if_pos c]
    obtain ⟨c1, c2⟩ := c
    rw [if_neg fun hk => h1 hk ⟨c1, c2⟩]
    exact both (s := py + pz) (slope_eq (by rw [c1, ← c2] at hn; linarith) (by rw [c1, ← c2] at hp; linarith))
      (by cases k <;> simp [KDopN.normals, along])
  rw [if_neg c]; clear c
  by_cases c : z = 0 ∧ x + y = 0
  · rw [if_pos c]
    obtain ⟨c1, c2⟩ := c
    obtain rfl : y = -x := by linarith
    subst c1
    exact both (s := px - py) (slope_eq (by linarith) (by linarith)) (by cases k <;> simp [KDopN.normals, along] <;> ring)
  rw [if_neg c]; clear c
  by_cases c : y = 0 ∧ x + z = 0
  · rw [if_pos c]
    obtain ⟨c1, c2⟩ := c
    obtain rfl : z = -x := by linarith
    subst c1
    exact both (s := px - pz) (slope_eq (by linarith) (by linarith)) (by cases k <;> simp [KDopN.normals, along] <;> ring)
  rw [if_neg c]; clear c
  by_cases c : k ≠ .n16 ∧ x = 0 ∧ y + z = 0
  · rw [if_pos c]
    obtain ⟨ck, c1, c2⟩ := c
    obtain rfl : z = -y := by linarith
    subst c1
    exact both (s := py - pz) (slope_eq (by linarith) (by linarith)) (by cases k <;> simp [KDopN.normals, along] <;> ring)
  rw [if_neg c]; clear c
  by_cases c : k = .n24 ∧ x + z = 0 ∧ x + y = 0
  · rw [if_pos c]; exact absurd c.2 (h2 c.1)
  rw [if_neg c]; clear c
  by_cases c : k = .n24 ∧ x + y = 0 ∧ y + z = 0
  · rw [if_pos c]
    obtain ⟨ck, c1, c2⟩ := c
    obtain rfl : y = -x := by linarith
    obtain rfl : z = x := by linarith
    exact both (s := px - py + pz) (slope_eq (by linarith) (by linarith)) (by cases k <;> simp [KDopN.normals, along] <;> ring)
  rw [if_neg c]; clear c
  by_cases c : k = .n24 ∧ x + y = 0 ∧ x + z = 0
  · rw [if_pos c]; exact absurd ⟨c.2.2, c.2.1⟩ (h2 c.1)
  rw [if_neg c]; clear c
  exact hf

/-- **C89, k-DOPs of half-spaces.** The volume has every point of the half-space whose products with the k-DOP's
normals are representable. Missing: the two directions of the normal, at the pose, for which the code writes the wrong number
(`C89_violated_kdop_halfspace`, `C89_violated_kdop24_halfspace`). -/
theorem C89_kdop_halfspace_partial {k : KDopN} {n : V3 ℝ} {d : ℝ} (hX : X.Rigid) (hn : n.dot n = 1) {p : V3 ℝ}
    (hp : p ∈ Placed X.R X.t (Geo.halfspace n d).pts) (hr : k.InRange big p)
    (h1 : ¬ ∃ a > 0, X.R.mulVec n = ⟨a, 0, a⟩) (h2 : k = .n24 → ¬ ∃ a, X.R.mulVec n = ⟨a, -a, -a⟩) (bv : KDOP k ℝ) :
    p ∈ (ComputeBV.kdop big bv (.halfspace n d) X).pts := by
  rw [ComputeBV.kdop, transform_eq hX hn]
  refine halfspaceKdop_mem (by rw [M3.Orthonormal.dot hX, hn]) ?_ hr (fun h => h1 ⟨_, h.2.2, ?_⟩) fun hk h => h2 hk ⟨(X.R.mulVec n).x, ?_⟩
  · obtain ⟨q, hq, rfl⟩ := hp
    have := transform_dot (n := n) (d := d) hX q
    have hq : n.dot q ≤ d := hq
    rw [Pose.apply] at this
    show (X.R.mulVec n).dot (X.R.mulVec q + X.t) ≤ _
    linarith
  · exact V3.ext' rfl h.1 h.2.1.symm
  · exact V3.ext' rfl (by show _ = -_; linarith [h.2]) (by show _ = -_; linarith [h.1])

/-- **C89, k-DOPs of planes.** Missing: the directions for which the code writes the wrong number
(`C89_violated_kdop16_plane`, `C89_violated_kdop24_plane`). -/
theorem C89_kdop_plane_partial {k : KDopN} {n : V3 ℝ} {d : ℝ} (hX : X.Rigid) (hn : n.dot n = 1) {p : V3 ℝ}
    (hp : p ∈ Placed X.R X.t (Geo.plane n d).pts) (hr : k.InRange big p)
    (h1 : k = .n16 → ¬ ∃ a, X.R.mulVec n = ⟨0, a, a⟩) (h2 : k = .n24 → ¬ ∃ a, X.R.mulVec n = ⟨a, -a, -a⟩) (bv : KDOP k ℝ) :
    p ∈ (ComputeBV.kdop big bv (.plane n d) X).pts := by
  rw [ComputeBV.kdop, transform_eq hX hn]
  refine planeKdop_mem (by rw [M3.Orthonormal.dot hX, hn]) ?_ hr (fun hk h => h1 hk ⟨(X.R.mulVec n).y, ?_⟩) fun hk h => h2 hk ⟨(X.R.mulVec n).x, ?_⟩
  · obtain ⟨q, hq, rfl⟩ := hp
    have := transform_dot (n := n) (d := d) hX q
    have hq : n.dot q = d := hq
    rw [Pose.apply] at this
    show (X.R.mulVec n).dot (X.R.mulVec q + X.t) = _
    linarith
  · exact V3.ext' h.1 rfl h.2.symm
  · exact V3.ext' rfl (by show _ = -_; linarith [h.2]) (by show _ = -_; linarith [h.1])

/-! ### Counterexamples -/

local macro "in_range" : tactic => `(tactic| (
  simp [KDopN.InRange, KDopN.normals, along]
  repeat' apply And.intro
  all_goals first | linarith | (norm_num; linarith) | norm_num))

theorem placed_one_iff {g : Geo ℝ} {p : V3 ℝ} : p ∈ Placed (Pose.id : Pose ℝ).R (Pose.id : Pose ℝ).t g.pts ↔ p ∈ g.pts := by
  constructor
  · rintro ⟨q, hq, rfl⟩
    have : (Pose.id : Pose ℝ).apply q = q := Pose.id_apply q
    rw [Pose.apply] at this
    rw [this]; exact hq
  · exact fun h => ⟨p, h, (Pose.id_apply p).symm⟩

theorem transform_id {n : V3 ℝ} {d : ℝ} (hn : n.dot n = 1) : ComputeBV.transform n d Pose.id = (n, d) := by
  rw [transform_eq Pose.id_rigid hn]
  have e : (Pose.id : Pose ℝ).R.mulVec n = n := by apply V3.ext' <;> simp [Pose.id, M3.mulVec, M3.one, V3.dot]
  rw [e]; simp [Pose.id, V3.dot]

/-- **C89 is violated by every k-DOP of a half-space** whose normal is between the positive x and z axes: the branch asks for
the sign of the second component, which is zero, and bounds the half-space from below. -/
theorem C89_violated_kdop_halfspace (k : KDopN) (hb : 2 ≤ big) (bv : KDOP k ℝ) : ∃ n : V3 ℝ, n.dot n = 1 ∧
    ∃ p ∈ Placed (Pose.id : Pose ℝ).R (Pose.id : Pose ℝ).t (Geo.halfspace n 0).pts, k.InRange big p ∧
      p ∉ (ComputeBV.kdop big bv (.halfspace n 0) Pose.id).pts := by
  have hs : Real.sqrt (1/2) * Real.sqrt (1/2) = 1/2 := Real.mul_self_sqrt (by norm_num)
  have hp : 0 < Real.sqrt (1/2) := Real.sqrt_pos.2 (by norm_num)
  generalize Real.sqrt (1/2) = a at hs hp
  have hn : (⟨a, 0, a⟩ : V3 ℝ).dot ⟨a, 0, a⟩ = 1 := by simp only [V3.dot]; linarith
  refine ⟨⟨a, 0, a⟩, hn, ⟨-1, 0, -1⟩, placed_one_iff.2 ?_, ?_, fun h => ?_⟩
  · show a * -1 + 0 * 0 + a * -1 ≤ 0; linarith
  · cases k <;> in_range
  · rw [ComputeBV.kdop, transform_id hn] at h
    have := (h 4 ⟨1, 0, 1⟩ (by cases k <;> rfl)).1
    simp [ComputeBV.halfspaceKdop, hp.ne', ComputeBV.KDOP.setLo, along] at this
    linarith

/-- **C89 is violated by the 24-DOP of a half-space** with normal along `(1, -1, -1)`: the branch writes to the slab of
`(1, 1, -1)`. -/
theorem C89_violated_kdop24_halfspace (hb : 1 ≤ big) (bv : KDOP .n24 ℝ) : ∃ n : V3 ℝ, n.dot n = 1 ∧
    ∃ p ∈ Placed (Pose.id : Pose ℝ).R (Pose.id : Pose ℝ).t (Geo.halfspace n 0).pts, KDopN.n24.InRange big p ∧
      p ∉ (ComputeBV.kdop big bv (.halfspace n 0) Pose.id).pts := by
  have hs : Real.sqrt (1/3) * Real.sqrt (1/3) = 1/3 := Real.mul_self_sqrt (by norm_num)
  have hp : 0 < Real.sqrt (1/3) := Real.sqrt_pos.2 (by norm_num)
  generalize Real.sqrt (1/3) = a at hs hp
  have hn : (⟨a, -a, -a⟩ : V3 ℝ).dot ⟨a, -a, -a⟩ = 1 := by simp only [V3.dot]; linarith
  refine ⟨⟨a, -a, -a⟩, hn, ⟨0, 1, 0⟩, placed_one_iff.2 ?_, ?_, fun h => ?_⟩
  · show a * 0 + -a * 1 + -a * 0 ≤ 0; linarith
  · in_range
  · rw [ComputeBV.kdop, transform_id hn] at h
    have := (h 9 ⟨1, 1, -1⟩ rfl).2
    simp [ComputeBV.halfspaceKdop, hp.ne', ComputeBV.KDOP.setHi, along, hp] at this
    linarith

/-- **C89 is violated by the 24-DOP of a plane** with normal along `(1, -1, -1)`. -/
theorem C89_violated_kdop24_plane (hb : 2 ≤ big) (bv : KDOP .n24 ℝ) : ∃ n : V3 ℝ, n.dot n = 1 ∧
    ∃ p ∈ Placed (Pose.id : Pose ℝ).R (Pose.id : Pose ℝ).t (Geo.plane n 0).pts, KDopN.n24.InRange big p ∧
      p ∉ (ComputeBV.kdop big bv (.plane n 0) Pose.id).pts := by
  have hs : Real.sqrt (1/3) * Real.sqrt (1/3) = 1/3 := Real.mul_self_sqrt (by norm_num)
  have hp : 0 < Real.sqrt (1/3) := Real.sqrt_pos.2 (by norm_num)
  generalize Real.sqrt (1/3) = a at hs hp
  have hn : (⟨a, -a, -a⟩ : V3 ℝ).dot ⟨a, -a, -a⟩ = 1 := by simp only [V3.dot]; linarith
  refine ⟨⟨a, -a, -a⟩, hn, ⟨1, 1, 0⟩, placed_one_iff.2 ?_, ?_, fun h => ?_⟩
  · show a * 1 + -a * 1 + -a * 0 = 0; ring
  · in_range
  · rw [ComputeBV.kdop, transform_id hn] at h
    have := (h 9 ⟨1, 1, -1⟩ rfl).2
    simp [ComputeBV.planeKdop, hp.ne', ComputeBV.KDOP.setHi, ComputeBV.KDOP.setLo, along] at this
    linarith

/-- **C89 is violated by the 16-DOP of a plane** with normal along `(0, 1, 1)`: the lower bound is written to the slab of
`(1, -1, 0)`. -/
theorem C89_violated_kdop16_plane (hb : 1 ≤ big) (bv : KDOP .n16 ℝ) : ∃ n : V3 ℝ, n.dot n = 1 ∧
    ∃ p ∈ Placed (Pose.id : Pose ℝ).R (Pose.id : Pose ℝ).t (Geo.plane n 0).pts, KDopN.n16.InRange big p ∧
      p ∉ (ComputeBV.kdop big bv (.plane n 0) Pose.id).pts := by
  have hs : Real.sqrt (1/2) * Real.sqrt (1/2) = 1/2 := Real.mul_self_sqrt (by norm_num)
  have hp : 0 < Real.sqrt (1/2) := Real.sqrt_pos.2 (by norm_num)
  generalize Real.sqrt (1/2) = a at hs hp
  have hn : (⟨0, a, a⟩ : V3 ℝ).dot ⟨0, a, a⟩ = 1 := by simp only [V3.dot]; linarith
  refine ⟨⟨0, a, a⟩, hn, ⟨-1, 0, 0⟩, placed_one_iff.2 ?_, ?_, fun h => ?_⟩
  · show 0 * -1 + a * 0 + a * 0 = 0; ring
  · in_range
  · rw [ComputeBV.kdop, transform_id hn] at h
    have := (h 6 ⟨1, -1, 0⟩ rfl).1
    simp [ComputeBV.planeKdop, hp.ne', ComputeBV.KDOP.setHi, ComputeBV.KDOP.setLo, along] at this
    linarith

/-- A tetrahedron, long in the direction of z. -/
def exTetra : List (V3 ℝ) := [⟨1, 0, -3⟩, ⟨-1, 0, -3⟩, ⟨0, 1, 3⟩, ⟨0, -1, 3⟩]

/-- **C89 is violated by the OBB of a `Convex`.** The box fitted in its own directions is given those of the pose. -/
theorem C89_violated_obb_convex (hb : 3 < big) (prec : ℝ) (absorb : ℝ → ℝ → Bool) : ∃ b,
    ComputeBV.obb big prec (Jacobi.eigenOld absorb) (.convex exTetra) Pose.id = some b ∧
    ∃ p ∈ Placed (Pose.id : Pose ℝ).R (Pose.id : Pose ℝ).t (Geo.convex exTetra).pts, p ∉ b.pts := by
  have hc : OBB.covariance exTetra = ⟨⟨2, 0, 0⟩, ⟨0, 2, 0⟩, ⟨0, 0, 36⟩⟩ := by
    rw [OBB.covariance, exTetra]
    simp only [List.map_cons, List.map_nil, List.foldl_cons, List.foldl_nil, List.length_cons, List.length_nil, M3.mk.injEq, V3.mk.injEq]
    norm_num
  have hf : OBB.fitn big (Jacobi.eigenOld absorb) exTetra = some (OBB.fitAxis big (OBB.axisFromEigen M3.one ⟨2, 2, 36⟩) exTetra) := by
    rw [OBB.fitn, hc, Jacobi.eigenOld_diag absorb ⟨2, 2, 36⟩]
  have e : ComputeBV.obb big prec (Jacobi.eigenOld absorb) (.convex exTetra) Pose.id =
      (OBB.fitn big (Jacobi.eigenOld absorb) exTetra).map fun b => { b with axis := Pose.id.R, To := Pose.id.apply b.To } := rfl
  refine ⟨_, by rw [e, hf]; rfl, ⟨1, 0, -3⟩, placed_one_iff.2 ?_, ?_⟩
  · exact hull_of_support fun n => ⟨_, by simp [exTetra], le_rfl⟩
  · have ha : OBB.axisFromEigen M3.one (⟨2, 2, 36⟩ : V3 ℝ) = ⟨⟨0, 0, -1⟩, ⟨0, 1, 0⟩, ⟨1, 0, 0⟩⟩ := by
      norm_num [OBB.axisFromEigen, OBB.midMax, OBB.ofCols, M3.row, M3.one, V3.get, V3.cross]
    have h0 : OBB.bounds big (⟨0, 0, 1⟩ : V3 ℝ) exTetra = (-3, 3) := by
      simp only [OBB.bounds, exTetra, List.map_cons, List.map_nil, List.foldl_cons, List.foldl_nil, OBB.boundStep, V3.dot]
      norm_num [show -3 < big by linarith, show -big < -3 by linarith]
    have h1 : OBB.bounds big (⟨0, 1, 0⟩ : V3 ℝ) exTetra = (-1, 1) := by
      simp only [OBB.bounds, exTetra, List.map_cons, List.map_nil, List.foldl_cons, List.foldl_nil, OBB.boundStep, V3.dot]
      norm_num [show 0 < big by linarith]
    have h2 : OBB.bounds big (⟨-1, 0, 0⟩ : V3 ℝ) exTetra = (-1, 1) := by
      simp only [OBB.bounds, exTetra, List.map_cons, List.map_nil, List.foldl_cons, List.foldl_nil, OBB.boundStep, V3.dot]
      norm_num [show -1 < big by linarith, show -big < -1 by linarith]
    rintro ⟨y, -, -, hz, hp⟩
    have ht := congrArg V3.z hp
    rw [ha] at hz ht
    simp only [OBB.fitAxis, M3.col, V3.get, h0, h1, h2] at hz ht
    norm_num [M3.mulVec, V3.dot, Pose.id, M3.one, Pose.apply] at hz ht
    rw [← ht] at hz
    norm_num at hz

/-! ### A concrete case -/

/-- A box with sides 2, 4 and 6, turned about the x axis and moved. -/
theorem exBox_covariance : OBB.covariance ((Geo.box ⟨2, 4, 6⟩ : Geo ℝ).boundVertices exTurn) = ⟨⟨8, 0, 0⟩, ⟨0, 72, 0⟩, ⟨0, 0, 32⟩⟩ := by
  rw [OBB.covariance]
  simp only [Geo.boundVertices, BoundVertices.ofGeo, BoundVertices.box, List.map_cons, List.map_nil, List.foldl_cons, List.foldl_nil,
    List.length_cons, List.length_nil, Pose.apply, M3.mulVec, V3.dot, exTurn, M3.mk.injEq, V3.mk.injEq, V3.add_x, V3.add_y, V3.add_z]
  norm_num

/-- The hypotheses of `C89_rss_partial` and the others are met. -/
example (absorb : ℝ → ℝ → Bool) : (∃ b, ComputeBV.rss big prec (Jacobi.eigenOld absorb) (.box ⟨2, 4, 6⟩) exTurn = some b) ∧
    (∃ b, ComputeBV.obb big prec (Jacobi.eigenOld absorb) (.box ⟨2, 4, 6⟩) exTurn = some b) ∧
    (∃ b, ComputeBV.obbrss big prec (Jacobi.eigenOld absorb) (.box ⟨2, 4, 6⟩) exTurn = some b) ∧
    (∃ b, ComputeBV.kios big prec (Jacobi.eigenOld absorb) (.box ⟨2, 4, 6⟩) exTurn = some b) ∧
    (Geo.box ⟨2, 4, 6⟩ : Geo ℝ).WF ∧ (Geo.box ⟨2, 4, 6⟩ : Geo ℝ).Bounded ∧ (Geo.box ⟨2, 4, 6⟩ : Geo ℝ).Fittable ∧ exTurn.Rigid := by
  have hc := exBox_covariance
  have he := Jacobi.eigenOld_diag absorb ⟨8, 72, 32⟩
  simp only [Geo.boundVertices, BoundVertices.ofGeo, BoundVertices.box, List.map_cons, List.map_nil] at hc
  refine ⟨?_, ⟨_, rfl⟩, ?_, ?_, ?_, trivial, trivial, exTurn_rigid⟩
  · simp only [ComputeBV.rss, Geo.boundVertices, BoundVertices.ofGeo, BoundVertices.box, List.map_cons, List.map_nil, RSS.fit, RSS.fitn, hc, he]
    exact ⟨_, rfl⟩
  · simp only [ComputeBV.obbrss, Geo.boundVertices, BoundVertices.ofGeo, BoundVertices.box, List.map_cons, List.map_nil, OBBRSS.fit, OBBRSS.fitn, hc, he]
    exact ⟨_, rfl⟩
  · simp only [ComputeBV.kios, Geo.boundVertices, BoundVertices.ofGeo, BoundVertices.box, List.map_cons, List.map_nil, KIOS.fit, KIOS.fitn, OBB.fitn, hc, he]
    exact ⟨_, rfl⟩
  · refine ⟨?_, ?_, ?_⟩ <;> norm_num

end Fcl
