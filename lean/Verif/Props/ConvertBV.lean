import Verif.Geom.ConvertBV
import Verif.Props.ShapeVolumes

/-!
# C90: converted volumes and boxes made from volumes enclose the volume
-/

namespace Fcl
open V3

variable {X : Pose ℝ}

/-- The volume at the pose. -/
def PlacedAt (X : Pose ℝ) (S : Set (V3 ℝ)) : Set (V3 ℝ) := Placed X.R X.t S

/-- The points of the box with these sides at this pose. -/
def BoxPts (b : V3 ℝ × Pose ℝ) : Set (V3 ℝ) := Placed b.2.R b.2.t (Geo.box b.1).pts

theorem placedAt_iff {S : Set (V3 ℝ)} {p : V3 ℝ} : p ∈ PlacedAt X S ↔ ∃ q ∈ S, p = X.apply q :=
  ⟨fun ⟨q, h, e⟩ => ⟨q, h, e⟩, fun ⟨q, h, e⟩ => ⟨q, h, e⟩⟩

theorem apply_sub (X : Pose ℝ) (a b : V3 ℝ) : X.apply a - X.apply b = X.R.mulVec (a - b) := by
  rw [Pose.apply, Pose.apply, M3.mulVec_sub]; v3

theorem comp_le_nrm (v : V3 ℝ) : |v.x| ≤ v.nrm ∧ |v.y| ≤ v.nrm ∧ |v.z| ≤ v.nrm := by
  have h := V3.nrm_mul_self v
  rw [V3.dot_def] at h
  exact ⟨abs_le_of_sq (V3.nrm_nonneg v) (by nlinarith), abs_le_of_sq (V3.nrm_nonneg v) (by nlinarith), abs_le_of_sq (V3.nrm_nonneg v) (by nlinarith)⟩

namespace ConvertBV

theorem ball_mem {c q : V3 ℝ} {r : ℝ} (hX : X.Rigid) (h : (q - c).nrm ≤ r) :
    X.apply q ∈ (⟨X.apply c - ⟨r, r, r⟩, X.apply c + ⟨r, r, r⟩⟩ : AABB ℝ).pts := by
  obtain ⟨h1, h2, h3⟩ := comp_le_nrm (X.apply q - X.apply c)
  rw [apply_sub, M3.Orthonormal.nrm hX] at h1 h2 h3
  rw [← apply_sub] at h1 h2 h3
  have k1 := abs_le.1 (h1.trans h)
  have k2 := abs_le.1 (h2.trans h)
  have k3 := abs_le.1 (h3.trans h)
  simp only [V3.sub_x, V3.sub_y, V3.sub_z] at k1 k2 k3
  simp only [AABB.pts, Set.mem_ofPred_eq, V3.sub_x, V3.sub_y, V3.sub_z, V3.add_x, V3.add_y, V3.add_z]
  refine ⟨⟨?_, ?_⟩, ⟨?_, ?_⟩, ?_, ?_⟩ <;> linarith [k1.1, k1.2, k2.1, k2.2, k3.1, k3.2]

theorem sized {w y : V3 ℝ} (hx : |y.x| ≤ w.x / 2) (hy : |y.y| ≤ w.y / 2) (hz : |y.z| ≤ w.z / 2) : y.nrm ≤ w.nrm * (1 / 2) := by
  have e : w.nrm * (1 / 2) = ((1 / 2 : ℝ) • w).nrm := by rw [V3.nrm_smul, abs_of_pos (by norm_num)]; ring
  rw [e, V3.nrm_le_iff (V3.nrm_nonneg _), V3.nrm_mul_self, V3.dot_def, V3.dot_def]
  have sq : ∀ {a b : ℝ}, |a| ≤ b / 2 → a * a ≤ (1 / 2 * b) * (1 / 2 * b) := fun {a b} h => by
    have := abs_le.1 h
    nlinarith [abs_nonneg a]
  have := sq hx
  have := sq hy
  have := sq hz
  simp only [V3.smul_x, V3.smul_y, V3.smul_z]
  linarith

theorem toAABB_mem {c q : V3 ℝ} {w h d : ℝ} (hX : X.Rigid) {Q : M3 ℝ} (hQ : Q.Orthonormal) {y : V3 ℝ} (hq : q = Q.mulVec y + c)
    (hx : |y.x| ≤ w / 2) (hy : |y.y| ≤ h / 2) (hz : |y.z| ≤ d / 2) : X.apply q ∈ (toAABB c w h d X).pts := by
  refine ball_mem hX ?_
  have e : q - c = Q.mulVec y := by rw [hq]; v3
  rw [e, M3.Orthonormal.nrm hQ]
  exact sized (w := ⟨w, h, d⟩) hx hy hz

/-! ### `convertBV` -/

/-- **C90**, AABB to AABB. -/
theorem C90_aabb_aabb (hX : X.Rigid) (b : AABB ℝ) : PlacedAt X b.pts ⊆ (aabbAABB b X).pts := by
  intro p hp
  obtain ⟨q, ⟨⟨h1, h2⟩, ⟨h3, h4⟩, h5, h6⟩, rfl⟩ := placedAt_iff.1 hp
  refine ball_mem hX (sized (w := b.hi - b.lo) ?_ ?_ ?_) <;> rw [abs_le] <;>
    simp only [AABB.center, V3.sub_x, V3.sub_y, V3.sub_z] <;> constructor <;> linarith

/-- **C90**, AABB to OBB: the very same points. -/
theorem C90_aabb_obb (hX : X.Rigid) (b : AABB ℝ) : (aabbOBB b X).WF ∧ (aabbOBB b X).pts = PlacedAt X b.pts := by
  refine ⟨hX, ?_⟩
  ext p
  rw [placedAt_iff, OBB.mem_pts_iff]
  constructor
  · rintro ⟨y, hx, hy, hz, rfl⟩
    refine ⟨y + b.center, ?_, ?_⟩
    · simp only [aabbOBB, V3.smul_x, V3.smul_y, V3.smul_z, V3.sub_x, V3.sub_y, V3.sub_z] at hx hy hz
      rw [abs_le] at hx hy hz
      simp only [AABB.pts, Set.mem_ofPred_eq, V3.add_x, V3.add_y, V3.add_z, AABB.center]
      refine ⟨⟨?_, ?_⟩, ⟨?_, ?_⟩, ?_, ?_⟩ <;> linarith [hx.1, hx.2, hy.1, hy.2, hz.1, hz.2]
    · simp only [aabbOBB, Pose.apply, M3.mulVec_add]; v3
  · rintro ⟨q, ⟨⟨h1, h2⟩, ⟨h3, h4⟩, h5, h6⟩, rfl⟩
    refine ⟨q - b.center, ?_, ?_, ?_, ?_⟩
    · rw [abs_le]; simp only [aabbOBB, AABB.center, V3.smul_x, V3.sub_x]; constructor <;> linarith
    · rw [abs_le]; simp only [aabbOBB, AABB.center, V3.smul_y, V3.sub_y]; constructor <;> linarith
    · rw [abs_le]; simp only [aabbOBB, AABB.center, V3.smul_z, V3.sub_z]; constructor <;> linarith
    · simp only [aabbOBB, Pose.apply, M3.mulVec_sub]; v3

/-- **C90**, OBB to OBB: the very same points. -/
theorem C90_obb_obb (hX : X.Rigid) {b : OBB ℝ} (w : b.WF) : (obbOBB b X).WF ∧ (obbOBB b X).pts = PlacedAt X b.pts := by
  refine ⟨M3.Orthonormal.mul hX w, ?_⟩
  have e : ∀ y, (X.R.mul b.axis).mulVec y + X.apply b.To = X.apply (b.axis.mulVec y + b.To) := fun y => by
    rw [M3.mul_mulVec, Pose.apply, Pose.apply, M3.mulVec_add]; v3
  ext p
  rw [placedAt_iff, OBB.mem_pts_iff]
  constructor
  · rintro ⟨y, hx, hy, hz, rfl⟩
    exact ⟨_, OBB.mem_pts_iff.2 ⟨y, hx, hy, hz, rfl⟩, e y⟩
  · rintro ⟨q, hq, rfl⟩
    obtain ⟨y, hx, hy, hz, rfl⟩ := OBB.mem_pts_iff.1 hq
    exact ⟨y, hx, hy, hz, (e y).symm⟩

/-- **C90**, RSS to RSS: the very same points. -/
theorem C90_rss_rss (hX : X.Rigid) {b : RSS ℝ} (w : b.WF) : (rssRSS b X).WF ∧ (rssRSS b X).pts = PlacedAt X b.pts := by
  refine ⟨⟨M3.Orthonormal.mul hX w.axis, w.l0, w.l1, w.r⟩, ?_⟩
  have e : ∀ x y : ℝ, X.apply b.To + x • (X.R.mul b.axis).col 0 + y • (X.R.mul b.axis).col 1 =
      X.apply (b.To + x • b.axis.col 0 + y • b.axis.col 1) := fun x y => by
    apply V3.ext' <;> simp [Pose.apply, M3.mulVec, M3.col, M3.mul, V3.get, V3.dot] <;> ring
  have hr : ∀ c, c ∈ (rssRSS b X).rect ↔ ∃ q ∈ b.rect, c = X.apply q := by
    intro c
    constructor
    · rintro ⟨x, y, a1, a2, a3, a4, rfl⟩
      exact ⟨_, ⟨x, y, a1, a2, a3, a4, rfl⟩, e x y⟩
    · rintro ⟨_, ⟨x, y, a1, a2, a3, a4, rfl⟩, rfl⟩
      exact ⟨x, y, a1, a2, a3, a4, (e x y).symm⟩
  ext p
  rw [placedAt_iff]
  constructor
  · rintro ⟨c, hc, hd⟩
    obtain ⟨q, hq, rfl⟩ := (hr c).1 hc
    refine ⟨X.inv.apply p, ⟨q, hq, ?_⟩, (Pose.apply_inv hX p).symm⟩
    rw [← M3.Orthonormal.dot hX, ← apply_sub, Pose.apply_inv hX]
    exact hd
  · rintro ⟨u, ⟨q, hq, hd⟩, rfl⟩
    refine ⟨_, (hr _).2 ⟨q, hq, rfl⟩, ?_⟩
    rw [apply_sub, M3.Orthonormal.dot hX]
    exact hd

/-- **C90**, OBBRSS to OBB. -/
theorem C90_obbrss_obb (hX : X.Rigid) {b : OBBRSS ℝ} (w : b.WF) : (obbrssOBB b X).WF ∧ PlacedAt X b.pts ⊆ (obbrssOBB b X).pts := by
  obtain ⟨h1, h2⟩ := C90_obb_obb hX w.obb
  refine ⟨h1, ?_⟩
  rw [obbrssOBB, h2]
  exact fun p ⟨q, hq, e⟩ => ⟨q, hq.1, e⟩

/-- **C90**, OBBRSS to RSS. -/
theorem C90_obbrss_rss (hX : X.Rigid) {b : OBBRSS ℝ} (w : b.WF) : (obbrssRSS b X).WF ∧ PlacedAt X b.pts ⊆ (obbrssRSS b X).pts := by
  obtain ⟨h1, h2⟩ := C90_rss_rss hX w.rss
  refine ⟨h1, ?_⟩
  rw [obbrssRSS, h2]
  exact fun p ⟨q, hq, e⟩ => ⟨q, hq.2, e⟩

/-- A point of a rectangle swept sphere in the coordinates of its centre. -/
theorem rss_coords {b : RSS ℝ} (w : b.WF) {q : V3 ℝ} (hq : q ∈ b.pts) : ∃ y, q = b.axis.mulVec y + b.center ∧
    |y.x| ≤ b.l0 * (1 / 2) + b.r ∧ |y.y| ≤ b.l1 * (1 / 2) + b.r ∧ |y.z| ≤ b.r := by
  obtain ⟨_, ⟨x, y, a1, a2, a3, a4, rfl⟩, hd⟩ := hq
  obtain ⟨u, hu⟩ : ∃ u, u = b.axis.tr.mulVec (q - (b.To + x • b.axis.col 0 + y • b.axis.col 1)) := ⟨_, rfl⟩
  have hq : b.axis.mulVec u = q - (b.To + x • b.axis.col 0 + y • b.axis.col 1) := by rw [hu]; exact M3.Orthonormal.mul_tr w.axis _
  rw [← hq, M3.Orthonormal.dot w.axis, V3.dot_def] at hd
  have k1 := abs_le.1 (abs_le_of_sq (x := u.x) w.r (by nlinarith))
  have k2 := abs_le.1 (abs_le_of_sq (x := u.y) w.r (by nlinarith))
  have k3 := abs_le_of_sq (x := u.z) w.r (by nlinarith)
  refine ⟨u + ⟨x - b.l0 * (1 / 2), y - b.l1 * (1 / 2), 0⟩, ?_, ?_, ?_, ?_⟩
  · rw [M3.mulVec_add, hq, RSS.center, RSS.mulVec_cols, RSS.mulVec_cols]; v3
  · rw [abs_le]; simp only [V3.add_x]; constructor <;> linarith [k1.1, k1.2]
  · rw [abs_le]; simp only [V3.add_y]; constructor <;> linarith [k2.1, k2.2]
  · simpa using k3

/-- A box in its coordinates belongs to the rectangle swept sphere with the same centre. -/
theorem mem_rss {b : RSS ℝ} (w : b.WF) {y : V3 ℝ} (hx : |y.x| ≤ b.l0 * (1 / 2)) (hy : |y.y| ≤ b.l1 * (1 / 2)) (hz : |y.z| ≤ b.r) :
    b.axis.mulVec y + b.center ∈ b.pts := by
  rw [abs_le] at hx hy
  refine ⟨_, ⟨y.x + b.l0 * (1 / 2), y.y + b.l1 * (1 / 2), by linarith [hx.1], by linarith [hx.2], by linarith [hy.1], by linarith [hy.2], rfl⟩, ?_⟩
  have e : b.axis.mulVec y + b.center - (b.To + (y.x + b.l0 * (1 / 2)) • b.axis.col 0 + (y.y + b.l1 * (1 / 2)) • b.axis.col 1) =
      b.axis.mulVec ⟨0, 0, y.z⟩ := by
    rw [RSS.center, RSS.mulVec_cols, RSS.mulVec_cols, RSS.mulVec_cols]; v3
  rw [e, M3.Orthonormal.dot w.axis, V3.dot_def]
  have := abs_le.1 hz
  simp only
  nlinarith [abs_nonneg y.z]

/-- **C90**, RSS to OBB. -/
theorem C90_rss_obb (hX : X.Rigid) {b : RSS ℝ} (w : b.WF) : (rssOBB b X).WF ∧ PlacedAt X b.pts ⊆ (rssOBB b X).pts := by
  refine ⟨M3.Orthonormal.mul hX w.axis, fun p hp => ?_⟩
  obtain ⟨q, hq, rfl⟩ := placedAt_iff.1 hp
  obtain ⟨y, rfl, h1, h2, h3⟩ := rss_coords w hq
  refine OBB.mem_pts_iff.2 ⟨y, h1, h2, h3, ?_⟩
  simp only [rssOBB, M3.mul_mulVec, Pose.apply, M3.mulVec_add]; v3

/-- **C90**, OBB to RSS. -/
theorem C90_obb_rss (hX : X.Rigid) {b : OBB ℝ} (w : b.WF) (he : 0 ≤ b.extent.x ∧ 0 ≤ b.extent.y ∧ 0 ≤ b.extent.z) :
    (obbRSS b X).WF ∧ PlacedAt X b.pts ⊆ (obbRSS b X).pts := by
  have wf : (obbRSS b X).WF := ⟨M3.Orthonormal.mul hX w, mul_nonneg zero_le_two he.1, mul_nonneg zero_le_two he.2.1, he.2.2⟩
  refine ⟨wf, fun p hp => ?_⟩
  obtain ⟨q, hq, rfl⟩ := placedAt_iff.1 hp
  obtain ⟨y, hx, hy, hz, rfl⟩ := OBB.mem_pts_iff.1 hq
  have hc : (obbRSS b X).center = X.apply b.To := (RSS.C86_set_center _).1
  have := mem_rss wf (y := y) (by show _ ≤ 2 * b.extent.x * (1 / 2); linarith) (by show _ ≤ 2 * b.extent.y * (1 / 2); linarith) hz
  rw [hc] at this
  have e : (obbRSS b X).axis.mulVec y + X.apply b.To = X.apply (b.axis.mulVec y + b.To) := by
    show (X.R.mul b.axis).mulVec y + X.apply b.To = _
    rw [M3.mul_mulVec, Pose.apply, Pose.apply, M3.mulVec_add]; v3
  rwa [e] at this

/-- **C90**, OBB, OBBRSS, RSS and k-DOP to AABB. -/
theorem C90_obb_aabb (hX : X.Rigid) {b : OBB ℝ} (w : b.WF) : PlacedAt X b.pts ⊆ (obbAABB b X).pts := by
  intro p hp
  obtain ⟨q, hq, rfl⟩ := placedAt_iff.1 hp
  obtain ⟨y, hx, hy, hz, rfl⟩ := OBB.mem_pts_iff.1 hq
  exact toAABB_mem hX w rfl (by rw [OBB.width]; linarith) (by rw [OBB.height]; linarith) (by rw [OBB.depth]; linarith)

theorem C90_obbrss_aabb (hX : X.Rigid) {b : OBBRSS ℝ} (w : b.WF) : PlacedAt X b.pts ⊆ (obbrssAABB b X).pts :=
  fun _ ⟨q, hq, e⟩ => C90_obb_aabb hX w.obb ⟨q, hq.1, e⟩

theorem C90_rss_aabb (hX : X.Rigid) {b : RSS ℝ} (w : b.WF) : PlacedAt X b.pts ⊆ (rssAABB b X).pts := by
  intro p hp
  obtain ⟨q, hq, rfl⟩ := placedAt_iff.1 hp
  obtain ⟨y, rfl, h1, h2, h3⟩ := rss_coords w hq
  exact toAABB_mem hX w.axis rfl (by linarith) (by linarith) (by linarith)

theorem kdop_coords {n : KDopN} {b : KDOP n ℝ} {q : V3 ℝ} (hq : q ∈ b.pts) : q = M3.one.mulVec (q - b.center) + b.center ∧
    |(q - b.center).x| ≤ b.width / 2 ∧ |(q - b.center).y| ≤ b.height / 2 ∧ |(q - b.center).z| ≤ b.depth / 2 := by
  have h0 := hq 0 ⟨1, 0, 0⟩ (by cases n <;> rfl)
  have h1 := hq 1 ⟨0, 1, 0⟩ (by cases n <;> rfl)
  have h2 := hq 2 ⟨0, 0, 1⟩ (by cases n <;> rfl)
  simp [along] at h0 h1 h2
  refine ⟨by rw [M3.one_mulVec]; v3, ?_, ?_, ?_⟩ <;> rw [abs_le] <;>
    simp only [KDOP.center, KDOP.width, KDOP.height, KDOP.depth, V3.sub_x, V3.sub_y, V3.sub_z] <;>
    constructor <;> linarith [h0.1, h0.2, h1.1, h1.2, h2.1, h2.2]

theorem C90_kdop_aabb (hX : X.Rigid) {n : KDopN} (b : KDOP n ℝ) : PlacedAt X b.pts ⊆ (kdopAABB b X).pts := by
  intro p hp
  obtain ⟨q, hq, rfl⟩ := placedAt_iff.1 hp
  obtain ⟨e, h1, h2, h3⟩ := kdop_coords hq
  exact toAABB_mem hX M3.orthonormal_one e h1 h2 h3

/-- **C90**, k-DOP to OBB. -/
theorem C90_kdop_obb (hX : X.Rigid) {n : KDopN} (b : KDOP n ℝ) : (kdopOBB b X).WF ∧ PlacedAt X b.pts ⊆ (kdopOBB b X).pts := by
  obtain ⟨h1, h2⟩ := C90_aabb_obb hX (kdopAABB b Pose.id)
  refine ⟨h1, ?_⟩
  rw [kdopOBB, h2]
  intro p hp
  obtain ⟨q, hq, rfl⟩ := placedAt_iff.1 hp
  refine placedAt_iff.2 ⟨q, ?_, rfl⟩
  have := C90_kdop_aabb Pose.id_rigid b (placedAt_iff.2 ⟨q, hq, rfl⟩)
  rwa [Pose.id_apply] at this

/-- **C90**, kIOS to AABB and OBB, if the first sphere has the centre of the box. Missing: volumes for which it has not, which
`C90_violated_kios` refutes. -/
theorem C90_kios_partial (hX : X.Rigid) {b : KIOS ℝ} (w : b.WF) (hc : b.center = some b.obb.To) :
    (∃ a, kiosAABB b X = some a ∧ PlacedAt X b.pts ⊆ a.pts) ∧ ∃ o, kiosOBB b X = some o ∧ o.WF ∧ PlacedAt X b.pts ⊆ o.pts := by
  have key : ∀ {Y : Pose ℝ}, Y.Rigid → PlacedAt Y b.pts ⊆ (obbAABB b.obb Y).pts := fun hY _ ⟨q, hq, e⟩ => C90_obb_aabb hY w.obb ⟨q, hq.2, e⟩
  have e : ∀ Y : Pose ℝ, kiosAABB b Y = some (obbAABB b.obb Y) := fun Y => by rw [kiosAABB, hc]; rfl
  refine ⟨⟨_, e X, key hX⟩, aabbOBB (obbAABB b.obb Pose.id) X, by rw [kiosOBB, e]; rfl, (C90_aabb_obb hX _).1, ?_⟩
  rw [(C90_aabb_obb hX _).2]
  intro p hp
  obtain ⟨q, hq, rfl⟩ := placedAt_iff.1 hp
  refine placedAt_iff.2 ⟨q, ?_, rfl⟩
  have := key Pose.id_rigid (placedAt_iff.2 ⟨q, hq, rfl⟩)
  rwa [Pose.id_apply] at this

/-- Fitting any number of points but three makes such a volume; so do the nodes of a mesh hierarchy. -/
theorem C90_kios_fit {big prec : ℝ} {eig : OBB.EigenFn ℝ} {ps : List (V3 ℝ)} (h3 : ps.length ≠ 3) {b : KIOS ℝ}
    (h : KIOS.fit big prec eig ps = some b) : b.center = some b.obb.To := by
  rw [KIOS.fit.eq_def] at h
  split at h
  · rw [← Option.some.inj h]; rfl
  · rw [KIOS.fit2] at h
    split at h
    · cases h
    · rw [← Option.some.inj h]; rfl
  · exact absurd rfl h3
  · rw [KIOS.fitn] at h
    split at h
    · cases h
    · rw [← Option.some.inj h, KIOS.center]
      simp only [KIOS.spheresOf]
      split_ifs <;> rfl

/-! ### AABB to RSS -/

/-- The three swaps sort the sides, and the indices with them. -/
theorem swaps_cases (v : V3 ℝ) : ∃ i j k : Fin 3,
    swap1 (swap2 (swap1 ((v.x, 0), (v.y, 1), (v.z, 2)))) = ((v.get i, i), (v.get j, j), (v.get k, k)) ∧ v.get k ≤ v.get j ∧ v.get j ≤ v.get i ∧
    ((i, j, k) = (0, 1, 2) ∨ (i, j, k) = (0, 2, 1) ∨ (i, j, k) = (1, 0, 2) ∨ (i, j, k) = (1, 2, 0) ∨ (i, j, k) = (2, 0, 1) ∨ (i, j, k) = (2, 1, 0)) := by
  simp only [swap1, swap2]
  split_ifs <;> simp only [not_lt, gt_iff_lt] at * <;> first
    | exact ⟨0, 1, 2, rfl, by simp only [V3.get]; linarith, by simp only [V3.get]; linarith, by simp⟩
    | exact ⟨0, 2, 1, rfl, by simp only [V3.get]; linarith, by simp only [V3.get]; linarith, by simp⟩
    | exact ⟨1, 0, 2, rfl, by simp only [V3.get]; linarith, by simp only [V3.get]; linarith, by simp⟩
    | exact ⟨1, 2, 0, rfl, by simp only [V3.get]; linarith, by simp only [V3.get]; linarith, by simp⟩
    | exact ⟨2, 0, 1, rfl, by simp only [V3.get]; linarith, by simp only [V3.get]; linarith, by simp⟩
    | exact ⟨2, 1, 0, rfl, by simp only [V3.get]; linarith, by simp only [V3.get]; linarith, by simp⟩

theorem perm_axes {R : M3 ℝ} (hR : R.Orthonormal) {i j k : Fin 3}
    (hc : (i, j, k) = (0, 1, 2) ∨ (i, j, k) = (0, 2, 1) ∨ (i, j, k) = (1, 0, 2) ∨ (i, j, k) = (1, 2, 0) ∨ (i, j, k) = (2, 0, 1) ∨ (i, j, k) = (2, 1, 0)) :
    (OBB.ofCols (if i = j + 1 then -(R.col i) else R.col i) (R.col j) (R.col k)).Orthonormal ∧
    (OBB.ofCols (if i = j + 1 then -(R.col i) else R.col i) (R.col j) (R.col k)).det = R.det ∧
    ∀ y : V3 ℝ, (OBB.ofCols (if i = j + 1 then -(R.col i) else R.col i) (R.col j) (R.col k)).mulVec
      ⟨if i = j + 1 then -(y.get i) else y.get i, y.get j, y.get k⟩ = R.mulVec y := by
  have r := fun i j : Fin 3 => OBB.row_dot (M3.Orthonormal.tr hR) i j
  have r' : ∀ i j : Fin 3, (R.col i).dot (R.col j) = if i = j then 1 else 0 := fun i j => by
    rw [← r i j]; fin_cases i <;> fin_cases j <;> rfl
  refine ⟨?_, ?_, ?_⟩
  · apply OBB.ofCols_orthonormal
    · split <;> simp only [V3.neg_dot, V3.dot_neg, r', if_true, neg_neg]
    · rw [r', if_pos rfl]
    · rw [r', if_pos rfl]
    · have : i ≠ j := by rcases hc with h | h | h | h | h | h <;> simp only [Prod.mk.injEq] at h <;> obtain ⟨rfl, rfl, rfl⟩ := h <;> decide
      split <;> simp only [V3.neg_dot, r', if_neg this, neg_zero]
    · have : i ≠ k := by rcases hc with h | h | h | h | h | h <;> simp only [Prod.mk.injEq] at h <;> obtain ⟨rfl, rfl, rfl⟩ := h <;> decide
      split <;> simp only [V3.neg_dot, r', if_neg this, neg_zero]
    · have : j ≠ k := by rcases hc with h | h | h | h | h | h <;> simp only [Prod.mk.injEq] at h <;> obtain ⟨rfl, rfl, rfl⟩ := h <;> decide
      rw [r', if_neg this]
  · rcases hc with h | h | h | h | h | h <;> simp only [Prod.mk.injEq] at h <;> obtain ⟨rfl, rfl, rfl⟩ := h <;>
      simp [OBB.ofCols, M3.det, M3.col, V3.get, V3.dot, V3.cross, Fin.ext_iff] <;> ring
  · intro y
    rcases hc with h | h | h | h | h | h <;> simp only [Prod.mk.injEq] at h <;> obtain ⟨rfl, rfl, rfl⟩ := h <;>
      apply V3.ext' <;> simp [OBB.ofCols, M3.mulVec, M3.col, V3.get, V3.dot, Fin.ext_iff] <;> ring

/-- **C90**, AABB to RSS. The first side of the rectangle is the longest, the radius half the shortest; the directions are
right-handed if those of the pose are. -/
theorem C90_aabb_rss (hX : X.Rigid) {b : AABB ℝ} (hb : b.Valid) : (aabbRSS b X).WF ∧ PlacedAt X b.pts ⊆ (aabbRSS b X).pts ∧
    (aabbRSS b X).l1 ≤ (aabbRSS b X).l0 ∧ 2 * (aabbRSS b X).r ≤ (aabbRSS b X).l1 ∧ (aabbRSS b X).axis.det = X.R.det := by
  obtain ⟨i, j, k, hs, o1, o2, hc⟩ := swaps_cases (b.hi - b.lo)
  have hs : swap1 (swap2 (swap1 ((b.width, 0), (b.height, 1), (b.depth, 2)))) = (((b.hi - b.lo).get i, i), ((b.hi - b.lo).get j, j), ((b.hi - b.lo).get k, k)) := hs
  obtain ⟨v0, v1, v2⟩ := hb
  have hd : 0 ≤ (b.hi - b.lo).x ∧ 0 ≤ (b.hi - b.lo).y ∧ 0 ≤ (b.hi - b.lo).z := by
    simp only [V3.sub_x, V3.sub_y, V3.sub_z]; exact ⟨by linarith, by linarith, by linarith⟩
  obtain ⟨ho, hdet, hm⟩ := perm_axes hX hc
  have get_nonneg : ∀ m : Fin 3, 0 ≤ (b.hi - b.lo).get m := fun m => by
    fin_cases m
    · exact hd.1
    · exact hd.2.1
    · exact hd.2.2
  have e : aabbRSS b X = (⟨OBB.ofCols (if i = j + 1 then -(X.R.col i) else X.R.col i) (X.R.col j) (X.R.col k), 0,
      ((1 / 2 : ℝ) • (b.hi - b.lo)).get i * 2, ((1 / 2 : ℝ) • (b.hi - b.lo)).get j * 2, ((1 / 2 : ℝ) • (b.hi - b.lo)).get k⟩ : RSS ℝ).setToFromCenter
        (X.apply b.center) := by
    simp only [aabbRSS, hs]
  have gs : ∀ m : Fin 3, ((1 / 2 : ℝ) • (b.hi - b.lo)).get m = 1 / 2 * (b.hi - b.lo).get m := fun m => by fin_cases m <;> rfl
  simp only [gs] at e
  have wf : (aabbRSS b X).WF := by
    rw [e]
    refine ⟨ho, ?_, ?_, ?_⟩
    · show 0 ≤ 1 / 2 * (b.hi - b.lo).get i * 2; linarith [get_nonneg i]
    · show 0 ≤ 1 / 2 * (b.hi - b.lo).get j * 2; linarith [get_nonneg j]
    · show 0 ≤ 1 / 2 * (b.hi - b.lo).get k; linarith [get_nonneg k]
  refine ⟨wf, ?_, ?_, ?_, ?_⟩
  · intro p hp
    obtain ⟨q, ⟨⟨h1, h2⟩, ⟨h3, h4⟩, h5, h6⟩, rfl⟩ := placedAt_iff.1 hp
    have hg : ∀ m : Fin 3, |(q - b.center).get m| ≤ 1 / 2 * (b.hi - b.lo).get m := fun m => by
      rw [abs_le]
      fin_cases m <;> simp [V3.get, AABB.center] <;> constructor <;> linarith
    have hcen : (aabbRSS b X).center = X.apply b.center := by rw [e]; exact (RSS.C86_set_center _).1
    have hl0 : (aabbRSS b X).l0 = 1 / 2 * (b.hi - b.lo).get i * 2 := by rw [e]; rfl
    have hl1 : (aabbRSS b X).l1 = 1 / 2 * (b.hi - b.lo).get j * 2 := by rw [e]; rfl
    have hr : (aabbRSS b X).r = 1 / 2 * (b.hi - b.lo).get k := by rw [e]; rfl
    have hax : (aabbRSS b X).axis = OBB.ofCols (if i = j + 1 then -(X.R.col i) else X.R.col i) (X.R.col j) (X.R.col k) := by rw [e]; rfl
    have hi : |if i = j + 1 then -((q - b.center).get i) else (q - b.center).get i| = |(q - b.center).get i| := by split <;> simp
    have := mem_rss wf (y := ⟨if i = j + 1 then -((q - b.center).get i) else (q - b.center).get i, (q - b.center).get j, (q - b.center).get k⟩)
      (by rw [hl0]; simp only [hi]; linarith [hg i]) (by rw [hl1]; linarith [hg j]) (by rw [hr]; exact hg k)
    rw [hcen, hax, hm, ← apply_sub] at this
    have e2 : X.apply q - X.apply b.center + X.apply b.center = X.apply q := by v3
    rwa [e2] at this
  · rw [e]; show 1 / 2 * (b.hi - b.lo).get j * 2 ≤ 1 / 2 * (b.hi - b.lo).get i * 2; linarith
  · rw [e]; show 2 * (1 / 2 * (b.hi - b.lo).get k) ≤ 1 / 2 * (b.hi - b.lo).get j * 2; linarith
  · rw [e]; exact hdet

/-! ### `constructBox` -/

theorem box_mem {s : V3 ℝ} {Y : Pose ℝ} {y : V3 ℝ} (hx : |y.x| ≤ s.x / 2) (hy : |y.y| ≤ s.y / 2) (hz : |y.z| ≤ s.z / 2) : Y.apply y ∈ BoxPts (s, Y) :=
  ⟨y, ⟨abs_le.1 hx, abs_le.1 hy, abs_le.1 hz⟩, rfl⟩

/-- **C90.** The box made from an AABB is the AABB, at every pose; from an OBB, the OBB. -/
theorem C90_box_aabb (b : AABB ℝ) : BoxPts (ConstructBox.aabb b) = b.pts := by
  ext p
  constructor
  · rintro ⟨y, ⟨h1, h2, h3⟩, rfl⟩
    simp only [ConstructBox.aabb, M3.one_mulVec, AABB.center, AABB.pts, Set.mem_ofPred_eq, V3.add_x, V3.add_y, V3.add_z, V3.sub_x, V3.sub_y, V3.sub_z] at *
    refine ⟨⟨?_, ?_⟩, ⟨?_, ?_⟩, ?_, ?_⟩ <;> linarith [h1.1, h1.2, h2.1, h2.2, h3.1, h3.2]
  · rintro ⟨⟨h1, h2⟩, ⟨h3, h4⟩, h5, h6⟩
    refine ⟨p - b.center, ?_, ?_⟩
    · simp only [ConstructBox.aabb, Geo.pts, Shape.box, AABB.center, Set.mem_ofPred_eq, V3.sub_x, V3.sub_y, V3.sub_z]
      refine ⟨⟨?_, ?_⟩, ⟨?_, ?_⟩, ?_, ?_⟩ <;> linarith
    · simp only [ConstructBox.aabb, M3.one_mulVec]; v3

theorem boxPts_mul (s : V3 ℝ) (X Y : Pose ℝ) : BoxPts (s, X.mul Y) = PlacedAt X (BoxPts (s, Y)) := by
  ext p
  rw [placedAt_iff]
  constructor
  · rintro ⟨y, hy, rfl⟩
    exact ⟨_, ⟨y, hy, rfl⟩, Pose.mul_apply X Y y⟩
  · rintro ⟨_, ⟨y, hy, rfl⟩, rfl⟩
    exact ⟨y, hy, (Pose.mul_apply X Y y).symm⟩

theorem C90_box_aabb_at (b : AABB ℝ) (X : Pose ℝ) : BoxPts (ConstructBox.aabbAt b X) = PlacedAt X b.pts := by
  rw [← C90_box_aabb b]; exact boxPts_mul _ _ _

theorem C90_box_obb (b : OBB ℝ) : BoxPts (ConstructBox.obb b) = b.pts := by
  ext p
  rw [OBB.mem_pts_iff]
  constructor
  · rintro ⟨y, ⟨h1, h2, h3⟩, rfl⟩
    simp only [ConstructBox.obb, V3.smul_x, V3.smul_y, V3.smul_z] at *
    exact ⟨y, abs_le.2 ⟨by linarith [h1.1], by linarith [h1.2]⟩, abs_le.2 ⟨by linarith [h2.1], by linarith [h2.2]⟩,
      abs_le.2 ⟨by linarith [h3.1], by linarith [h3.2]⟩, rfl⟩
  · rintro ⟨y, hx, hy, hz, rfl⟩
    exact box_mem (Y := ⟨b.axis, b.To⟩) (by simpa using hx) (by simpa using hy) (by simpa using hz)

/-- **C90**, the other volumes: enclosed. -/
theorem C90_box_obbrss (b : OBBRSS ℝ) (X : Pose ℝ) : b.pts ⊆ BoxPts (ConstructBox.obbrss b) ∧ PlacedAt X b.pts ⊆ BoxPts (ConstructBox.obbrssAt b X) := by
  have h : b.pts ⊆ BoxPts (ConstructBox.obbrss b) := fun p hp => by rw [ConstructBox.obbrss, C90_box_obb]; exact hp.1
  refine ⟨h, ?_⟩
  rw [ConstructBox.obbrssAt, boxPts_mul]
  exact fun p ⟨q, hq, e⟩ => ⟨q, h hq, e⟩

theorem C90_box_kios (b : KIOS ℝ) : b.pts ⊆ BoxPts (ConstructBox.kios b) := fun p hp => by
  rw [ConstructBox.kios, C90_box_obb]; exact hp.2

theorem C90_box_kdop {n : KDopN} (b : KDOP n ℝ) (X : Pose ℝ) : b.pts ⊆ BoxPts (ConstructBox.kdop b) ∧ PlacedAt X b.pts ⊆ BoxPts (ConstructBox.kdopAt b X) := by
  have h : b.pts ⊆ BoxPts (ConstructBox.kdop b) := fun p hp => by
    obtain ⟨e, h1, h2, h3⟩ := kdop_coords hp
    have := box_mem (s := ⟨b.width, b.height, b.depth⟩) (Y := ⟨M3.one, b.center⟩) h1 h2 h3
    rw [Pose.apply, ← e] at this
    exact this
  refine ⟨h, ?_⟩
  rw [ConstructBox.kdopAt, boxPts_mul]
  exact fun p ⟨q, hq, e⟩ => ⟨q, h hq, e⟩

/-! ### Counterexamples -/

/-- **C90 is violated by `constructBox` of an RSS:** the corner of the rectangle becomes the centre of the box, so that the
opposite corner is outside unless the rectangle is no longer than the radius. -/
theorem C90_violated_box_rss {b : RSS ℝ} (w : b.WF) (hl : 2 * b.r < b.l0) : ∃ p ∈ b.pts, p ∉ BoxPts (ConstructBox.rss b) := by
  refine ⟨b.To + b.l0 • b.axis.col 0, ⟨_, ⟨b.l0, 0, w.l0, le_rfl, le_rfl, w.l1, rfl⟩, ?_⟩, ?_⟩
  · have e : b.To + b.l0 • b.axis.col 0 - (b.To + b.l0 • b.axis.col 0 + (0 : ℝ) • b.axis.col 1) = 0 := by v3
    rw [e]; simp only [V3.dot, V3.zero_x, V3.zero_y, V3.zero_z]; nlinarith [mul_self_nonneg b.r]
  · rintro ⟨y, ⟨⟨-, h⟩, -⟩, e⟩
    have e : b.axis.mulVec y = b.axis.mulVec ⟨b.l0, 0, 0⟩ := by
      have e' : b.To + b.l0 • b.axis.col 0 - b.To = b.axis.mulVec y + b.To - b.To := by rw [e]; rfl
      have e2 : b.axis.mulVec y + b.To - b.To = b.axis.mulVec y := by v3
      rw [e2] at e'
      rw [← e', RSS.mulVec_cols]; v3
    have := congrArg (fun v => (b.axis.tr.mulVec v).x) e
    simp only [M3.Orthonormal.tr_mul w.axis] at this
    rw [this] at h
    change b.l0 ≤ (b.l0 + 2 * b.r) / 2 at h
    linarith

/-- ... and likewise at a pose. -/
theorem C90_violated_box_rssAt {b : RSS ℝ} (w : b.WF) (hl : 2 * b.r < b.l0) {X : Pose ℝ} (hX : X.Rigid) :
    ∃ p ∈ PlacedAt X b.pts, p ∉ BoxPts (ConstructBox.rssAt b X) := by
  obtain ⟨p, hp, hn⟩ := C90_violated_box_rss w hl
  refine ⟨X.apply p, ⟨p, hp, rfl⟩, ?_⟩
  rw [ConstructBox.rssAt, boxPts_mul]
  rintro ⟨q, hq, e⟩
  rw [Pose.apply_injective hX e] at hn
  exact hn hq

/-- **C90 is violated by `constructBox` of an OBB at a pose**, and of a kIOS: the pose is not used. -/
theorem C90_violated_box_obb : ∃ (b : OBB ℝ) (X : Pose ℝ), b.WF ∧ X.Rigid ∧ ∃ p ∈ PlacedAt X b.pts, p ∉ BoxPts (ConstructBox.obbAt b X) := by
  refine ⟨⟨M3.one, 0, ⟨1, 1, 1⟩⟩, ⟨M3.one, ⟨5, 0, 0⟩⟩, M3.orthonormal_one, M3.orthonormal_one, ⟨5, 0, 0⟩, ⟨0, ?_, ?_⟩, ?_⟩
  · exact ⟨0, by simp, by simp, by simp, by v3⟩
  · rw [M3.one_mulVec]; v3
  · rintro ⟨y, ⟨⟨-, h⟩, -⟩, e⟩
    have := congrArg V3.x e
    simp [ConstructBox.obbAt, M3.one_mulVec] at this h
    linarith

theorem C90_violated_box_kios : ∃ (b : KIOS ℝ) (X : Pose ℝ), b.WF ∧ X.Rigid ∧ ∃ p ∈ PlacedAt X b.pts, p ∉ BoxPts (ConstructBox.kiosAt b X) := by
  refine ⟨⟨[⟨0, 2⟩], ⟨M3.one, 0, ⟨1, 1, 1⟩⟩⟩, ⟨M3.one, ⟨5, 0, 0⟩⟩, ⟨M3.orthonormal_one, by simp⟩, M3.orthonormal_one, ⟨5, 0, 0⟩, ⟨0, ⟨?_, ?_⟩, ?_⟩, ?_⟩
  · simp [Ball.pts, V3.dot]
  · exact ⟨0, by simp, by simp, by simp, by v3⟩
  · rw [M3.one_mulVec]; v3
  · rintro ⟨y, ⟨⟨-, h⟩, -⟩, e⟩
    have := congrArg V3.x e
    simp [ConstructBox.kiosAt, M3.one_mulVec] at this h
    linarith

/-- **C90 is violated by the conversion of a kIOS to an AABB or OBB:** `center` is that of the first sphere, which for a triangle is the
circumcentre, and the sizes are those of the box. Fitting the volume to an obtuse triangle and converting it loses a corner. -/
theorem C90_violated_kios {big : ℝ} (hb : 4 < big) (prec : ℝ) (eig : OBB.EigenFn ℝ) : ∃ (b : KIOS ℝ) (a : AABB ℝ) (o : OBB ℝ),
    KIOS.fit big prec eig [⟨0, 0, 0⟩, ⟨4, 0, 0⟩, ⟨2, 1, 0⟩] = some b ∧ b.WF ∧ kiosAABB b Pose.id = some a ∧ kiosOBB b Pose.id = some o ∧
    (⟨2, 1, 0⟩ : V3 ℝ) ∈ b.pts ∧ (⟨2, 1, 0⟩ : V3 ℝ) ∉ a.pts ∧ (⟨2, 1, 0⟩ : V3 ℝ) ∉ o.pts := by
  have hne : ((⟨0, 0, 0⟩ : V3 ℝ) - ⟨4, 0, 0⟩).cross (⟨4, 0, 0⟩ - ⟨2, 1, 0⟩) ≠ 0 := fun h => by
    have := congrArg V3.z h; norm_num [V3.cross] at this
  obtain ⟨w, hm⟩ := KIOS.C87_fit3 big hne
  have n1 : ((⟨0, 0, 0⟩ : V3 ℝ) - ⟨4, 0, 0⟩).normalized = ⟨-1, 0, 0⟩ := by
    have : ((⟨0, 0, 0⟩ : V3 ℝ) - ⟨4, 0, 0⟩).nrm = 4 := V3.nrm_unique (by norm_num) (by norm_num [V3.dot])
    rw [V3.normalized, this, if_neg (by norm_num)]; apply V3.ext' <;> norm_num
  have n2 : (((⟨0, 0, 0⟩ : V3 ℝ) - ⟨4, 0, 0⟩).cross (⟨4, 0, 0⟩ - ⟨2, 1, 0⟩)).normalized = ⟨0, 0, 1⟩ := by
    have : (((⟨0, 0, 0⟩ : V3 ℝ) - ⟨4, 0, 0⟩).cross (⟨4, 0, 0⟩ - ⟨2, 1, 0⟩)).nrm = 4 := V3.nrm_unique (by norm_num) (by norm_num [V3.dot, V3.cross])
    rw [V3.normalized, this, if_neg (by norm_num)]; apply V3.ext' <;> norm_num [V3.cross]
  have ha : OBB.axes3 (⟨0, 0, 0⟩ : V3 ℝ) ⟨4, 0, 0⟩ ⟨2, 1, 0⟩ = ⟨⟨-1, 0, 0⟩, ⟨0, -1, 0⟩, ⟨0, 0, 1⟩⟩ := by
    simp only [OBB.axes3]
    rw [if_neg (by norm_num [V3.dot]), if_neg (by norm_num [V3.dot]), n1, n2]
    norm_num [OBB.ofCols, V3.cross]
  have hc : (KIOS.circumCircle (⟨0, 0, 0⟩ : V3 ℝ) ⟨4, 0, 0⟩ ⟨2, 1, 0⟩).1 = ⟨2, -3/2, 0⟩ := by
    simp only [KIOS.circumCircle]
    apply V3.ext' <;> norm_num [V3.dot, V3.cross]
  have b0 : OBB.bounds big (⟨-1, 0, 0⟩ : V3 ℝ) [⟨0, 0, 0⟩, ⟨4, 0, 0⟩, ⟨2, 1, 0⟩] = (-4, 0) := by
    simp only [OBB.bounds, List.map_cons, List.map_nil, List.foldl_cons, List.foldl_nil, OBB.boundStep, V3.dot]
    norm_num [show 0 < big by linarith]
  have b1 : OBB.bounds big (⟨0, -1, 0⟩ : V3 ℝ) [⟨0, 0, 0⟩, ⟨4, 0, 0⟩, ⟨2, 1, 0⟩] = (-1, 0) := by
    simp only [OBB.bounds, List.map_cons, List.map_nil, List.foldl_cons, List.foldl_nil, OBB.boundStep, V3.dot]
    norm_num [show 0 < big by linarith]
  have b2 : OBB.bounds big (⟨0, 0, 1⟩ : V3 ℝ) [⟨0, 0, 0⟩, ⟨4, 0, 0⟩, ⟨2, 1, 0⟩] = (0, 0) := by
    simp only [OBB.bounds, List.map_cons, List.map_nil, List.foldl_cons, List.foldl_nil, OBB.boundStep, V3.dot]
    norm_num [show 0 < big by linarith]
  have he : (KIOS.fit3 big (⟨0, 0, 0⟩ : V3 ℝ) ⟨4, 0, 0⟩ ⟨2, 1, 0⟩).obb.extent = ⟨2, 1/2, 0⟩ := by
    simp only [KIOS.fit3, OBB.fitAxis, ha, M3.col, V3.get, b0, b1, b2]
    norm_num
  obtain ⟨r, hr⟩ : ∃ r, r = (⟨4, 1, 0⟩ : V3 ℝ).nrm * (1 / 2) := ⟨_, rfl⟩
  have hr2 : r < 5/2 := by
    have : (⟨4, 1, 0⟩ : V3 ℝ).nrm < 5 := by
      have := V3.nrm_mul_self (⟨4, 1, 0⟩ : V3 ℝ)
      norm_num [V3.dot] at this
      nlinarith [V3.nrm_nonneg (⟨4, 1, 0⟩ : V3 ℝ)]
    linarith
  have e : kiosAABB (KIOS.fit3 big (⟨0, 0, 0⟩ : V3 ℝ) ⟨4, 0, 0⟩ ⟨2, 1, 0⟩) Pose.id = some ⟨⟨2, -3/2, 0⟩ - ⟨r, r, r⟩, ⟨2, -3/2, 0⟩ + ⟨r, r, r⟩⟩ := by
    have hce : (KIOS.fit3 big (⟨0, 0, 0⟩ : V3 ℝ) ⟨4, 0, 0⟩ ⟨2, 1, 0⟩).center = some ⟨2, -3/2, 0⟩ := by rw [← hc]; rfl
    rw [kiosAABB, hce, OBB.width, OBB.height, OBB.depth, he]
    simp only [Option.map_some, toAABB, Pose.id_apply]
    rw [hr]; norm_num
  have hout : (⟨2, 1, 0⟩ : V3 ℝ) ∉ (⟨⟨2, -3/2, 0⟩ - ⟨r, r, r⟩, ⟨2, -3/2, 0⟩ + ⟨r, r, r⟩⟩ : AABB ℝ).pts := fun h => by
    have := h.2.1.2
    simp only [V3.add_y] at this
    linarith
  refine ⟨_, _, _, rfl, w, e, by rw [kiosOBB, e]; rfl, hm _ (by simp), hout, fun h => hout ?_⟩
  rw [(C90_aabb_obb Pose.id_rigid _).2] at h
  obtain ⟨q, hq, e⟩ := placedAt_iff.1 h
  rw [e, Pose.id_apply]; exact hq

/-- The hypotheses are met by a turned pose and volumes with points. -/
example : exTurn.Rigid ∧ (⟨⟨0, 0, 0⟩, ⟨1, 3, 2⟩⟩ : AABB ℝ).Valid ∧ (⟨M3.one, 0, 3, 1, 1/2⟩ : RSS ℝ).WF ∧ 2 * (1/2 : ℝ) < 3 := by
  refine ⟨exTurn_rigid, ⟨by norm_num, by norm_num, by norm_num⟩, ⟨M3.orthonormal_one, by norm_num, by norm_num, by norm_num⟩, by norm_num⟩

end ConvertBV
end Fcl
