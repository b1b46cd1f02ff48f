import Verif.KIOS.Lemmas
import Verif.Props.RSSFit

/-!
# C87: kIOS

Overlap, distance, containment, merging and fitting of the intersection of spheres with a box.
-/

namespace Fcl
namespace KIOS
open V3
variable {b b1 b2 : KIOS ℝ} {X : Pose ℝ}

/-! ### Overlap and distance -/

/-- The second volume where the pose puts it. -/
noncomputable def placed (X : Pose ℝ) (b : KIOS ℝ) : KIOS ℝ :=
  ⟨b.spheres.map fun s => ⟨X.R.mulVec s.o + X.t, s.r⟩, { b.obb with To := X.R.mulVec b.obb.To + X.t, axis := X.R.mul b.obb.axis }⟩

theorem placed_sphere (hX : X.Rigid) {q : V3 ℝ} (h : ∀ s ∈ b.spheres, q ∈ s.pts) : ∀ s ∈ (placed X b).spheres, X.apply q ∈ s.pts := by
  intro s hs
  obtain ⟨s', hs', rfl⟩ := List.mem_map.1 hs
  have h1 := h s' hs'
  have e : (X.apply q - (X.R.mulVec s'.o + X.t)).dot (X.apply q - (X.R.mulVec s'.o + X.t)) = (q - s'.o).dot (q - s'.o) := by
    have e1 : X.apply q - (X.R.mulVec s'.o + X.t) = X.apply q - X.apply s'.o := by simp only [Pose.apply]
    have := Pose.dist_apply hX q s'.o
    rw [dist_eq, dist_eq] at this
    rw [e1, ← nrm_mul_self, this, nrm_mul_self]
  exact (le_of_eq e).trans h1

theorem placed_obb {q : V3 ℝ} (h : q ∈ b.obb.pts) : X.apply q ∈ (placed X b).obb.pts := by
  obtain ⟨y, h0, h1, h2, rfl⟩ := h
  refine ⟨y, h0, h1, h2, ?_⟩
  simp only [Pose.apply, placed]
  apply V3.ext' <;> simp [M3.mulVec, M3.mul, M3.col, V3.dot, V3.get, M3.get, M3.row, M3.tr] <;> ring

theorem placed_wf (hX : X.Rigid) (w : b.WF) : (placed X b).WF :=
  ⟨M3.Orthonormal.mul hX w.obb, fun s hs => by obtain ⟨s', hs', rfl⟩ := List.mem_map.1 hs; exact w.radius s' hs'⟩

/-- Two spheres with a common point are not further apart than the sum of the radii. -/
theorem balls_meet {s t : Ball ℝ} (hs : 0 ≤ s.r) (ht : 0 ≤ t.r) {p q : V3 ℝ} (h1 : p ∈ s.pts) (h2 : q ∈ t.pts) :
    (s.o - t.o).nrm - (s.r + t.r) ≤ p.dist q := by
  rw [ball_iff hs] at h1
  rw [ball_iff ht] at h2
  have t1 := V3.dist_triangle s.o p t.o
  have t2 := V3.dist_triangle p q t.o
  rw [V3.dist_comm s.o p] at t1
  rw [← dist_eq]
  linarith

/-- **C87.** Volumes with a common point overlap, the second one at any pose. -/
theorem C87_overlap (w1 : b1.WF) (w2 : b2.WF) (hX : X.Rigid) {p q : V3 ℝ} (hp : p ∈ b1.pts) (hq : q ∈ b2.pts) (e : p = X.apply q) :
    overlapAt X.R X.t b1 b2 = true := by
  have w2' := placed_wf hX w2
  have h2 := placed_sphere hX hq.1
  have h3 := placed_obb (X := X) hq.2
  rw [← e] at h2 h3
  change b1.overlap (placed X b2) = true
  unfold overlap
  rw [if_neg]
  · exact OBB.C45_overlap w1.obb w2'.obb hp.2 h3
  · rw [List.any_eq_true]
    rintro ⟨s, hs, h⟩
    obtain ⟨t, ht, h⟩ := List.any_eq_true.1 h
    have hd := of_decide_eq_true h
    have hm := balls_meet (w1.radius s hs) (w2'.radius t ht) (hp.1 s hs) (h2 t ht)
    rw [V3.dist_self] at hm
    rw [← nrm_mul_self] at hd
    have := V3.nrm_nonneg (s.o - t.o)
    nlinarith [w1.radius s hs, w2'.radius t ht]

/-- The member function is the same with the second volume where it is. -/
theorem C87_member_overlap (w1 : b1.WF) (w2 : b2.WF) (h : overlap b1 b2 = false) : ¬ Touch b1.pts b2.pts := by
  rintro ⟨p, hp, hq⟩
  unfold overlap at h
  rw [if_neg] at h
  · rw [OBB.C45_overlap w1.obb w2.obb hp.2 hq.2] at h; cases h
  · rw [List.any_eq_true]
    rintro ⟨s, hs, h⟩
    obtain ⟨t, ht, h⟩ := List.any_eq_true.1 h
    have hd := of_decide_eq_true h
    have hm := balls_meet (w1.radius s hs) (w2.radius t ht) (hp.1 s hs) (hq.1 t ht)
    rw [V3.dist_self] at hm
    rw [← nrm_mul_self] at hd
    have := V3.nrm_nonneg (s.o - t.o)
    nlinarith [w1.radius s hs, w2.radius t ht]

theorem widest_le {D : ℝ} (h0 : 0 ≤ D) (h : ∀ s ∈ b1.spheres, ∀ t ∈ b2.spheres, (s.o - t.o).nrm - (s.r + t.r) ≤ D) : (widest b1 b2).1 ≤ D := by
  unfold widest
  have key : ∀ (l : List ((Ball ℝ × ℕ) × (Ball ℝ × ℕ))) (m : ℝ × Option (ℕ × ℕ)), m.1 ≤ D →
      (∀ st ∈ l, (st.1.1.o - st.2.1.o).nrm - (st.1.1.r + st.2.1.r) ≤ D) →
      (l.foldl (fun m st => if m.1 < (st.1.1.o - st.2.1.o).nrm - (st.1.1.r + st.2.1.r) then
        ((st.1.1.o - st.2.1.o).nrm - (st.1.1.r + st.2.1.r), some (st.1.2, st.2.2)) else m) m).1 ≤ D := by
    intro l
    induction l with
    | nil => intro m hm _; exact hm
    | cons st l ih =>
      intro m hm hl
      rw [List.foldl_cons]
      apply ih _ _ fun x hx => hl x (List.mem_cons_of_mem _ hx)
      split_ifs
      · exact hl st List.mem_cons_self
      · exact hm
  apply key _ _ h0
  intro st hst
  obtain ⟨s, hs, h1⟩ := List.mem_flatMap.1 hst
  obtain ⟨t, ht, rfl⟩ := List.mem_map.1 h1
  exact h _ (List.fst_mem_of_mem_zipIdx hs) _ (List.fst_mem_of_mem_zipIdx ht)

theorem widest_nonneg : 0 ≤ (widest b1 b2).1 := by
  unfold widest
  have key : ∀ (l : List ((Ball ℝ × ℕ) × (Ball ℝ × ℕ))) (m : ℝ × Option (ℕ × ℕ)), 0 ≤ m.1 →
      0 ≤ (l.foldl (fun m st => if m.1 < (st.1.1.o - st.2.1.o).nrm - (st.1.1.r + st.2.1.r) then
        ((st.1.1.o - st.2.1.o).nrm - (st.1.1.r + st.2.1.r), some (st.1.2, st.2.2)) else m) m).1 := by
    intro l
    induction l with
    | nil => intro m hm; exact hm
    | cons st l ih =>
      intro m hm
      rw [List.foldl_cons]
      apply ih
      split_ifs with c
      · exact hm.trans c.le
      · exact hm
  exact key _ _ le_rfl

/-- The distance is at least the gap of every two spheres. -/
theorem widest_ge {s t : Ball ℝ} (hs : s ∈ b1.spheres) (ht : t ∈ b2.spheres) : (s.o - t.o).nrm - (s.r + t.r) ≤ (widest b1 b2).1 := by
  unfold widest
  have key : ∀ (l : List ((Ball ℝ × ℕ) × (Ball ℝ × ℕ))) (m : ℝ × Option (ℕ × ℕ)),
      m.1 ≤ (l.foldl (fun m st => if m.1 < (st.1.1.o - st.2.1.o).nrm - (st.1.1.r + st.2.1.r) then
        ((st.1.1.o - st.2.1.o).nrm - (st.1.1.r + st.2.1.r), some (st.1.2, st.2.2)) else m) m).1 ∧
      ∀ st ∈ l, (st.1.1.o - st.2.1.o).nrm - (st.1.1.r + st.2.1.r) ≤ (l.foldl (fun m st => if m.1 < (st.1.1.o - st.2.1.o).nrm - (st.1.1.r + st.2.1.r) then
        ((st.1.1.o - st.2.1.o).nrm - (st.1.1.r + st.2.1.r), some (st.1.2, st.2.2)) else m) m).1 := by
    intro l
    induction l with
    | nil => intro m; exact ⟨le_rfl, by simp⟩
    | cons st l ih =>
      intro m
      rw [List.foldl_cons]
      obtain ⟨h1, h2⟩ := ih (if m.1 < (st.1.1.o - st.2.1.o).nrm - (st.1.1.r + st.2.1.r) then
        ((st.1.1.o - st.2.1.o).nrm - (st.1.1.r + st.2.1.r), some (st.1.2, st.2.2)) else m)
      have h3 : m.1 ≤ (if m.1 < (st.1.1.o - st.2.1.o).nrm - (st.1.1.r + st.2.1.r) then
          ((st.1.1.o - st.2.1.o).nrm - (st.1.1.r + st.2.1.r), some (st.1.2, st.2.2)) else m).1 ∧
          (st.1.1.o - st.2.1.o).nrm - (st.1.1.r + st.2.1.r) ≤ (if m.1 < (st.1.1.o - st.2.1.o).nrm - (st.1.1.r + st.2.1.r) then
          ((st.1.1.o - st.2.1.o).nrm - (st.1.1.r + st.2.1.r), some (st.1.2, st.2.2)) else m).1 := by
        split_ifs with c
        · exact ⟨c.le, le_rfl⟩
        · exact ⟨le_rfl, not_lt.1 c⟩
      refine ⟨h3.1.trans h1, ?_⟩
      intro x hx
      rcases List.mem_cons.1 hx with rfl | hx
      · exact h3.2.trans h1
      · exact h2 x hx
  obtain ⟨i, hi, rfl⟩ := List.getElem_of_mem hs
  obtain ⟨j, hj, rfl⟩ := List.getElem_of_mem ht
  refine (key _ (0, none)).2 ((b1.spheres[i], i), (b2.spheres[j], j)) (List.mem_flatMap.2 ⟨(b1.spheres[i], i), ?_, List.mem_map.2 ⟨(b2.spheres[j], j), ?_, rfl⟩⟩)
  · exact List.mem_zipIdx_iff_getElem?.2 (List.getElem?_eq_getElem hi)
  · exact List.mem_zipIdx_iff_getElem?.2 (List.getElem?_eq_getElem hj)

/-- **C87.** The distance of two volumes, the second one at a pose, is not more than the distance of any two of their
points. -/
theorem C87_lower (w1 : b1.WF) (w2 : b2.WF) (hX : X.Rigid) {p q : V3 ℝ} (hp : p ∈ b1.pts) (hq : q ∈ b2.pts) :
    0 ≤ distanceAt X.R X.t b1 b2 ∧ distanceAt X.R X.t b1 b2 ≤ p.dist (X.apply q) := by
  refine ⟨widest_nonneg, widest_le (V3.dist_nonneg _ _) fun s hs t ht => ?_⟩
  exact balls_meet (w1.radius s hs) ((placed_wf hX w2).radius t ht) (hp.1 s hs) (placed_sphere hX hq.1 t ht)

/-- It is the gap of the spheres that are furthest apart. -/
theorem C87_widest (b1 b2 : KIOS ℝ) : (∀ s ∈ b1.spheres, ∀ t ∈ b2.spheres, s.o.dist t.o - (s.r + t.r) ≤ distance b1 b2) ∧
    (∀ D, 0 ≤ D → (∀ s ∈ b1.spheres, ∀ t ∈ b2.spheres, s.o.dist t.o - (s.r + t.r) ≤ D) → distance b1 b2 ≤ D) :=
  ⟨fun s hs t ht => by rw [dist_eq]; exact widest_ge hs ht,
    fun D h0 h => widest_le h0 fun s hs t ht => by rw [← dist_eq]; exact h s hs t ht⟩

/-! ### Points in a volume -/

/-- **C87.** `contain` says yes exactly of the points in all spheres; of every point of the volume in particular. -/
theorem C87_contain (b : KIOS ℝ) (p : V3 ℝ) : (b.contain p = true ↔ ∀ s ∈ b.spheres, p ∈ s.pts) ∧ (p ∈ b.pts → b.contain p = true) := by
  have h : b.contain p = true ↔ ∀ s ∈ b.spheres, p ∈ s.pts := by
    unfold contain
    rw [List.all_eq_true]
    refine forall₂_congr fun s _ => ?_
    have e : (s.o - p).dot (s.o - p) = (p - s.o).dot (p - s.o) := by simp only [dot, V3.sub_x, V3.sub_y, V3.sub_z]; ring
    rw [Bool.not_eq_true', decide_eq_false_iff_not, e]
    exact not_lt
  exact ⟨h, fun hp => h.2 hp.1⟩

/-! ### Merging -/

/-- **C87.** `encloseSphere` encloses both spheres. -/
theorem C87_encloseSphere {s0 s1 : Ball ℝ} (h0 : 0 ≤ s0.r) (h1 : 0 ≤ s1.r) :
    0 ≤ (encloseSphere s0 s1).r ∧ s0.pts ⊆ (encloseSphere s0 s1).pts ∧ s1.pts ⊆ (encloseSphere s0 s1).pts :=
  ⟨encloseSphere_r h0 h1, encloseSphere_spec h0 h1⟩

theorem zip_spheres : ∀ {l1 l2 : List (Ball ℝ)}, (∀ s ∈ l1, 0 ≤ s.r) → (∀ s ∈ l2, 0 ≤ s.r) → ∀ s ∈ List.zipWith encloseSphere l1 l2,
    0 ≤ s.r ∧ (∀ p, (∀ t ∈ l1, p ∈ t.pts) → p ∈ s.pts) ∧ ∀ p, (∀ t ∈ l2, p ∈ t.pts) → p ∈ s.pts
  | [], _, _, _, s, hs => by simp at hs
  | _ :: _, [], _, _, s, hs => by simp at hs
  | a :: l1, c :: l2, h1, h2, s, hs => by
    rw [List.zipWith_cons_cons] at hs
    rcases List.mem_cons.1 hs with rfl | hs
    · obtain ⟨k0, k1, k2⟩ := C87_encloseSphere (h1 a List.mem_cons_self) (h2 c List.mem_cons_self)
      exact ⟨k0, fun p hp => k1 (hp a List.mem_cons_self), fun p hp => k2 (hp c List.mem_cons_self)⟩
    · obtain ⟨k0, k1, k2⟩ := zip_spheres (fun t ht => h1 t (List.mem_cons_of_mem _ ht)) (fun t ht => h2 t (List.mem_cons_of_mem _ ht)) s hs
      exact ⟨k0, fun p hp => k1 p fun t ht => hp t (List.mem_cons_of_mem _ ht), fun p hp => k2 p fun t ht => hp t (List.mem_cons_of_mem _ ht)⟩

/-- **C87** for the sum: the spheres of the sum enclose both operands; so does the sum if the sum of the boxes does.
Missing: the sum of the boxes, which need not (C46). -/
theorem C87_add_partial (big : ℝ) {eig : OBB.EigenFn ℝ} (w1 : b1.WF) (w2 : b2.WF) (h : add big eig b1 b2 = some b) :
    (∀ s ∈ b.spheres, 0 ≤ s.r ∧ b1.pts ⊆ s.pts ∧ b2.pts ⊆ s.pts) ∧ OBB.add big eig b1.obb b2.obb = some b.obb ∧
    (b.obb.WF → b1.obb.pts ⊆ b.obb.pts → b2.obb.pts ⊆ b.obb.pts → b.WF ∧ b1.pts ⊆ b.pts ∧ b2.pts ⊆ b.pts) := by
  unfold add at h
  rcases e : OBB.add big eig b1.obb b2.obb with _ | o
  · rw [e] at h; cases h
  · rw [e] at h
    have hb := Option.some.inj h
    have hs : ∀ s ∈ b.spheres, 0 ≤ s.r ∧ b1.pts ⊆ s.pts ∧ b2.pts ⊆ s.pts := by
      intro s hs
      rw [← hb] at hs
      obtain ⟨k0, k1, k2⟩ := zip_spheres w1.radius w2.radius s hs
      exact ⟨k0, fun p hp => k1 p hp.1, fun p hp => k2 p hp.1⟩
    refine ⟨hs, by rw [← hb], fun ho h1 h2 => ⟨⟨ho, fun s h => (hs s h).1⟩, fun p hp => ⟨fun s h => (hs s h).2.1 hp, h1 hp.2⟩,
      fun p hp => ⟨fun s h => (hs s h).2.2 hp, h2 hp.2⟩⟩⟩

/-- **C87** for adding a point to a volume whose box is solid. -/
theorem C87_addPoint (big : ℝ) {eig : OBB.EigenFn ℝ} (he : eig.Exact) (w : b.WF) (hd : b.obb.axis.det = 1) (hs : OBB.Solid b.obb) (p : V3 ℝ)
    {b' : KIOS ℝ} (h : addPoint big eig b p = some b') : b'.WF ∧ b.pts ⊆ b'.pts ∧ p ∈ b'.pts := by
  unfold addPoint at h
  rcases e : OBB.addPoint big eig b.obb p with _ | o
  · rw [e] at h; cases h
  · rw [e] at h
    have hb := Option.some.inj h
    obtain ⟨k1, k2, k3⟩ := OBB.C46_point big he w.obb hd hs p e
    have key : ∀ s ∈ b'.spheres, 0 ≤ s.r ∧ (∀ q, (∀ t ∈ b.spheres, q ∈ t.pts) → q ∈ s.pts) ∧ p ∈ s.pts := by
      intro s hs
      rw [← hb] at hs
      obtain ⟨t, ht, rfl⟩ := List.mem_map.1 hs
      have hr := w.radius t ht
      split_ifs with c
      · have hq := Real.mul_self_sqrt (V3.dot_self_nonneg (p - t.o))
        refine ⟨Real.sqrt_nonneg _, fun q hq' => ?_, hq.ge⟩
        have h1 : (q - t.o).dot (q - t.o) ≤ t.r * t.r := hq' t ht
        exact h1.trans (c.le.trans hq.ge)
      · exact ⟨hr, fun q hq => hq t ht, not_lt.1 c⟩
    rw [← hb] at *
    exact ⟨⟨k1, fun s hs => (key s hs).1⟩, fun q hq => ⟨fun s hs => (key s hs).2.1 q hq.1, k2 hq.2⟩, fun s hs => (key s hs).2.2, k3⟩

/-! ### Fitting -/

theorem comb_dot {m : M3 ℝ} (h : m.Orthonormal) (x y z : ℝ) :
    (x • m.col 0 + y • m.col 1 + z • m.col 2).dot (x • m.col 0 + y • m.col 1 + z • m.col 2) = x * x + y * y + z * z := by
  have := h.dot ⟨x, y, z⟩ ⟨x, y, z⟩
  rw [OBB.mulVec_cols] at this
  exact this

/-- **C87** for one point. -/
theorem C87_fit1 (p : V3 ℝ) : (fit1 p).WF ∧ p ∈ (fit1 p).pts := by
  obtain ⟨h1, h2⟩ := OBB.C65_fit1 p
  refine ⟨⟨h1, fun s hs => ?_⟩, fun s hs => ?_, h2⟩
  · rw [List.mem_singleton.1 hs]
  · rw [List.mem_singleton.1 hs]; simp [Ball.pts, dot]

/-- **C87** for two different points. -/
theorem C87_fit2 {prec : ℝ} {p1 p2 : V3 ℝ} (h : p1 ≠ p2) (hb : fit2 prec p1 p2 = some b) : b.WF ∧ p1 ∈ b.pts ∧ p2 ∈ b.pts := by
  have hv : p1 - p2 ≠ 0 := fun h0 => h (by
    have := congrArg V3.x h0; have := congrArg V3.y h0; have := congrArg V3.z h0
    simp at *; apply V3.ext' <;> linarith)
  rw [fit2] at hb
  cases e : OBB.coordinateSystem prec (p1 - p2) with
  | none => simp only [e] at hb; cases hb
  | some axis =>
    simp only [e] at hb
    have ho : OBB.fit2 prec p1 p2 = some b.obb := by
      rw [OBB.fit2]; simp only [e]; rw [← Option.some.inj hb]
    obtain ⟨k1, k2, k3⟩ := OBB.C65_fit2 h ho
    obtain ⟨oa, h0⟩ := OBB.coordinateSystem_orthonormal hv e
    have hs := OBB.normalized_smul hv
    rw [← h0] at hs
    have hn := V3.nrm_nonneg (p1 - p2)
    have hc := cosA_sq
    rw [← Option.some.inj hb] at k1 k2 k3 ⊢
    obtain ⟨r0, hr0⟩ : ∃ r, r = (p1 - p2).nrm * (1 / 2) := ⟨_, rfl⟩
    have e1 : p1 = (1 / 2 : ℝ) • (p1 + p2) + r0 • axis.col 0 := by
      have hx := congrArg V3.x hs; have hy := congrArg V3.y hs; have hz := congrArg V3.z hs
      simp at hx hy hz
      apply V3.ext' <;> simp [hr0] <;> linarith
    have e2 : p2 = (1 / 2 : ℝ) • (p1 + p2) + (-r0) • axis.col 0 := by
      have hx := congrArg V3.x hs; have hy := congrArg V3.y hs; have hz := congrArg V3.z hs
      simp at hx hy hz
      apply V3.ext' <;> simp [hr0] <;> linarith
    have h0r : 0 ≤ r0 := by rw [hr0]; linarith
    rw [← hr0] at k1 k2 k3 ⊢
    obtain ⟨c, hcc⟩ : ∃ c, c = (1 / 2 : ℝ) • (p1 + p2) := ⟨_, rfl⟩
    rw [← hcc] at e1 e2 k1 k2 k3 ⊢
    have key : ∀ x : ℝ, x * x = r0 * r0 → ∀ s ∈ [(⟨c, r0⟩ : Ball ℝ), ⟨c - (r0 * 2 * cosA) • axis.col 1, r0 * 2⟩, ⟨c + (r0 * 2 * cosA) • axis.col 1, r0 * 2⟩,
        ⟨c - (r0 * 2 * cosA) • axis.col 2, r0 * 2⟩, ⟨c + (r0 * 2 * cosA) • axis.col 2, r0 * 2⟩], c + x • axis.col 0 ∈ s.pts := by
      intro x hx s hs
      simp only [List.mem_cons, List.not_mem_nil, or_false] at hs
      rcases hs with rfl | rfl | rfl | rfl | rfl
      · have e : c + x • axis.col 0 - c = x • axis.col 0 + (0 : ℝ) • axis.col 1 + (0 : ℝ) • axis.col 2 := by v3
        simp only [Ball.pts, Set.mem_ofPred_eq]
        rw [e, comb_dot oa]; linarith
      · have e : c + x • axis.col 0 - (c - (r0 * 2 * cosA) • axis.col 1) = x • axis.col 0 + (r0 * 2 * cosA) • axis.col 1 + (0 : ℝ) • axis.col 2 := by v3
        simp only [Ball.pts, Set.mem_ofPred_eq]
        rw [e, comb_dot oa]; nlinarith
      · have e : c + x • axis.col 0 - (c + (r0 * 2 * cosA) • axis.col 1) = x • axis.col 0 + (-(r0 * 2 * cosA)) • axis.col 1 + (0 : ℝ) • axis.col 2 := by v3
        simp only [Ball.pts, Set.mem_ofPred_eq]
        rw [e, comb_dot oa]; nlinarith
      · have e : c + x • axis.col 0 - (c - (r0 * 2 * cosA) • axis.col 2) = x • axis.col 0 + (0 : ℝ) • axis.col 1 + (r0 * 2 * cosA) • axis.col 2 := by v3
        simp only [Ball.pts, Set.mem_ofPred_eq]
        rw [e, comb_dot oa]; nlinarith
      · have e : c + x • axis.col 0 - (c + (r0 * 2 * cosA) • axis.col 2) = x • axis.col 0 + (0 : ℝ) • axis.col 1 + (-(r0 * 2 * cosA)) • axis.col 2 := by v3
        simp only [Ball.pts, Set.mem_ofPred_eq]
        rw [e, comb_dot oa]; nlinarith
    refine ⟨⟨k1, fun s hs => ?_⟩, ⟨fun s hs => ?_, k2⟩, ⟨fun s hs => ?_, k3⟩⟩
    · simp only [List.mem_cons, List.not_mem_nil, or_false] at hs
      rcases hs with rfl | rfl | rfl | rfl | rfl <;> dsimp only <;> linarith
    · rw [e1]; exact key r0 rfl s hs
    · rw [e2]; exact key (-r0) (by ring) s hs

/-- **C87** for three points not on a line. -/
theorem C87_fit3 (big : ℝ) {p1 p2 p3 : V3 ℝ} (h : (p1 - p2).cross (p2 - p3) ≠ 0) :
    (fit3 big p1 p2 p3).WF ∧ ∀ p ∈ [p1, p2, p3], p ∈ (fit3 big p1 p2 p3).pts := by
  obtain ⟨k1, k2⟩ := OBB.C65_fit3 big h
  have hN : (p1 - p3).cross (p2 - p3) = (p1 - p2).cross (p2 - p3) := by
    apply V3.ext' <;> simp [V3.cross] <;> ring
  obtain ⟨r0, c1, c2, c3, c4⟩ := circumCircle_spec (a := p1) (b := p2) (c := p3) (by rw [hN]; exact h)
  rw [hN] at c4
  obtain ⟨c, hc⟩ : ∃ c, c = circumCircle p1 p2 p3 := ⟨_, rfl⟩
  rw [← hc] at r0 c1 c2 c3 c4
  have hcol : (OBB.fitAxis big (OBB.axes3 p1 p2 p3) [p1, p2, p3]).axis.col 2 = ((p1 - p2).cross (p2 - p3)).normalized := rfl
  have nn := OBB.normalized_dot h
  have perp : ∀ p ∈ [p1, p2, p3], (p - c.1).dot (p - c.1) = c.2 * c.2 ∧ (p - c.1).dot ((p1 - p2).cross (p2 - p3)).normalized = 0 := by
    have q : ∀ p ∈ [p1, p2, p3], ((p1 - p2).cross (p2 - p3)).dot (p - c.1) = 0 := by
      intro p hp
      have e : ((p1 - p2).cross (p2 - p3)).dot (p - c.1) = ((p1 - p2).cross (p2 - p3)).dot (p - p3) - (c.1 - p3).dot ((p1 - p2).cross (p2 - p3)) := by
        simp only [dot, V3.sub_x, V3.sub_y, V3.sub_z]; ring
      rw [e, c4, sub_zero]
      simp only [List.mem_cons, List.not_mem_nil, or_false] at hp
      rcases hp with rfl | rfl | rfl <;> simp only [dot, cross, V3.sub_x, V3.sub_y, V3.sub_z] <;> ring
    intro p hp
    refine ⟨?_, by rw [V3.dot_comm, V3.normalized]; split <;> simp [V3.smul_dot, q p hp]⟩
    simp only [List.mem_cons, List.not_mem_nil, or_false] at hp
    rcases hp with rfl | rfl | rfl
    · exact c1
    · exact c2
    · exact c3
  have hf : fit3 big p1 p2 p3 = ⟨[⟨c.1, c.2⟩, ⟨c.1 - (c.2 * 2 * cosA) • ((p1 - p2).cross (p2 - p3)).normalized, c.2 * 2⟩,
      ⟨c.1 + (c.2 * 2 * cosA) • ((p1 - p2).cross (p2 - p3)).normalized, c.2 * 2⟩], OBB.fit3 big p1 p2 p3⟩ := by
    rw [hc]; rfl
  rw [hf]
  generalize ((p1 - p2).cross (p2 - p3)).normalized = u at *
  have hcos := cosA_sq
  refine ⟨⟨k1, fun s hs => ?_⟩, fun p hp => ⟨fun s hs => ?_, k2 p hp⟩⟩
  · simp only [List.mem_cons, List.not_mem_nil, or_false] at hs
    rcases hs with rfl | rfl | rfl <;> dsimp only <;> linarith
  · obtain ⟨q1, q2⟩ := perp p hp
    have ex : ∀ k : ℝ, (p - (c.1 + k • u)).dot (p - (c.1 + k • u)) = (p - c.1).dot (p - c.1) - 2 * k * (p - c.1).dot u + k * k * u.dot u := fun k => by
      simp only [dot, V3.sub_x, V3.sub_y, V3.sub_z, V3.add_x, V3.add_y, V3.add_z, V3.smul_x, V3.smul_y, V3.smul_z]; ring
    simp only [List.mem_cons, List.not_mem_nil, or_false] at hs
    rcases hs with rfl | rfl | rfl <;> simp only [Ball.pts, Set.mem_ofPred_eq]
    · exact q1.le
    · have e : c.1 - (c.2 * 2 * cosA) • u = c.1 + (-(c.2 * 2 * cosA)) • u := by v3
      rw [e, ex, q1, q2, nn]; nlinarith
    · rw [ex, q1, q2, nn]; nlinarith

set_option maxHeartbeats 1000000 in
/-- The spheres around points whose box is tight contain them. -/
theorem spheresOf_spec {big : ℝ} {axis : M3 ℝ} (ha : axis.Orthonormal) {ps : List (V3 ℝ)} (hb : ∀ p ∈ ps, p.nrm ≤ big) :
    ∀ s ∈ spheresOf ps (OBB.fitAxis big axis ps), 0 ≤ s.r ∧ ∀ p ∈ ps, p ∈ s.pts := by
  obtain ⟨o, ho⟩ : ∃ o, o = OBB.fitAxis big axis ps := ⟨_, rfl⟩
  have hax : o.axis = axis := by rw [ho]; rfl
  have hpts : ∀ p ∈ ps, p ∈ o.pts := fun p hp => by rw [ho]; exact OBB.fitAxis_points ha hp
  obtain ⟨m0, m1, m2⟩ := maximumDistance_spec ps o.To
  rw [← ho]
  rcases List.eq_nil_or_concat ps with hnil | hne
  · intro s hs
    rw [hnil]
    refine ⟨?_, by simp⟩
    have h2 := mul_nonneg (Real.sqrt_nonneg (maximumDistance ps o.To * maximumDistance ps o.To - o.extent.z * o.extent.z)) (zero_le_two (α := ℝ))
    unfold spheresOf at hs
    dsimp only at hs
    split_ifs at hs <;> simp only [pair, List.mem_cons, List.not_mem_nil, or_false, List.cons_append, List.nil_append] at hs <;>
      [rcases hs with rfl | rfl | rfl | rfl | rfl; rcases hs with rfl | rfl | rfl; subst hs] <;> first | exact m0 | exact h2
  have hne' : ps ≠ [] := by obtain ⟨l, a, h⟩ := hne; rw [h]; simp
  -- the greatest extent is reached
  have hcol : ∀ p ∈ ps, |p.dot (axis.col 0)| ≤ big := fun p hp => by
    have n0 : (axis.col 0).dot (axis.col 0) = 1 := by
      have := comb_dot ha 1 0 0
      have e : (1 : ℝ) • axis.col 0 + (0 : ℝ) • axis.col 1 + (0 : ℝ) • axis.col 2 = axis.col 0 := by v3
      rw [e] at this; linarith
    have n1 : (axis.col 0).nrm = 1 := nrm_unique (by norm_num) (by rw [n0]; norm_num)
    have a1 := V3.dot_le p (axis.col 0)
    have a2 := V3.dot_le (-p) (axis.col 0)
    rw [V3.nrm_neg, n1] at a2
    rw [n1] at a1
    have e : (-p).dot (axis.col 0) = -p.dot (axis.col 0) := by simp only [dot, V3.neg_x, V3.neg_y, V3.neg_z]; ring
    rw [e] at a2
    have := hb p hp
    exact abs_le.2 ⟨by linarith, by linarith⟩
  obtain ⟨pm, hpm, em⟩ := bounds_attained hne' hcol
  have coords : ∀ p ∈ ps, ∃ y : V3 ℝ, |y.x| ≤ o.extent.x ∧ |y.y| ≤ o.extent.y ∧ |y.z| ≤ o.extent.z ∧
      p - o.To = y.x • axis.col 0 + y.y • axis.col 1 + y.z • axis.col 2 := fun p hp => by
    obtain ⟨y, h0, h1, h2, e⟩ := hpts p hp
    refine ⟨y, h0, h1, h2, ?_⟩
    rw [hax] at e
    have := congrArg (· - o.To) e
    refine this.trans ?_
    v3
  have hex : o.extent.x * o.extent.x ≤ maximumDistance ps o.To * maximumDistance ps o.To := by
    obtain ⟨y, h0, h1, h2, e⟩ := coords pm hpm
    have d := m1 pm hpm
    have c0 : (pm - o.To).dot (axis.col 0) = o.extent.x := by
      have e1 : o.To = axis.mulVec ⟨((OBB.bounds big (axis.col 0) ps).2 + (OBB.bounds big (axis.col 0) ps).1) / 2,
          ((OBB.bounds big (axis.col 1) ps).2 + (OBB.bounds big (axis.col 1) ps).1) / 2,
          ((OBB.bounds big (axis.col 2) ps).2 + (OBB.bounds big (axis.col 2) ps).1) / 2⟩ := by rw [ho]; rfl
      have e2 : o.extent.x = ((OBB.bounds big (axis.col 0) ps).2 - (OBB.bounds big (axis.col 0) ps).1) / 2 := by rw [ho]; rfl
      have e3 : o.To.dot (axis.col 0) = ((OBB.bounds big (axis.col 0) ps).2 + (OBB.bounds big (axis.col 0) ps).1) / 2 := by
        have := congrArg V3.x (ha.tr_mul ⟨((OBB.bounds big (axis.col 0) ps).2 + (OBB.bounds big (axis.col 0) ps).1) / 2,
          ((OBB.bounds big (axis.col 1) ps).2 + (OBB.bounds big (axis.col 1) ps).1) / 2,
          ((OBB.bounds big (axis.col 2) ps).2 + (OBB.bounds big (axis.col 2) ps).1) / 2⟩)
        rw [← e1, OBB.tr_mulVec] at this
        exact this
      have e4 : (pm - o.To).dot (axis.col 0) = pm.dot (axis.col 0) - o.To.dot (axis.col 0) := by
        simp only [dot, V3.sub_x, V3.sub_y, V3.sub_z]; ring
      rw [e4, em, e3, e2]; ring
    have hx : y.x = o.extent.x := by
      have e5 : (pm - o.To) = axis.mulVec y := by rw [OBB.mulVec_cols]; exact e
      have := congrArg V3.x (ha.tr_mul y)
      rw [← e5, OBB.tr_mulVec] at this
      rw [← c0, ← this]
    rw [e, comb_dot ha, hx] at d
    nlinarith [mul_self_nonneg y.y, mul_self_nonneg y.z]
  have ext0 : 0 ≤ o.extent.x ∧ 0 ≤ o.extent.y ∧ 0 ≤ o.extent.z := by
    obtain ⟨y, h0, h1, h2, -⟩ := coords pm hpm
    exact ⟨(abs_nonneg _).trans h0, (abs_nonneg _).trans h1, (abs_nonneg _).trans h2⟩
  obtain ⟨R, hR⟩ : ∃ R, R = maximumDistance ps o.To := ⟨_, rfl⟩
  rw [← hR] at m0 m1 hex
  obtain ⟨r, hr⟩ : ∃ r, r = Real.sqrt (R * R - o.extent.z * o.extent.z) * 2 := ⟨_, rfl⟩
  have hcos := cosA_sq
  have hcp := cosA_pos
  have first : ∀ p ∈ ps, p ∈ (⟨o.To, R⟩ : Ball ℝ).pts := m1
  obtain ⟨x0, y0, z0⟩ := ext0
  -- the squares
  have sq : ∀ (p u : V3 ℝ) (k : ℝ), u.dot u = 1 → (p - (o.To + k • u)).dot (p - (o.To + k • u)) = (p - o.To).dot (p - o.To) - 2 * k * (p - o.To).dot u + k * k :=
    fun p u k hu => by
      have : (p - (o.To + k • u)).dot (p - (o.To + k • u)) = (p - o.To).dot (p - o.To) - 2 * k * (p - o.To).dot u + k * k * u.dot u := by
        simp only [dot, V3.sub_x, V3.sub_y, V3.sub_z, V3.add_x, V3.add_y, V3.add_z, V3.smul_x, V3.smul_y, V3.smul_z]; ring
      rw [this, hu, mul_one]
  have minus : ∀ (u : V3 ℝ) (k : ℝ), o.To - k • u = o.To + (-k) • u := fun u k => by v3
  have cdot : ∀ (y : V3 ℝ), (y.x • axis.col 0 + y.y • axis.col 1 + y.z • axis.col 2).dot (axis.col 1) = y.y ∧
      (y.x • axis.col 0 + y.y • axis.col 1 + y.z • axis.col 2).dot (axis.col 2) = y.z := fun y => by
    have := ha.tr_mul y
    rw [OBB.tr_mulVec, OBB.mulVec_cols] at this
    exact ⟨congrArg V3.y this, congrArg V3.z this⟩
  have u1 : (axis.col 1).dot (axis.col 1) = 1 := by
    have := comb_dot ha 0 1 0
    have e : (0 : ℝ) • axis.col 0 + (1 : ℝ) • axis.col 1 + (0 : ℝ) • axis.col 2 = axis.col 1 := by v3
    rw [e] at this; linarith
  have u2 : (axis.col 2).dot (axis.col 2) = 1 := by
    have := comb_dot ha 0 0 1
    have e : (0 : ℝ) • axis.col 0 + (0 : ℝ) • axis.col 1 + (1 : ℝ) • axis.col 2 = axis.col 2 := by v3
    rw [e] at this; linarith
  have second : o.extent.x > 3 / 2 * o.extent.z → r * r = 4 * (R * R - o.extent.z * o.extent.z) ∧ 0 ≤ r ∧
      ∀ s ∈ pair ps o.To (axis.col 2) (r * cosA - o.extent.z) r, 0 ≤ s.r ∧ ∀ p ∈ ps, p ∈ s.pts := by
    intro hxz
    have hnn : 0 ≤ R * R - o.extent.z * o.extent.z := by nlinarith
    have hrr : r * r = 4 * (R * R - o.extent.z * o.extent.z) := by
      rw [hr]; have := Real.mul_self_sqrt hnn; linear_combination 4 * this
    have hr0 : 0 ≤ r := by rw [hr]; exact mul_nonneg (Real.sqrt_nonneg _) zero_le_two
    have hk : 0 ≤ r * cosA - o.extent.z := by
      have h1 : 0 ≤ r * cosA := mul_nonneg hr0 hcp.le
      have h2 : (r * cosA) * (r * cosA) = 3 * (R * R - o.extent.z * o.extent.z) := by
        have : (r * cosA) * (r * cosA) = (r * r) * (cosA * cosA) := by ring
        rw [this, hrr, hcos]; ring
      by_contra hlt
      push Not at hlt
      nlinarith
    have hkk : (r * cosA) * (r * cosA) = 3 / 4 * (r * r) := by
      have : (r * cosA) * (r * cosA) = (r * r) * (cosA * cosA) := by ring
      rw [this, hcos]; ring
    obtain ⟨k, hk'⟩ : ∃ k, k = r * cosA - o.extent.z := ⟨_, rfl⟩
    rw [← hk'] at hk ⊢
    have hkz : (k + o.extent.z) * (k + o.extent.z) = 3 / 4 * (r * r) := by rw [hk', ← hkk]; ring
    refine ⟨hrr, hr0, pair_spec u2 hr0 (fun p hp => ?_) fun p hp => ?_⟩
    · obtain ⟨y, h0, h1, h2, e⟩ := coords p hp
      have d := m1 p hp
      rw [minus, sq p _ _ u2]
      rw [show (p - o.To).dot (axis.col 2) = y.z by rw [e]; exact (cdot y).2]
      have := mul_nonneg hk (sub_nonneg.2 (abs_le.1 h2).2)
      nlinarith
    · obtain ⟨y, h0, h1, h2, e⟩ := coords p hp
      have d := m1 p hp
      rw [sq p _ _ u2]
      rw [show (p - o.To).dot (axis.col 2) = y.z by rw [e]; exact (cdot y).2]
      have := mul_nonneg hk (sub_nonneg.2 (abs_le.1 h2).1)
      nlinarith
  have third : o.extent.x > 3 / 2 * o.extent.z → o.extent.x > 3 / 2 * o.extent.y →
      ∀ s ∈ pair ps o.To (axis.col 1) (Real.sqrt (r * r - o.extent.x * o.extent.x - o.extent.z * o.extent.z) - o.extent.y) r, 0 ≤ s.r ∧ ∀ p ∈ ps, p ∈ s.pts := by
    intro hxz hxy
    obtain ⟨hrr, hr0, -⟩ := second hxz
    have q1 : o.extent.z * o.extent.z ≤ 4 / 9 * (o.extent.x * o.extent.x) := by nlinarith
    have q2 : o.extent.y * o.extent.y ≤ 4 / 9 * (o.extent.x * o.extent.x) := by nlinarith
    have hnn : 0 ≤ r * r - o.extent.x * o.extent.x - o.extent.z * o.extent.z := by nlinarith
    have hm := Real.mul_self_sqrt hnn
    have hm0 := Real.sqrt_nonneg (r * r - o.extent.x * o.extent.x - o.extent.z * o.extent.z)
    obtain ⟨m, hm'⟩ : ∃ m, m = Real.sqrt (r * r - o.extent.x * o.extent.x - o.extent.z * o.extent.z) := ⟨_, rfl⟩
    rw [← hm'] at hm hm0 ⊢
    have hk : 0 ≤ m - o.extent.y := by
      by_contra hlt
      push Not at hlt
      nlinarith
    obtain ⟨k, hk'⟩ : ∃ k, k = m - o.extent.y := ⟨_, rfl⟩
    rw [← hk'] at hk ⊢
    have hkm : m = k + o.extent.y := by rw [hk']; ring
    rw [hkm] at hm
    have box : ∀ y : V3 ℝ, |y.x| ≤ o.extent.x → |y.y| ≤ o.extent.y → |y.z| ≤ o.extent.z →
        y.x * y.x ≤ o.extent.x * o.extent.x ∧ y.y * y.y ≤ o.extent.y * o.extent.y ∧ y.z * y.z ≤ o.extent.z * o.extent.z := fun y h0 h1 h2 => by
      rw [← abs_mul_abs_self y.x, ← abs_mul_abs_self y.y, ← abs_mul_abs_self y.z]
      exact ⟨mul_self_le_mul_self (abs_nonneg _) h0, mul_self_le_mul_self (abs_nonneg _) h1, mul_self_le_mul_self (abs_nonneg _) h2⟩
    refine pair_spec u1 hr0 (fun p hp => ?_) fun p hp => ?_
    · obtain ⟨y, h0, h1, h2, e⟩ := coords p hp
      obtain ⟨b0, b1, b2⟩ := box y h0 h1 h2
      rw [minus, sq p _ _ u1]
      rw [show (p - o.To).dot (axis.col 1) = y.y by rw [e]; exact (cdot y).1, e, comb_dot ha]
      have := mul_nonneg hk (sub_nonneg.2 (abs_le.1 h1).2)
      nlinarith
    · obtain ⟨y, h0, h1, h2, e⟩ := coords p hp
      obtain ⟨b0, b1, b2⟩ := box y h0 h1 h2
      rw [sq p _ _ u1]
      rw [show (p - o.To).dot (axis.col 1) = y.y by rw [e]; exact (cdot y).1, e, comb_dot ha]
      have := mul_nonneg hk (sub_nonneg.2 (abs_le.1 h1).1)
      nlinarith
  intro s hs
  unfold spheresOf at hs
  dsimp only at hs
  rw [← hR, ← hr, hax] at hs
  unfold count at hs
  by_cases hxz : o.extent.x > 3 / 2 * o.extent.z
  · by_cases hxy : o.extent.x > 3 / 2 * o.extent.y
    · rw [if_pos hxz, if_pos hxy, if_pos rfl] at hs
      rcases List.mem_append.1 hs with hs | hs
      · rcases List.mem_cons.1 hs with rfl | hs
        · exact ⟨m0, first⟩
        · exact (second hxz).2.2 s hs
      · exact third hxz hxy s hs
    · rw [if_pos hxz, if_neg hxy, if_neg (by norm_num), if_pos rfl] at hs
      rcases List.mem_cons.1 hs with rfl | hs
      · exact ⟨m0, first⟩
      · exact (second hxz).2.2 s hs
  · rw [if_neg hxz, if_neg (by norm_num), if_neg (by norm_num)] at hs
    rw [List.mem_singleton.1 hs]
    exact ⟨m0, first⟩

/-- **C87** for any number of points by `fitn`, and for the nodes of a kIOS hierarchy, if the points are not beyond the
greatest representable number. -/
theorem C87_fitn {big : ℝ} (absorb : ℝ → ℝ → Bool) {ps : List (V3 ℝ)} (hb : ∀ p ∈ ps, p.nrm ≤ big)
    (h : fitn big (Jacobi.eigenOld absorb) ps = some b) : b.WF ∧ ∀ p ∈ ps, p ∈ b.pts := by
  unfold fitn at h
  rcases e : OBB.fitn big (Jacobi.eigenOld absorb) ps with _ | o
  · rw [e] at h; cases h
  · rw [e] at h
    have hbb := Option.some.inj h
    obtain ⟨k1, k2⟩ := OBB.C65_fitn big absorb e
    rw [OBB.fitn] at e
    rcases e' : Jacobi.eigenOld absorb (OBB.covariance ps) with _ | ⟨s, E⟩
    · simp only [e'] at e; cases e
    · simp only [e'] at e
      have hk := spheresOf_spec (OBB.axisFromEigen_orthonormal (Jacobi.eigenOld_orthonormal e') s) hb
      rw [Option.some.inj e] at hk
      rw [← hbb]
      exact ⟨⟨k1, fun s hs => (hk s hs).1⟩, fun p hp => ⟨fun s hs => (hk s hs).2 p hp, k2 p hp⟩⟩

/-- **C87** for `fit(ps, n, bv)`, every `n`; degenerate pairs and triples excepted. -/
theorem C87_fit_partial {big : ℝ} (prec : ℝ) (absorb : ℝ → ℝ → Bool) {ps : List (V3 ℝ)} (hb : ∀ p ∈ ps, p.nrm ≤ big)
    (h2 : ∀ p1 p2, ps = [p1, p2] → p1 ≠ p2) (h3 : ∀ p1 p2 p3, ps = [p1, p2, p3] → (p1 - p2).cross (p2 - p3) ≠ 0)
    (h : fit big prec (Jacobi.eigenOld absorb) ps = some b) : b.WF ∧ ∀ p ∈ ps, p ∈ b.pts := by
  rw [fit.eq_def] at h
  split at h
  · next p =>
    rw [← Option.some.inj h]
    exact ⟨(C87_fit1 p).1, fun q hq => by rw [List.mem_singleton.1 hq]; exact (C87_fit1 p).2⟩
  · next p1 p2 =>
    obtain ⟨k1, k2, k3⟩ := C87_fit2 (h2 p1 p2 rfl) h
    refine ⟨k1, fun q hq => ?_⟩
    simp only [List.mem_cons, List.not_mem_nil, or_false] at hq
    rcases hq with rfl | rfl
    · exact k2
    · exact k3
  · next p1 p2 p3 =>
    rw [← Option.some.inj h]
    exact C87_fit3 big (h3 p1 p2 p3 rfl)
  · exact C87_fitn absorb hb h

/-! ### What fails -/

/-- The corners of a cube. -/
def cube : List (V3 ℝ) := [⟨1, 1, 1⟩, ⟨1, 1, -1⟩, ⟨1, -1, 1⟩, ⟨1, -1, -1⟩, ⟨-1, 1, 1⟩, ⟨-1, 1, -1⟩, ⟨-1, -1, 1⟩, ⟨-1, -1, -1⟩]

theorem cube_fit {big : ℝ} (hb : 10 ≤ big) (prec : ℝ) (absorb : ℝ → ℝ → Bool) : fit big prec (Jacobi.eigenOld absorb) cube =
    some ⟨[⟨⟨0, 0, 0⟩, Real.sqrt 3⟩], ⟨⟨⟨0, 0, 1⟩, ⟨1, 0, 0⟩, ⟨0, 1, 0⟩⟩, ⟨0, 0, 0⟩, ⟨1, 1, 1⟩⟩⟩ := by
  have hcov : OBB.covariance cube = ⟨⟨8, 0, 0⟩, ⟨0, 8, 0⟩, ⟨0, 0, 8⟩⟩ := by
    rw [OBB.covariance, cube]
    simp only [List.map_cons, List.map_nil, List.foldl_cons, List.foldl_nil, List.length_cons, List.length_nil, M3.mk.injEq, V3.mk.injEq]
    norm_num
  have hax : OBB.axisFromEigen M3.one (⟨8, 8, 8⟩ : V3 ℝ) = ⟨⟨0, 0, 1⟩, ⟨1, 0, 0⟩, ⟨0, 1, 0⟩⟩ := by
    norm_num [OBB.axisFromEigen, OBB.midMax, M3.row, M3.one, OBB.ofCols, V3.get, V3.cross]
  have bd : ∀ u ∈ [(⟨0, 1, 0⟩ : V3 ℝ), ⟨0, 0, 1⟩, ⟨1, 0, 0⟩], OBB.bounds big u cube = (-1, 1) := by
    intro u hu
    simp only [List.mem_cons, List.not_mem_nil, or_false] at hu
    rcases hu with rfl | rfl | rfl <;> apply OBB.bounds_eq (by linarith) (by linarith) <;> norm_num [V3.dot, cube]
  have ho : OBB.fitn big (Jacobi.eigenOld absorb) cube = some ⟨⟨⟨0, 0, 1⟩, ⟨1, 0, 0⟩, ⟨0, 1, 0⟩⟩, ⟨0, 0, 0⟩, ⟨1, 1, 1⟩⟩ := by
    rw [OBB.fitn, hcov, Jacobi.eigenOld_diag absorb ⟨8, 8, 8⟩]
    simp only [hax, OBB.fitAxis, M3.col, V3.get]
    rw [bd _ (by simp), bd _ (by simp), bd _ (by simp)]
    norm_num [M3.mulVec, V3.dot]
  have hf : fit big prec (Jacobi.eigenOld absorb) cube = fitn big (Jacobi.eigenOld absorb) cube := rfl
  rw [hf, fitn, ho]
  have hm : maximumDistance cube ⟨0, 0, 0⟩ = Real.sqrt 3 := by norm_num [maximumDistance, cube, V3.dot]
  have hc : count (⟨1, 1, 1⟩ : V3 ℝ) = 1 := by norm_num [count]
  simp only [spheresOf, hc, hm]
  norm_num

/-- **C87 is violated** by `contain`: it does not look at the box. A point outside the box of the corners of a cube is
said to be inside, although a point there does not overlap the volume. -/
theorem C87_violated_contain {big : ℝ} (hb : 10 ≤ big) (prec : ℝ) (absorb : ℝ → ℝ → Bool) : ∃ b, ∃ p : V3 ℝ,
    fit big prec (Jacobi.eigenOld absorb) cube = some b ∧ b.contain p = true ∧ p ∉ b.pts ∧ b.overlap (fit1 p) = false := by
  refine ⟨_, ⟨3 / 2, 0, 0⟩, cube_fit hb prec absorb, ?_, ?_, ?_⟩
  · rw [(C87_contain _ _).1]
    intro s hs
    rw [List.mem_singleton.1 hs]
    have := Real.mul_self_sqrt (show (0 : ℝ) ≤ 3 by norm_num)
    simp only [Ball.pts, Set.mem_ofPred_eq, this]
    norm_num [V3.dot]
  · rintro ⟨-, y, h0, h1, h2, e⟩
    have := congrArg V3.x e
    simp [M3.col, V3.get] at this
    simp only at h2
    rw [← this] at h2
    norm_num [abs_of_pos] at h2
  · unfold overlap
    split_ifs
    · rfl
    · rw [OBB.overlap, Bool.not_eq_false', OBB.disjoint]
      simp only [Bool.or_eq_true, decide_eq_true_eq]
      exact Or.inl (Or.inl (Or.inl (Or.inl (Or.inl (Or.inl (Or.inl (Or.inl (Or.inl (Or.inl (Or.inl (Or.inr (by
        norm_num [fit1, M3.col, V3.dot, V3.get, M3.tr, M3.mul, M3.get, M3.row, M3.one, OBB.reps]))))))))))))

/-- **C87 is violated** by `translate`: the box stays where it was. A translated point is in no volume, and the volume
does not overlap the volume of the point where it should be. -/
theorem C87_violated_translate : ∃ p t : V3 ℝ, p ∈ (fit1 p).pts ∧ p + t ∉ ((fit1 p).translate t).pts ∧
    ((fit1 p).translate t).overlap (fit1 (p + t)) = false := by
  refine ⟨⟨0, 0, 0⟩, ⟨10, 0, 0⟩, (C87_fit1 _).2, ?_, ?_⟩
  · rintro ⟨-, y, h0, h1, h2, e⟩
    have := congrArg V3.x e
    simp [translate, fit1] at h0 h1 h2
    norm_num [M3.col, V3.get, translate, fit1, M3.one, h0, h1, h2] at this
  · unfold overlap
    split_ifs
    · rfl
    · rw [OBB.overlap, Bool.not_eq_false', OBB.disjoint]
      simp only [Bool.or_eq_true, decide_eq_true_eq]
      exact Or.inl (Or.inl (Or.inl (Or.inl (Or.inl (Or.inl (Or.inl (Or.inl (Or.inl (Or.inl (Or.inl (Or.inl (Or.inl (Or.inl (by
        norm_num [translate, fit1, M3.col, V3.dot, V3.get, M3.tr, M3.mul, M3.get, M3.row, M3.one, OBB.reps]))))))))))))))

/-- **C87 is violated** by the points of `distance`: both spheres are read from the first volume, so for two volumes of
one sphere each the code always divides by zero when there is a distance. -/
theorem C87_violated_points (s t : Ball ℝ) (o o' : OBB ℝ) : distancePoints ⟨[s], o⟩ ⟨[t], o'⟩ = none := by
  unfold distancePoints
  rcases h : (widest ⟨[s], o⟩ ⟨[t], o'⟩).2 with _ | ⟨i, j⟩
  · rfl
  · have hij : i = 0 ∧ j = 0 := by
      simp only [widest, List.zipIdx_cons, List.zipIdx_nil, List.flatMap_cons, List.flatMap_nil, List.map_cons, List.map_nil, List.append_nil,
        List.foldl_cons, List.foldl_nil] at h
      split_ifs at h
      simp at h; exact ⟨h.1.symm, h.2.symm⟩
    have z : (s.o - s.o).nrm = 0 := by
      have : s.o - s.o = 0 := by v3
      rw [this]; exact V3.nrm_zero
    simp only [hij.1, hij.2, List.getElem?_cons_zero, z, if_true]

/-- Two points ten apart: the distance is ten. -/
example : distance (fit1 ⟨0, 0, 0⟩) (fit1 ⟨10, 0, 0⟩) = 10 := by
  have h : ((⟨0, 0, 0⟩ : V3 ℝ) - ⟨10, 0, 0⟩).nrm = 10 := V3.nrm_unique (by norm_num) (by norm_num [V3.dot])
  simp only [distance, widest, fit1, List.zipIdx_cons, List.zipIdx_nil, List.flatMap_cons, List.flatMap_nil, List.map_cons, List.map_nil, List.append_nil,
        List.foldl_cons, List.foldl_nil, h]
  norm_num

end KIOS
end Fcl
