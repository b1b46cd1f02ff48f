import Verif.OBB.Lemmas

/-!
# Oriented boxes: bounds along an axis, the scan of `merge_smalldist`, quaternions
-/

namespace Fcl
namespace OBB
section
variable {K : Type*} [Field K] [LinearOrder K] [IsStrictOrderedRing K]

/-- A box lies above a plane if its eight vertices do. -/
theorem le_dot_of_vertices {b : OBB K} {u : V3 K} {lo : K} (h : ∀ v ∈ b.vertices, lo ≤ v.dot u) {p : V3 K}
    (hp : p ∈ b.pts) : lo ≤ p.dot u := by
  obtain ⟨y, h0, h1, h2, rfl⟩ := hp
  have key : ∀ {y e k : K}, |y| ≤ e → (0 ≤ k → -(e * k) ≤ y * k) ∧ (k ≤ 0 → e * k ≤ y * k) := fun {y e k} hy => by
    obtain ⟨ha, hb⟩ := abs_le.1 hy
    exact ⟨fun hk => by nlinarith, fun hk => by nlinarith⟩
  have k0 := key (k := (b.axis.col 0).dot u) h0
  have k1 := key (k := (b.axis.col 1).dot u) h1
  have k2 := key (k := (b.axis.col 2).dot u) h2
  simp only [vertices, List.mem_cons, List.not_mem_nil, or_false, forall_eq_or_imp, forall_eq, V3.add_dot, V3.sub_dot,
    V3.smul_dot] at h
  obtain ⟨v0, v1, v2, v3, v4, v5, v6, v7⟩ := h
  simp only [V3.add_dot, V3.smul_dot]
  obtain s0 | s0 := le_total 0 ((b.axis.col 0).dot u) <;> obtain s1 | s1 := le_total 0 ((b.axis.col 1).dot u) <;>
    obtain s2 | s2 := le_total 0 ((b.axis.col 2).dot u)
  · linarith [k0.1 s0, k1.1 s1, k2.1 s2]
  · linarith [k0.1 s0, k1.1 s1, k2.2 s2]
  · linarith [k0.1 s0, k1.2 s1, k2.1 s2]
  · linarith [k0.1 s0, k1.2 s1, k2.2 s2]
  · linarith [k0.2 s0, k1.1 s1, k2.1 s2]
  · linarith [k0.2 s0, k1.1 s1, k2.2 s2]
  · linarith [k0.2 s0, k1.2 s1, k2.1 s2]
  · linarith [k0.2 s0, k1.2 s1, k2.2 s2]

/-- A box lies below a plane if its eight vertices do. -/
theorem dot_le_of_vertices {b : OBB K} {u : V3 K} {hi : K} (h : ∀ v ∈ b.vertices, v.dot u ≤ hi) {p : V3 K}
    (hp : p ∈ b.pts) : p.dot u ≤ hi := by
  have := le_dot_of_vertices (u := -u) (lo := -hi) (fun v hv => by rw [V3.dot_neg]; linarith [h v hv]) hp
  rw [V3.dot_neg] at this; linarith

/-- The vertices belong to the box. -/
theorem vertices_subset {b : OBB K} (h : 0 ≤ b.extent.x ∧ 0 ≤ b.extent.y ∧ 0 ≤ b.extent.z) : ∀ v ∈ b.vertices, v ∈ b.pts := by
  obtain ⟨h0, h1, h2⟩ := h
  intro v hv
  have a0 : |b.extent.x| ≤ b.extent.x := (abs_of_nonneg h0).le
  have a1 : |b.extent.y| ≤ b.extent.y := (abs_of_nonneg h1).le
  have a2 : |b.extent.z| ≤ b.extent.z := (abs_of_nonneg h2).le
  have n0 : |-b.extent.x| ≤ b.extent.x := by rw [abs_neg]; exact a0
  have n1 : |-b.extent.y| ≤ b.extent.y := by rw [abs_neg]; exact a1
  have n2 : |-b.extent.z| ≤ b.extent.z := by rw [abs_neg]; exact a2
  simp only [vertices, List.mem_cons, List.not_mem_nil, or_false] at hv
  obtain e | e | e | e | e | e | e | e := hv <;> rw [e]
  · exact ⟨⟨-b.extent.x, -b.extent.y, -b.extent.z⟩, n0, n1, n2, by v3⟩
  · exact ⟨⟨b.extent.x, -b.extent.y, -b.extent.z⟩, a0, n1, n2, by v3⟩
  · exact ⟨⟨b.extent.x, b.extent.y, -b.extent.z⟩, a0, a1, n2, by v3⟩
  · exact ⟨⟨-b.extent.x, b.extent.y, -b.extent.z⟩, n0, a1, n2, by v3⟩
  · exact ⟨⟨-b.extent.x, -b.extent.y, b.extent.z⟩, n0, n1, a2, by v3⟩
  · exact ⟨⟨b.extent.x, -b.extent.y, b.extent.z⟩, a0, n1, a2, by v3⟩
  · exact ⟨⟨b.extent.x, b.extent.y, b.extent.z⟩, a0, a1, a2, by v3⟩
  · exact ⟨⟨-b.extent.x, b.extent.y, b.extent.z⟩, n0, a1, a2, by v3⟩

/-! ## `getExtentAndCenter` -/

theorem boundStep_spec (s : K × K) (d : K) : (boundStep s d).1 ≤ s.1 ∧ s.2 ≤ (boundStep s d).2 ∧
    (boundStep s d).1 ≤ d ∧ d ≤ (boundStep s d).2 := by
  simp only [boundStep]
  refine ⟨?_, ?_, ?_, ?_⟩ <;> split <;> linarith

theorem boundFold_spec : ∀ (l : List K) (s : K × K), (l.foldl boundStep s).1 ≤ s.1 ∧ s.2 ≤ (l.foldl boundStep s).2 ∧
    ∀ d ∈ l, (l.foldl boundStep s).1 ≤ d ∧ d ≤ (l.foldl boundStep s).2
  | [], s => ⟨le_refl _, le_refl _, fun d hd => by cases hd⟩
  | d :: l, s => by
    obtain ⟨a, b, c, e⟩ := boundStep_spec s d
    obtain ⟨i, j, k⟩ := boundFold_spec l (boundStep s d)
    refine ⟨i.trans a, b.trans j, ?_⟩
    rintro x hx
    obtain rfl | hx := List.mem_cons.1 hx
    · exact ⟨i.trans c, e.trans j⟩
    · exact k x hx

theorem bounds_spec {big : K} {u : V3 K} {ps : List (V3 K)} {p : V3 K} (h : p ∈ ps) :
    (bounds big u ps).1 ≤ p.dot u ∧ p.dot u ≤ (bounds big u ps).2 := by
  rw [V3.dot_comm]
  exact (boundFold_spec _ _).2.2 _ (List.mem_map_of_mem h)

theorem tr_mulVec (m : M3 K) (v : V3 K) : m.tr.mulVec v = ⟨v.dot (m.col 0), v.dot (m.col 1), v.dot (m.col 2)⟩ := by
  simp only [M3.mulVec, M3.tr]
  rw [V3.dot_comm, V3.dot_comm (m.col 1), V3.dot_comm (m.col 2)]

/-- A point whose three projections are within the bounds belongs to the fitted box. -/
theorem mem_fitAxis {big : K} {axis : M3 K} (ha : axis.Orthonormal) {ps : List (V3 K)} {p : V3 K}
    (h : ∀ j : Fin 3, (bounds big (axis.col j) ps).1 ≤ p.dot (axis.col j) ∧
      p.dot (axis.col j) ≤ (bounds big (axis.col j) ps).2) : p ∈ (fitAxis big axis ps).pts := by
  refine (mem_pts_local (b := fitAxis big axis ps) ha).2 ?_
  simp only [fitAxis, M3.mulVec_sub, ha.tr_mul, tr_mulVec]
  have h0 := h 0
  have h1 := h 1
  have h2 := h 2
  refine ⟨abs_le.2 ⟨?_, ?_⟩, abs_le.2 ⟨?_, ?_⟩, abs_le.2 ⟨?_, ?_⟩⟩ <;>
    simp only [V3.sub_x, V3.sub_y, V3.sub_z] <;> linarith

/-! ## The scan -/

theorem scanStep_spec (s : K × K) (d : K) : (scanStep s d).1 ≤ s.1 ∧ s.2 ≤ (scanStep s d).2 ∧ d ≤ (scanStep s d).2 ∧
    (d ≤ s.2 → (scanStep s d).1 ≤ d) ∧ (s.1 ≤ s.2 → (scanStep s d).1 ≤ d) := by
  simp only [scanStep]
  split
  · refine ⟨le_refl _, by linarith, le_refl _, fun h => by linarith, fun h => ?_⟩
    show s.1 ≤ d
    linarith
  · split
    · exact ⟨by simp only; linarith, le_refl _, by simp only; linarith, fun _ => le_refl _, fun _ => le_refl _⟩
    · exact ⟨le_refl _, le_refl _, by linarith, fun _ => by linarith, fun _ => by linarith⟩

/-- From ordered bounds on, every value is covered. -/
theorem scanFold_ordered : ∀ (l : List K) (s : K × K), s.1 ≤ s.2 →
    (l.foldl scanStep s).1 ≤ s.1 ∧ s.2 ≤ (l.foldl scanStep s).2 ∧
    ∀ d ∈ l, (l.foldl scanStep s).1 ≤ d ∧ d ≤ (l.foldl scanStep s).2
  | [], s, _ => ⟨le_refl _, le_refl _, fun d hd => by cases hd⟩
  | d :: l, s, h => by
    obtain ⟨a, b, c, -, e⟩ := scanStep_spec s d
    have e := e h
    obtain ⟨i, j, k⟩ := scanFold_ordered l (scanStep s d) (a.trans (h.trans b))
    refine ⟨i.trans a, b.trans j, ?_⟩
    rintro x hx
    obtain rfl | hx := List.mem_cons.1 hx
    · exact ⟨i.trans e, c.trans j⟩
    · exact k x hx

/-- The scan of the eight vertices of the first box: the bounds come out in order, and cover all the
vertices unless all three edges point upwards. -/
theorem scan8 (big c e0 e1 e2 : K) (s : K × K)
    (hs : s = [c - e0 - e1 - e2, c + e0 - e1 - e2, c + e0 + e1 - e2, c - e0 + e1 - e2,
      c - e0 - e1 + e2, c + e0 - e1 + e2, c + e0 + e1 + e2, c - e0 + e1 + e2].foldl scanStep (big, -big)) :
    s.1 ≤ s.2 ∧ (e0 ≤ 0 ∨ e1 ≤ 0 ∨ e2 ≤ 0 →
      ∀ d ∈ [c - e0 - e1 - e2, c + e0 - e1 - e2, c + e0 + e1 - e2, c - e0 + e1 - e2,
        c - e0 - e1 + e2, c + e0 - e1 + e2, c + e0 + e1 + e2, c - e0 + e1 + e2], s.1 ≤ d ∧ d ≤ s.2) := by
  simp only [List.foldl_cons, List.foldl_nil] at hs
  obtain ⟨v0, hv0⟩ : ∃ v, c - e0 - e1 - e2 = v := ⟨_, rfl⟩
  obtain ⟨v1, hv1⟩ : ∃ v, c + e0 - e1 - e2 = v := ⟨_, rfl⟩
  obtain ⟨v2, hv2⟩ : ∃ v, c + e0 + e1 - e2 = v := ⟨_, rfl⟩
  obtain ⟨v3, hv3⟩ : ∃ v, c - e0 + e1 - e2 = v := ⟨_, rfl⟩
  obtain ⟨v4, hv4⟩ : ∃ v, c - e0 - e1 + e2 = v := ⟨_, rfl⟩
  obtain ⟨v5, hv5⟩ : ∃ v, c + e0 - e1 + e2 = v := ⟨_, rfl⟩
  obtain ⟨v6, hv6⟩ : ∃ v, c + e0 + e1 + e2 = v := ⟨_, rfl⟩
  obtain ⟨v7, hv7⟩ : ∃ v, c - e0 + e1 + e2 = v := ⟨_, rfl⟩
  rw [hv0, hv1, hv2, hv3, hv4, hv5, hv6, hv7] at hs ⊢
  obtain ⟨s1, h1⟩ : ∃ x, scanStep (big, -big) v0 = x := ⟨_, rfl⟩
  have p0 := scanStep_spec (big, -big) v0
  rw [h1] at hs p0
  obtain ⟨s2, h2⟩ : ∃ x, scanStep s1 v1 = x := ⟨_, rfl⟩
  have p1 := scanStep_spec s1 v1
  rw [h2] at hs p1
  obtain ⟨s3, h3⟩ : ∃ x, scanStep s2 v2 = x := ⟨_, rfl⟩
  have p2 := scanStep_spec s2 v2
  rw [h3] at hs p2
  obtain ⟨s4, h4⟩ : ∃ x, scanStep s3 v3 = x := ⟨_, rfl⟩
  have p3 := scanStep_spec s3 v3
  rw [h4] at hs p3
  obtain ⟨s5, h5⟩ : ∃ x, scanStep s4 v4 = x := ⟨_, rfl⟩
  have p4 := scanStep_spec s4 v4
  rw [h5] at hs p4
  obtain ⟨s6, h6⟩ : ∃ x, scanStep s5 v5 = x := ⟨_, rfl⟩
  have p5 := scanStep_spec s5 v5
  rw [h6] at hs p5
  obtain ⟨s7, h7⟩ : ∃ x, scanStep s6 v6 = x := ⟨_, rfl⟩
  have p6 := scanStep_spec s6 v6
  rw [h7] at hs p6
  have p7 := scanStep_spec s7 v7
  rw [← hs] at p7
  obtain ⟨a0, b0, c0, d0, f0⟩ := p0
  obtain ⟨a1, b1, c1, d1, f1⟩ := p1
  obtain ⟨a2, b2, c2, d2, f2⟩ := p2
  obtain ⟨a3, b3, c3, d3, f3⟩ := p3
  obtain ⟨a4, b4, c4, d4, f4⟩ := p4
  obtain ⟨a5, b5, c5, d5, f5⟩ := p5
  obtain ⟨a6, b6, c6, d6, f6⟩ := p6
  obtain ⟨a7, b7, c7, d7, f7⟩ := p7
  -- after the fourth vertex the bounds are in order
  have o4 : s4.1 ≤ s4.2 := by
    obtain h | h := le_or_gt e0 0
    · linarith [d1 (by linarith)]
    · linarith [d3 (by linarith)]
  have f4 := f4 o4
  have f5 := f5 (by linarith)
  have f6 := f6 (by linarith)
  have f7 := f7 (by linarith)
  refine ⟨by linarith, fun h => ?_⟩
  have low : s.1 ≤ v0 ∧ s.1 ≤ v1 ∧ s.1 ≤ v2 ∧ s.1 ≤ v3 := by
    obtain g0 | g0 := le_or_gt e0 0
    · have k1 := d1 (by linarith)
      have k2 := f2 (by linarith)
      have k3 := f3 (by linarith)
      exact ⟨by linarith, by linarith, by linarith, by linarith⟩
    · have k3 := d3 (by linarith)
      obtain g1 | g1 := le_or_gt e1 0
      · have k2 := d2 (by linarith)
        exact ⟨by linarith, by linarith, by linarith, by linarith⟩
      · have g2 : e2 ≤ 0 := by
          obtain h | h | h := h
          · linarith
          · linarith
          · exact h
        exact ⟨by linarith, by linarith, by linarith, by linarith⟩
  obtain ⟨l0, l1, l2, l3⟩ := low
  intro d hd
  simp only [List.mem_cons, List.not_mem_nil, or_false] at hd
  obtain rfl | rfl | rfl | rfl | rfl | rfl | rfl | rfl := hd <;> exact ⟨by linarith, by linarith⟩

/-- The projections of the vertices. -/
theorem dots_vertices (b : OBB K) (To u : V3 K) : (b.vertices.map fun v => (v - To).dot u) =
    let c := (b.To - To).dot u
    let e0 := b.extent.x * (b.axis.col 0).dot u
    let e1 := b.extent.y * (b.axis.col 1).dot u
    let e2 := b.extent.z * (b.axis.col 2).dot u
    [c - e0 - e1 - e2, c + e0 - e1 - e2, c + e0 + e1 - e2, c - e0 + e1 - e2,
      c - e0 - e1 + e2, c + e0 - e1 + e2, c + e0 + e1 + e2, c - e0 + e1 + e2] := by
  simp only [vertices, List.map_cons, List.map_nil, V3.sub_dot, V3.add_dot, V3.smul_dot]
  refine congr (congrArg List.cons (by ring)) (congr (congrArg List.cons (by ring)) (congr (congrArg List.cons (by ring))
    (congr (congrArg List.cons (by ring)) (congr (congrArg List.cons (by ring)) (congr (congrArg List.cons (by ring))
    (congr (congrArg List.cons (by ring)) (congr (congrArg List.cons (by ring)) rfl)))))))

/-- `merge_smalldist` covers the second box always, the first one unless its three edges all point
strictly along a merged direction. -/
theorem scan_spec (big : K) (axis : M3 K) (To : V3 K) (b1 b2 : OBB K) (j : Fin 3) :
    (∀ v ∈ b2.vertices, (scan big axis To b1.vertices b2.vertices j).1 ≤ (v - To).dot (axis.col j) ∧
      (v - To).dot (axis.col j) ≤ (scan big axis To b1.vertices b2.vertices j).2) ∧
    ((b1.extent.x * (b1.axis.col 0).dot (axis.col j) ≤ 0 ∨ b1.extent.y * (b1.axis.col 1).dot (axis.col j) ≤ 0 ∨
        b1.extent.z * (b1.axis.col 2).dot (axis.col j) ≤ 0) →
      ∀ v ∈ b1.vertices, (scan big axis To b1.vertices b2.vertices j).1 ≤ (v - To).dot (axis.col j) ∧
        (v - To).dot (axis.col j) ≤ (scan big axis To b1.vertices b2.vertices j).2) := by
  obtain ⟨h1, h2⟩ := scan8 big ((b1.To - To).dot (axis.col j)) (b1.extent.x * (b1.axis.col 0).dot (axis.col j))
    (b1.extent.y * (b1.axis.col 1).dot (axis.col j)) (b1.extent.z * (b1.axis.col 2).dot (axis.col j)) _ rfl
  have hd := dots_vertices b1 To (axis.col j)
  simp only [] at hd
  rw [← hd] at h1 h2
  obtain ⟨k1, k2, k3⟩ := scanFold_ordered (b2.vertices.map fun v => (v - To).dot (axis.col j)) _ h1
  refine ⟨fun v hv => k3 _ (List.mem_map_of_mem (f := fun v => (v - To).dot (axis.col j)) hv), fun he v hv => ?_⟩
  have := h2 he _ (List.mem_map_of_mem (f := fun v => (v - To).dot (axis.col j)) hv)
  exact ⟨k1.trans this.1, this.2.trans k2⟩

/-- A point whose projections lie within the scanned bounds belongs to the merged box. -/
theorem mem_mergeAlong {big : K} {axis : M3 K} (ha : axis.Orthonormal) {b1 b2 : OBB K} {p : V3 K}
    (h : ∀ j : Fin 3, (scan big axis ((1/2 : K) • (b1.To + b2.To)) b1.vertices b2.vertices j).1 ≤
        (p - (1/2 : K) • (b1.To + b2.To)).dot (axis.col j) ∧
      (p - (1/2 : K) • (b1.To + b2.To)).dot (axis.col j) ≤
        (scan big axis ((1/2 : K) • (b1.To + b2.To)) b1.vertices b2.vertices j).2) :
    p ∈ (mergeAlong big axis b1 b2).pts := by
  refine (mem_pts_local (b := mergeAlong big axis b1 b2) ha).2 ?_
  have h0 := h 0
  have h1 := h 1
  have h2 := h 2
  simp only [mergeAlong]
  generalize (1/2 : K) • (b1.To + b2.To) = To at *
  generalize scan big axis To b1.vertices b2.vertices = S at *
  obtain ⟨o, ho⟩ : ∃ o : V3 K, o = ⟨1/2 * ((S 0).2 + (S 0).1), 1/2 * ((S 1).2 + (S 1).1), 1/2 * ((S 2).2 + (S 2).1)⟩ :=
    ⟨_, rfl⟩
  have e : p - (To + (1/2 * ((S 0).2 + (S 0).1)) • axis.col 0 + (1/2 * ((S 1).2 + (S 1).1)) • axis.col 1 +
      (1/2 * ((S 2).2 + (S 2).1)) • axis.col 2) = (p - To) - axis.mulVec o := by
    rw [mulVec_cols, ho]; v3
  rw [e, M3.mulVec_sub, ha.tr_mul, tr_mulVec, ho]
  refine ⟨abs_le.2 ⟨?_, ?_⟩, abs_le.2 ⟨?_, ?_⟩, abs_le.2 ⟨?_, ?_⟩⟩ <;>
    simp only [V3.sub_x, V3.sub_y, V3.sub_z] <;> linarith

theorem sub_dot_le_iff (p To u : V3 K) (a : K) : a ≤ (p - To).dot u ↔ a + To.dot u ≤ p.dot u := by
  rw [V3.sub_dot]; exact le_sub_iff_add_le
theorem sub_dot_ge_iff (p To u : V3 K) (a : K) : (p - To).dot u ≤ a ↔ p.dot u ≤ a + To.dot u := by
  rw [V3.sub_dot]; exact sub_le_iff_le_add

theorem mergeAlong_second {big : K} {axis : M3 K} (ha : axis.Orthonormal) (b1 b2 : OBB K) :
    b2.pts ⊆ (mergeAlong big axis b1 b2).pts := by
  intro p hp
  refine mem_mergeAlong ha fun j => ?_
  have h := (scan_spec big axis ((1/2 : K) • (b1.To + b2.To)) b1 b2 j).1
  rw [sub_dot_le_iff, sub_dot_ge_iff]
  exact ⟨le_dot_of_vertices (fun v hv => (sub_dot_le_iff _ _ _ _).1 (h v hv).1) hp,
    dot_le_of_vertices (fun v hv => (sub_dot_ge_iff _ _ _ _).1 (h v hv).2) hp⟩

theorem mergeAlong_first {big : K} {axis : M3 K} (ha : axis.Orthonormal) (b1 b2 : OBB K)
    (he : ∀ j : Fin 3, b1.extent.x * (b1.axis.col 0).dot (axis.col j) ≤ 0 ∨
      b1.extent.y * (b1.axis.col 1).dot (axis.col j) ≤ 0 ∨ b1.extent.z * (b1.axis.col 2).dot (axis.col j) ≤ 0) :
    b1.pts ⊆ (mergeAlong big axis b1 b2).pts := by
  intro p hp
  refine mem_mergeAlong ha fun j => ?_
  have h := (scan_spec big axis ((1/2 : K) • (b1.To + b2.To)) b1 b2 j).2 (he j)
  rw [sub_dot_le_iff, sub_dot_ge_iff]
  exact ⟨le_dot_of_vertices (fun v hv => (sub_dot_le_iff _ _ _ _).1 (h v hv).1) hp,
    dot_le_of_vertices (fun v hv => (sub_dot_ge_iff _ _ _ _).1 (h v hv).2) hp⟩

end

/-! ## Quaternions -/
namespace Quat

theorem dot_self_nonneg (p : Quat) : 0 ≤ p.dot p := by
  rw [dot]; nlinarith [mul_self_nonneg p.w, mul_self_nonneg p.x, mul_self_nonneg p.y, mul_self_nonneg p.z]

/-- The four forms of the quaternion of a matrix. -/
theorem ofMat_cases (m : M3 ℝ) : ∃ t : ℝ, 0 < t ∧
    ((t * t = 1 + m.get 0 0 + m.get 1 1 + m.get 2 2 ∧ ofMat m = ⟨1/2 * t, (m.get 2 1 - m.get 1 2) * (1/2 / t),
        (m.get 0 2 - m.get 2 0) * (1/2 / t), (m.get 1 0 - m.get 0 1) * (1/2 / t)⟩) ∨
     (t * t = 1 + m.get 0 0 - m.get 1 1 - m.get 2 2 ∧ ofMat m = ⟨(m.get 2 1 - m.get 1 2) * (1/2 / t), 1/2 * t,
        (m.get 1 0 + m.get 0 1) * (1/2 / t), (m.get 2 0 + m.get 0 2) * (1/2 / t)⟩) ∨
     (t * t = 1 - m.get 0 0 + m.get 1 1 - m.get 2 2 ∧ ofMat m = ⟨(m.get 0 2 - m.get 2 0) * (1/2 / t),
        (m.get 0 1 + m.get 1 0) * (1/2 / t), 1/2 * t, (m.get 2 1 + m.get 1 2) * (1/2 / t)⟩) ∨
     (t * t = 1 - m.get 0 0 - m.get 1 1 + m.get 2 2 ∧ ofMat m = ⟨(m.get 1 0 - m.get 0 1) * (1/2 / t),
        (m.get 0 2 + m.get 2 0) * (1/2 / t), (m.get 1 2 + m.get 2 1) * (1/2 / t), 1/2 * t⟩)) := by
  rw [ofMat]
  by_cases h0 : m.get 0 0 + m.get 1 1 + m.get 2 2 > 0
  · have hp : 0 < m.get 0 0 + m.get 1 1 + m.get 2 2 + 1 := by linarith
    refine ⟨Real.sqrt (m.get 0 0 + m.get 1 1 + m.get 2 2 + 1), Real.sqrt_pos.2 hp, Or.inl ⟨?_, ?_⟩⟩
    · rw [Real.mul_self_sqrt hp.le]; ring
    · simp only [h0, if_true]
  · have c0 : 0 < m.get 0 0 - m.get 1 1 - m.get 2 2 + 1 → ∃ t : ℝ, 0 < t ∧
        t = Real.sqrt (m.get 0 0 - m.get 1 1 - m.get 2 2 + 1) ∧ t * t = 1 + m.get 0 0 - m.get 1 1 - m.get 2 2 := fun hp =>
      ⟨_, Real.sqrt_pos.2 hp, rfl, by rw [Real.mul_self_sqrt hp.le]; ring⟩
    have c1 : 0 < m.get 1 1 - m.get 2 2 - m.get 0 0 + 1 → ∃ t : ℝ, 0 < t ∧
        t = Real.sqrt (m.get 1 1 - m.get 2 2 - m.get 0 0 + 1) ∧ t * t = 1 - m.get 0 0 + m.get 1 1 - m.get 2 2 := fun hp =>
      ⟨_, Real.sqrt_pos.2 hp, rfl, by rw [Real.mul_self_sqrt hp.le]; ring⟩
    have c2 : 0 < m.get 2 2 - m.get 0 0 - m.get 1 1 + 1 → ∃ t : ℝ, 0 < t ∧
        t = Real.sqrt (m.get 2 2 - m.get 0 0 - m.get 1 1 + 1) ∧ t * t = 1 - m.get 0 0 - m.get 1 1 + m.get 2 2 := fun hp =>
      ⟨_, Real.sqrt_pos.2 hp, rfl, by rw [Real.mul_self_sqrt hp.le]; ring⟩
    by_cases h1 : m.get 1 1 > m.get 0 0
    · by_cases h2 : m.get 2 2 > m.get 1 1
      · obtain ⟨t, ht, e, e'⟩ := c2 (by linarith)
        refine ⟨t, ht, Or.inr (Or.inr (Or.inr ⟨e', ?_⟩))⟩
        rw [e]
        simp only [h0, if_false, h1, if_true, h2]
        rfl
      · obtain ⟨t, ht, e, e'⟩ := c1 (by linarith)
        refine ⟨t, ht, Or.inr (Or.inr (Or.inl ⟨e', ?_⟩))⟩
        rw [e]
        simp only [h0, if_false, h1, if_true, h2]
        rfl
    · by_cases h2 : m.get 2 2 > m.get 0 0
      · obtain ⟨t, ht, e, e'⟩ := c2 (by linarith)
        refine ⟨t, ht, Or.inr (Or.inr (Or.inr ⟨e', ?_⟩))⟩
        rw [e]
        simp only [h0, if_false, h1, h2, if_true]
        rfl
      · obtain ⟨t, ht, e, e'⟩ := c0 (by linarith)
        refine ⟨t, ht, Or.inr (Or.inl ⟨e', ?_⟩)⟩
        rw [e]
        simp only [h0, if_false, h1, h2]
        rfl

/-- The quaternion of any matrix is not zero. -/
theorem ofMat_pos (m : M3 ℝ) : 0 < (ofMat m).dot (ofMat m) := by
  obtain ⟨t, ht, ⟨-, e⟩ | ⟨-, e⟩ | ⟨-, e⟩ | ⟨-, e⟩⟩ := ofMat_cases m <;> rw [e] <;> simp only [dot]
  · have : 0 < 1/2 * t * (1/2 * t) := by positivity
    nlinarith [mul_self_nonneg ((m.get 2 1 - m.get 1 2) * (1/2 / t)), mul_self_nonneg ((m.get 0 2 - m.get 2 0) * (1/2 / t)),
      mul_self_nonneg ((m.get 1 0 - m.get 0 1) * (1/2 / t))]
  · have : 0 < 1/2 * t * (1/2 * t) := by positivity
    nlinarith [mul_self_nonneg ((m.get 2 1 - m.get 1 2) * (1/2 / t)), mul_self_nonneg ((m.get 1 0 + m.get 0 1) * (1/2 / t)),
      mul_self_nonneg ((m.get 2 0 + m.get 0 2) * (1/2 / t))]
  · have : 0 < 1/2 * t * (1/2 * t) := by positivity
    nlinarith [mul_self_nonneg ((m.get 0 2 - m.get 2 0) * (1/2 / t)), mul_self_nonneg ((m.get 0 1 + m.get 1 0) * (1/2 / t)),
      mul_self_nonneg ((m.get 2 1 + m.get 1 2) * (1/2 / t))]
  · have : 0 < 1/2 * t * (1/2 * t) := by positivity
    nlinarith [mul_self_nonneg ((m.get 1 0 - m.get 0 1) * (1/2 / t)), mul_self_nonneg ((m.get 0 2 + m.get 2 0) * (1/2 / t)),
      mul_self_nonneg ((m.get 1 2 + m.get 2 1) * (1/2 / t))]

theorem normalize_unit {p : Quat} (h : 0 < p.dot p) : p.normalize.dot p.normalize = 1 := by
  rw [normalize, if_pos h]
  have hs := Real.sqrt_pos.2 h
  have e := Real.mul_self_sqrt h.le
  simp only [dot] at *
  generalize Real.sqrt (p.w * p.w + p.x * p.x + p.y * p.y + p.z * p.z) = n at *
  field_simp
  nlinarith

/-- The matrix of a unit quaternion is orthonormal. -/
theorem toMat_orthonormal {q : Quat} (h : q.dot q = 1) : q.toMat.Orthonormal := by
  apply M3.orthonormal_of_cols
  obtain ⟨w, x, y, z⟩ := q
  simp only [dot] at h
  simp only [toMat, M3.mul, M3.tr, M3.col, V3.get, V3.dot, M3.one, M3.mk.injEq, V3.mk.injEq]
  refine ⟨⟨?_, ?_, ?_⟩, ⟨?_, ?_, ?_⟩, ?_, ?_, ?_⟩
  · linear_combination 4 * (y * y + z * z) * h
  · linear_combination (-4 * x * y) * h
  · linear_combination (-4 * x * z) * h
  · linear_combination (-4 * x * y) * h
  · linear_combination 4 * (x * x + z * z) * h
  · linear_combination (-4 * y * z) * h
  · linear_combination (-4 * x * z) * h
  · linear_combination (-4 * y * z) * h
  · linear_combination 4 * (x * x + y * y) * h

end Quat

/-- The merged directions are perpendicular unit vectors, whatever the two matrices are. -/
theorem mergedAxis_orthonormal (m1 m2 : M3 ℝ) : (mergedAxis m1 m2).Orthonormal := by
  rw [mergedAxis]
  refine Quat.toMat_orthonormal (Quat.normalize_unit ?_)
  have h1 := Quat.ofMat_pos m1
  have h2 := Quat.ofMat_pos m2
  generalize Quat.ofMat m1 = q0 at *
  generalize Quat.ofMat m2 = q1 at *
  split
  · next h => simp only [Quat.add, Quat.neg, Quat.dot] at *; nlinarith
  · next h => simp only [Quat.add, Quat.dot] at *; nlinarith

end OBB
end Fcl
