import Verif.BVH.TriDistLemmas

/-!
# Facts about the distance of two triangles: the loop and the faces
-/

namespace Fcl
namespace Tri
open V3

/-! ### The vertex nearest to a plane -/

theorem pick_some {U W : Tri ℝ} {y : V3 ℝ} (h : pick U W = some y) : y ∈ W.verts ∧
    ((0 < (U.a - y).dot U.nor ∧ ∀ w ∈ W.verts, (U.a - y).dot U.nor ≤ (U.a - w).dot U.nor) ∨
      ((U.a - y).dot U.nor < 0 ∧ ∀ w ∈ W.verts, (U.a - w).dot U.nor ≤ (U.a - y).dot U.nor)) := by
  simp only [pick] at h
  simp only [verts, List.mem_cons, List.not_mem_nil, or_false, forall_eq_or_imp, forall_eq]
  by_cases hp : (U.a - W.a).dot U.nor > 0 ∧ (U.a - W.b).dot U.nor > 0 ∧ (U.a - W.c).dot U.nor > 0
  · rw [if_pos hp] at h
    obtain ⟨p1, p2, p3⟩ := hp
    split_ifs at h <;> cases h <;> refine ⟨by tauto, .inl ⟨?_, ?_, ?_, ?_⟩⟩ <;> linarith
  · rw [if_neg hp] at h
    by_cases hp : (U.a - W.a).dot U.nor < 0 ∧ (U.a - W.b).dot U.nor < 0 ∧ (U.a - W.c).dot U.nor < 0
    · rw [if_pos hp] at h
      obtain ⟨p1, p2, p3⟩ := hp
      split_ifs at h <;> cases h <;> refine ⟨by tauto, .inr ⟨?_, ?_, ?_, ?_⟩⟩ <;> linarith
    · rw [if_neg hp] at h; cases h

theorem pick_pos {U W : Tri ℝ} {k : ℝ} (h : ∀ w ∈ W.verts, 0 < k * (U.a - w).dot U.nor) : ∃ y, pick U W = some y := by
  simp only [verts, List.forall_mem_cons, List.not_mem_nil, false_imp_iff, implies_true, and_true] at h
  obtain ⟨h1, h2, h3⟩ := h
  rcases lt_trichotomy k 0 with hk | hk | hk
  · have e : ∀ z : ℝ, 0 < k * z → z < 0 := fun z hz => by
      by_contra hn
      have := mul_nonneg (neg_nonneg.2 hk.le) (not_lt.1 hn)
      linarith
    simp only [pick]
    rw [if_neg (fun h => by linarith [h.1, e _ h1]), if_pos ⟨e _ h1, e _ h2, e _ h3⟩]
    exact ⟨_, rfl⟩
  · rw [hk] at h1; linarith
  · have e : ∀ z : ℝ, 0 < k * z → 0 < z := fun z hz => (mul_pos_iff_of_pos_left hk).1 hz
    simp only [pick]
    rw [if_pos ⟨e _ h1, e _ h2, e _ h3⟩]
    exact ⟨_, rfl⟩

theorem pts_le {ax : V3 ℝ} {c : ℝ} {p : Tri ℝ} (h : ∀ x ∈ p.verts, c ≤ ax.dot x) {x : V3 ℝ} (hx : x ∈ p.pts) : c ≤ ax.dot x := by
  by_contra hn
  have := pts_gt (ax := ax) (c := ax.dot x) (fun v hv => lt_of_lt_of_le (not_le.1 hn) (h v hv)) hx
  exact lt_irrefl _ this

theorem pick_pts {U W : Tri ℝ} {y : V3 ℝ} (h : pick U W = some y) {u w : V3 ℝ} (hu : u ∈ U.pts) (hw : w ∈ W.pts) :
    |(U.a - y).dot U.nor| ≤ |(u - w).dot U.nor| ∧ 0 < |(U.a - y).dot U.nor| := by
  obtain ⟨-, h⟩ := pick_some h
  have e : (u - w).dot U.nor = (U.a - w).dot U.nor := by
    have := pts_plane hu
    rw [sub_dot] at *
    rw [sub_dot]; linarith
  rw [e]
  rcases h with ⟨h0, h⟩ | ⟨h0, h⟩
  · have := pts_le (ax := -U.nor) (c := (U.a - y).dot U.nor - U.a.dot U.nor) (fun v hv => by
      have := h v hv
      rw [sub_dot U.a v] at this
      rw [neg_dot, dot_comm _ v]
      linarith) hw
    have h2 : (U.a - y).dot U.nor ≤ (U.a - w).dot U.nor := by
      rw [neg_dot, dot_comm _ w] at this
      rw [sub_dot U.a w]
      linarith
    rw [abs_of_pos h0, abs_of_pos (lt_of_lt_of_le h0 h2)]
    exact ⟨h2, h0⟩
  · have := pts_le (ax := U.nor) (c := U.a.dot U.nor - (U.a - y).dot U.nor) (fun v hv => by
      have := h v hv
      rw [sub_dot U.a v] at this
      rw [dot_comm _ v]
      linarith) hw
    have h2 : (U.a - w).dot U.nor ≤ (U.a - y).dot U.nor := by
      rw [dot_comm _ w] at this
      rw [sub_dot U.a w]
      linarith
    rw [abs_of_neg h0, abs_of_neg (lt_of_le_of_lt h2 h0)]
    exact ⟨by linarith, by linarith⟩

/-! ### The faces -/

theorem face_sep {thin : ℝ} {U W : Tri ℝ} (h : (face thin U W).1 = true) : ¬Touch U.pts W.pts := by
  rintro ⟨x, hu, hw⟩
  simp only [face] at h
  split_ifs at h
  cases hp : pick U W with
  | none => rw [hp] at h; simp at h
  | some y =>
    obtain ⟨h1, h2⟩ := pick_pts hp hu hw
    have : x - x = 0 := by v3
    rw [this] at h1
    have : (0 : V3 ℝ).dot U.nor = 0 := by simp [dot]
    rw [this, abs_zero] at h1
    linarith

theorem face_some {thin : ℝ} (ht : 0 ≤ thin) {U W : Tri ℝ} {f y : V3 ℝ} (h : (face thin U W).2 = some (f, y)) :
    IsDist U.pts W.pts (f - y).nrm f y := by
  simp only [face] at h
  split_ifs at h with hn
  · have hn : thin < U.nor.dot U.nor := hn
    cases hp : pick U W with
    | none => rw [hp] at h; simp at h
    | some z =>
      rw [hp] at h
      simp only [] at h
      split_ifs at h with ho
      simp only [Option.some.injEq, Prod.mk.injEq] at h
      obtain ⟨h, rfl⟩ := h
      have h0 : 0 < U.nor.dot U.nor := by linarith
      have hU : U.nor ≠ 0 := fun h => by rw [h] at h0; simp [dot] at h0
      obtain ⟨n, en⟩ : ∃ n, n = U.nor := ⟨_, rfl⟩
      obtain ⟨m, em⟩ : ∃ m, m = (U.a - z).dot n / n.dot n := ⟨_, rfl⟩
      rw [← en, ← em] at h
      rw [← en] at h0
      have hm : m * n.dot n = (U.a - z).dot n := by rw [em]; exact div_mul_cancel₀ _ h0.ne'
      have hpl : (f - U.a).dot U.nor = 0 := by
        rw [← en, ← h]
        have : (z + m • n - U.a).dot n = m * n.dot n - (U.a - z).dot n := by
          simp only [dot, sub_x, sub_y, sub_z, add_x, add_y, add_z, smul_x, smul_y, smul_z]; ring
        rw [this, hm, _root_.sub_self]
      have hstrict : U.Strict f := by
        have hs := over_iff.1 ho
        have key : ∀ o w : V3 ℝ, (z + m • n - o).dot (n.cross w) = (z - o).dot (n.cross w) := fun o w => by
          simp only [dot, cross, sub_x, sub_y, sub_z, add_x, add_y, add_z, smul_x, smul_y, smul_z]; ring
        simp only [Strict] at hs ⊢
        rw [← en] at hs ⊢
        rw [← h]
        simpa only [key] using hs
      have hf := strict_pts hU hpl hstrict
      refine ⟨hf, vert_mem (pick_some hp).1, by rw [dist_eq], fun u hu w hw => ?_⟩
      have hk := (pick_pts hp hu hw).1
      rw [dist_eq, ← h]
      have e : z + m • n - z = m • n := by v3
      rw [e, nrm_smul]
      have hl : 0 < n.nrm := nrm_pos (by rw [en]; exact hU)
      rw [← en, ← hm, abs_mul, abs_of_pos h0, ← nrm_mul_self] at hk
      have hd : |(u - w).dot n| ≤ (u - w).nrm * n.nrm := abs_le.2 ⟨by
        have := dot_le (-(u - w)) n
        rw [neg_dot, nrm_neg] at this
        linarith, dot_le _ _⟩
      have : |m| * n.nrm * n.nrm ≤ (u - w).nrm * n.nrm := by linarith
      exact le_of_mul_le_mul_right this hl

theorem face_of {thin : ℝ} {U W : Tri ℝ} (hn : thin < U.nor.dot U.nor) {y : V3 ℝ} (hp : pick U W = some y) (hs : U.Strict y) :
    ∃ r, (face thin U W).2 = some r := by
  simp only [face]
  rw [if_pos hn, hp]
  simp only []
  rw [if_pos (over_iff.2 hs)]
  exact ⟨_, rfl⟩

/-! ### One of the faces gives the distance -/

theorem shift_nor (W : Tri ℝ) (v : V3 ℝ) : (W.shift v).nor = W.nor := by
  simp only [shift, nor, e1, e2, cross]; v3

theorem shift_strict {W : Tri ℝ} {v x : V3 ℝ} : (W.shift v).Strict x ↔ W.Strict (x + v) := by
  have h1 : x - (W.a - v) = x + v - W.a := by v3
  have h2 : x - (W.b - v) = x + v - W.b := by v3
  have h3 : x - (W.c - v) = x + v - W.c := by v3
  have e1 : (W.shift v).e1 = W.e1 := by simp only [shift, e1]; v3
  have e2 : (W.shift v).e2 = W.e2 := by simp only [shift, e2]; v3
  have e3 : (W.shift v).e3 = W.e3 := by simp only [shift, e3]; v3
  simp only [Strict, shift_nor, e1, e2, e3]
  simp only [shift, h1, h2, h3]

theorem shift_onEdge {W : Tri ℝ} {v x : V3 ℝ} (h : (W.shift v).OnEdge x) : W.OnEdge (x + v) := by
  obtain ⟨s, hs, r, r0, r1, rfl⟩ := h
  simp only [sides, List.mem_cons, List.not_mem_nil, or_false] at hs
  rcases hs with rfl | rfl | rfl
  · exact ⟨(W.a, W.e1, W.c), by simp [sides], r, r0, r1, by simp only [shift, e1]; v3⟩
  · exact ⟨(W.b, W.e2, W.a), by simp [sides], r, r0, r1, by simp only [shift, e2]; v3⟩
  · exact ⟨(W.c, W.e3, W.b), by simp [sides], r, r0, r1, by simp only [shift, e3]; v3⟩

theorem shift_pts_iff {W : Tri ℝ} {v x : V3 ℝ} : x ∈ (W.shift v).pts ↔ x + v ∈ W.pts := by
  constructor
  · intro h
    have := shift_pts (v := -v) h
    have e : (W.shift v).shift (-v) = W := by
      cases W
      simp only [shift, Tri.mk.injEq]
      refine ⟨by v3, by v3, by v3⟩
    rw [e] at this
    have e : x - -v = x + v := by v3
    rwa [e] at this
  · intro h
    have := shift_pts (v := v) h
    have e : x + v - v = x := by v3
    rwa [e] at this

theorem shift_verts {W : Tri ℝ} {v x : V3 ℝ} (h : x ∈ W.verts) : x - v ∈ (W.shift v).verts := by
  simp only [verts, shift, List.mem_cons, List.not_mem_nil, or_false] at h ⊢
  rcases h with rfl | rfl | rfl <;> simp

theorem strict_along {U : Tri ℝ} {v x : V3 ℝ} {k : ℝ} (hv : v = k • U.nor) : U.Strict (x + v) ↔ U.Strict x := by
  have key : ∀ o w : V3 ℝ, (x + v - o).dot (U.nor.cross w) = (x - o).dot (U.nor.cross w) := fun o w => by
    rw [hv]
    simp only [dot, cross, sub_x, sub_y, sub_z, add_x, add_y, add_z, smul_x, smul_y, smul_z]; ring
  simp only [Strict, key]

/-- A linear function that is least at an inner point is constant. -/
theorem strict_perp {W : Tri ℝ} {q v : V3 ℝ} (hq : q ∈ W.pts) (hs : W.Strict q) (h : ∀ w ∈ W.verts, 0 ≤ v.dot (w - q)) :
    ∀ w ∈ W.verts, v.dot (w - q) = 0 := by
  have hb := bary (pts_plane hq)
  have hsum := bary_sum W q
  obtain ⟨s1, s2, s3⟩ := hs
  simp only [verts, List.forall_mem_cons, List.not_mem_nil, false_imp_iff, implies_true, and_true] at h ⊢
  obtain ⟨ha, hb', hc⟩ := h
  obtain ⟨l1, e1⟩ : ∃ l, l = (q - W.a).dot (W.nor.cross W.e1) := ⟨_, rfl⟩
  obtain ⟨l2, e2⟩ : ∃ l, l = (q - W.b).dot (W.nor.cross W.e2) := ⟨_, rfl⟩
  obtain ⟨l3, e3⟩ : ∃ l, l = (q - W.c).dot (W.nor.cross W.e3) := ⟨_, rfl⟩
  rw [← e1] at s1 hb hsum
  rw [← e2] at s2 hb hsum
  rw [← e3] at s3 hb hsum
  have hz : l2 * v.dot (W.a - q) + l3 * v.dot (W.b - q) + l1 * v.dot (W.c - q) = 0 := by
    have := congrArg v.dot hb
    rw [dot_smul, dot_add, dot_add, dot_smul, dot_smul, dot_smul, ← hsum] at this
    rw [dot_sub, dot_sub, dot_sub]
    linarith
  have p1 := mul_nonneg s2.le ha
  have p2 := mul_nonneg s3.le hb'
  have p3 := mul_nonneg s1.le hc
  refine ⟨?_, ?_, ?_⟩
  · exact (mul_eq_zero.1 (by linarith : l2 * v.dot (W.a - q) = 0)).resolve_left s2.ne'
  · exact (mul_eq_zero.1 (by linarith : l3 * v.dot (W.b - q) = 0)).resolve_left s3.ne'
  · exact (mul_eq_zero.1 (by linarith : l1 * v.dot (W.c - q) = 0)).resolve_left s1.ne'

/-- A vector perpendicular to the sides. -/
theorem along {W : Tri ℝ} (hW : W.nor ≠ 0) {q v : V3 ℝ} (h : ∀ w ∈ W.verts, v.dot (w - q) = 0) : ∃ k : ℝ, v = k • W.nor := by
  refine Proper.normal (u := W.a) (by unfold Proper; rwa [← nor_eq]) (by simp [verts]) fun w hw => ?_
  have a := h w hw
  have b := h W.a (by simp [verts])
  rw [dot_sub] at a b
  rw [dot_comm, dot_sub]
  linarith

theorem pts_zero {U : Tri ℝ} {v p : V3 ℝ} (h : ∀ x ∈ U.verts, v.dot (x - p) = 0) {x : V3 ℝ} (hx : x ∈ U.pts) : v.dot (x - p) = 0 := by
  have h1 := pts_le (ax := v) (c := v.dot p) (fun x hx => by have := h x hx; rw [dot_sub] at this; linarith) hx
  have h2 := pts_le (ax := -v) (c := -v.dot p) (fun x hx => by have := h x hx; rw [dot_sub] at this; rw [neg_dot]; linarith) hx
  rw [neg_dot] at h2
  rw [dot_sub]; linarith

set_option maxHeartbeats 1000000 in
theorem complete_half {thin : ℝ} {U W : Tri ℝ} (hU : U.nor ≠ 0 → thin < U.nor.dot U.nor) (hW : W.nor ≠ 0 → thin < W.nor.dot W.nor)
    {d : ℝ} {p q : V3 ℝ} (hd : IsDist U.pts W.pts d p q) (h0 : 0 < d)
    (ne : ∀ x y, U.OnEdge x → W.OnEdge y → d < x.dist y) (hn : W.nor ≠ 0) (hs : W.Strict q) :
    (∃ r, (face thin U W).2 = some r) ∨ ∃ r, (face thin W U).2 = some r := by
  obtain ⟨v, hv⟩ : ∃ v, v = q - p := ⟨_, rfl⟩
  have hq : q = p + v := by rw [hv]; v3
  have hvn : v.nrm = d := by rw [hv, ← dist_eq, V3.dist_comm, hd.attained]
  have vv : v.dot v = d * d := by rw [← nrm_mul_self, hvn]
  have vpos : 0 < v.dot v := by rw [vv]; exact mul_pos h0 h0
  have dU : ∀ x ∈ U.pts, v.dot (x - p) ≤ 0 := fun x hx => by
    have := near_dot U.pts_convex hd.left (b := q) (fun x hx => by rw [hd.attained]; exact hd.least x hx q hd.right) hx
    rwa [← hv] at this
  have dW : ∀ y ∈ W.pts, 0 ≤ v.dot (y - q) := fun y hy => by
    have := near_dot W.pts_convex hd.right (b := p)
      (fun y hy => by rw [V3.dist_comm, hd.attained, V3.dist_comm]; exact hd.least p hd.left y hy) hy
    have e : p - q = -v := by rw [hv]; v3
    rw [e, neg_dot] at this
    linarith
  have zW := strict_perp hd.right hs fun w hw => dW w (vert_mem hw)
  obtain ⟨c, hc⟩ := along hn zW
  have qp : v.dot q = v.dot p + v.dot v := by rw [hq, dot_add]
  have lin : ∀ x : V3 ℝ, c * (W.a - x).dot W.nor = v.dot q - v.dot x := fun x => by
    have h1 : v.dot (W.a - x) = c * (W.a - x).dot W.nor := by
      conv_lhs => rw [hc]
      rw [smul_dot, dot_comm W.nor]
    have h2 := zW W.a (by simp [verts])
    rw [← h1, dot_sub]
    rw [dot_sub] at h2
    linarith
  obtain ⟨x0, hx0⟩ := pick_pos (U := W) (W := U) (k := c) fun x hx => by
    rw [lin]
    have := dU x (vert_mem hx)
    rw [dot_sub] at this
    linarith
  obtain ⟨x0v, x0ext⟩ := pick_some hx0
  -- the vertex chosen is as near as the nearest point
  have x0p : v.dot (x0 - p) = 0 := by
    refine le_antisymm (dU x0 (vert_mem x0v)) ?_
    have hmax : ∀ x ∈ U.verts, v.dot x ≤ v.dot x0 := fun x hx => by
      have l1 := lin x
      have l2 := lin x0
      have a1 := dU x0 (vert_mem x0v)
      rw [dot_sub] at a1
      rcases x0ext with ⟨s, h⟩ | ⟨s, h⟩
      · have c0 : 0 < c := by
          by_contra hneg
          have := mul_nonneg (neg_nonneg.2 (not_lt.1 hneg)) s.le
          linarith
        have := mul_le_mul_of_nonneg_left (h x hx) c0.le
        linarith
      · have c0 : c < 0 := by
          by_contra hneg
          have := mul_nonneg (not_lt.1 hneg) (neg_nonneg.2 s.le)
          linarith
        have := mul_le_mul_of_nonpos_left (h x hx) c0.le
        linarith
    have := pts_le (ax := -v) (c := -v.dot x0) (fun x hx => by rw [neg_dot]; linarith [hmax x hx]) hd.left
    rw [neg_dot] at this
    rw [dot_sub]; linarith
  by_cases hsx : W.Strict x0
  · exact .inr (face_of (hW hn) hx0 hsx)
  -- the second triangle, moved to touch the first
  have hn' : (W.shift v).nor ≠ 0 := by rwa [shift_nor]
  have ne' : ∀ x, ¬(U.OnEdge x ∧ (W.shift v).OnEdge x) := fun x h => by
    have := ne x _ h.1 (shift_onEdge h.2)
    have e : x - (x + v) = -v := by v3
    rw [dist_eq, e, nrm_neg, hvn] at this
    exact lt_irrefl _ this
  have hpW : p ∈ (W.shift v).pts := shift_pts_iff.2 (by rw [← hq]; exact hd.right)
  have hsp : (W.shift v).Strict p := shift_strict.2 (by rwa [← hq])
  have hsx' : ¬(W.shift v).Strict x0 := fun h => hsx ((strict_along hc).1 (shift_strict.1 h))
  have c0 : c ≠ 0 := fun h => by rw [hc, h] at vpos; simp [dot] at vpos
  have plW : ∀ x, v.dot (x - p) = 0 → (x - (W.shift v).a).dot (W.shift v).nor = 0 := fun x hx => by
    rw [shift_nor]
    have h2 := zW W.a (by simp [verts])
    have e : c * (x - (W.shift v).a).dot W.nor = v.dot (x - (W.shift v).a) := by
      have : ∀ z : V3 ℝ, c * z.dot W.nor = v.dot z := fun z => by rw [hc, smul_dot, dot_comm z]
      exact this _
    have e2 : v.dot (x - (W.shift v).a) = v.dot (x - p) - v.dot (W.a - q) := by
      rw [hq]; simp only [shift, dot, sub_x, sub_y, sub_z, add_x, add_y, add_z]; ring
    rw [e2, hx, h2, _root_.sub_self] at e
    exact (mul_eq_zero.1 e).resolve_left c0
  by_cases hall : U.nor ≠ 0 ∧ ∀ x ∈ U.verts, v.dot (x - p) = 0
  · obtain ⟨hUn, zU⟩ := hall
    obtain ⟨k, hk⟩ := along hUn zU
    have k0 : k ≠ 0 := fun h => by rw [hk, h] at vpos; simp [dot] at vpos
    have linU : ∀ x : V3 ℝ, k * (U.a - x).dot U.nor = v.dot p - v.dot x := fun x => by
      have h1 : v.dot (U.a - x) = k * (U.a - x).dot U.nor := by
        conv_lhs => rw [hk]
        rw [smul_dot, dot_comm U.nor]
      have h2 := zU U.a (by simp [verts])
      rw [← h1, dot_sub]
      rw [dot_sub] at h2
      linarith
    obtain ⟨y0, hy0⟩ := pick_pos (U := U) (W := W) (k := -k) fun y hy => by
      have h1 := linU y
      have h2 := dW y (vert_mem hy)
      rw [dot_sub] at h2
      linarith
    by_cases hsy : U.Strict y0
    · exact .inl (face_of (hU hUn) hy0 hsy)
    · exfalso
      have hkn : -v = (-k) • U.nor := by rw [hk]; v3
      refine meet hUn hn' ne' (fun x hx => plW x (pts_zero zU hx)) (fun y hy => ?_) hd.left hpW x0v hsx'
        (shift_verts (pick_some hy0).1) (fun h => hsy ?_)
      · have hy' := pts_zero zW (shift_pts_iff.1 hy)
        have e := linU y
        rw [dot_sub, dot_add] at hy'
        have : k * (U.a - y).dot U.nor = 0 := by linarith
        have := (mul_eq_zero.1 this).resolve_left k0
        rw [sub_dot] at this ⊢
        linarith
      · have e : y0 - v = y0 + -v := by v3
        rw [e] at h
        exact (strict_along hkn).1 h
  · exfalso
    have edge : ∀ x ∈ U.pts, v.dot (x - p) = 0 → U.OnEdge x := fun x hx hz => by
      rcases pts_cases hx with h | ⟨h1, h2⟩
      · exact h
      · exfalso
        apply hall
        refine ⟨h1, fun u hu => ?_⟩
        have := strict_perp (v := -v) hx h2 (fun w hw => by
          have := dU w (vert_mem hw)
          rw [dot_sub] at this hz
          rw [neg_dot, dot_sub]
          linarith) u hu
        rw [neg_dot, dot_sub] at this
        rw [dot_sub] at hz ⊢
        linarith
    have hp0 : v.dot (p - p) = 0 := by
      have : p - p = 0 := by v3
      rw [this]; simp [dot]
    obtain ⟨r, r0, r1, hr⟩ := crossing hn' (plW p hp0) (plW x0 x0p) hsp hsx'
    have hm : p + r • (x0 - p) ∈ U.pts := by
      have := U.pts_convex _ hd.left _ (vert_mem x0v) r r0 r1
      have e : p + r • (x0 - p) = (1 - r) • p + r • x0 := by v3
      rw [e]; exact this
    refine ne' _ ⟨edge _ hm ?_, hr⟩
    have e : p + r • (x0 - p) - p = r • (x0 - p) := by v3
    rw [e, dot_smul, x0p, mul_zero]

/-- If no sides are as near as the triangles, then one of the faces gives the distance. -/
theorem complete {thin : ℝ} {U W : Tri ℝ} (hU : U.nor ≠ 0 → thin < U.nor.dot U.nor) (hW : W.nor ≠ 0 → thin < W.nor.dot W.nor)
    {d : ℝ} {p q : V3 ℝ} (hd : IsDist U.pts W.pts d p q) (h0 : 0 < d)
    (ne : ∀ x y, U.OnEdge x → W.OnEdge y → d < x.dist y) :
    (∃ r, (face thin U W).2 = some r) ∨ ∃ r, (face thin W U).2 = some r := by
  rcases pts_cases hd.right with hq | ⟨hn, hs⟩
  · rcases pts_cases hd.left with hp | ⟨hn, hs⟩
    · have := ne p q hp hq
      rw [hd.attained] at this
      exact absurd this (lt_irrefl _)
    · exact (complete_half hW hU (dist_symm hd) h0 (fun x y hx hy => by rw [V3.dist_comm]; exact ne y x hy hx) hn hs).symm
  · exact complete_half hU hW hd h0 ne hn hs

/-! ### The loop over the sides -/

/-- The vector between the nearest points of two segments bounds their distance. -/
theorem seg_opt {P A Q B : V3 ℝ} {r : Seg ℝ} (h : SegSpec P A Q B r) {s w : ℝ} (s0 : 0 ≤ s) (s1 : s ≤ 1) (w0 : 0 ≤ w) (w1 : w ≤ 1) :
    (r.Y - r.X).dot (r.Y - r.X) ≤ (r.Y - r.X).dot (Q + w • B - (P + s • A)) := by
  obtain ⟨t, u, t0, t1, u0, u1, hX, hY, hA, hB⟩ := h.near
  have a := hA s s0 s1
  have b := hB w w0 w1
  obtain ⟨V, hV⟩ : ∃ V, V = r.Y - r.X := ⟨_, rfl⟩
  rw [← hV] at a b ⊢
  have e : Q + w • B - (P + s • A) = V + (w - u) • B - (s - t) • A := by rw [hV, hX, hY]; v3
  rw [e, dot_sub, dot_add, dot_smul, dot_smul, dot_comm V B, dot_comm V A]
  linarith

theorem nrm_le_of_dot {v w : V3 ℝ} (h : v.dot v ≤ v.dot w) : v.nrm ≤ w.nrm := by
  have h1 := dot_le v w
  have h2 := nrm_mul_self v
  rcases (nrm_nonneg v).lt_or_eq with h0 | h0
  · exact le_of_mul_le_mul_left (by linarith) h0
  · rw [← h0]; exact nrm_nonneg w

theorem side_pts {U : Tri ℝ} {s : V3 ℝ × V3 ℝ × V3 ℝ} (hs : s ∈ U.sides) {r : ℝ} (h0 : 0 ≤ r) (h1 : r ≤ 1) :
    s.1 + r • s.2.1 ∈ U.pts := onEdge_pts ⟨s, hs, r, h0, h1, rfl⟩

/-- What the state of the loop says about the triangles; `d` is their distance. -/
structure Inv (T1 T2 : Tri ℝ) (d : ℝ) (st : DState ℝ) : Prop where
  shown : st.shown = true → ¬Touch T1.pts T2.pts
  mindd : d * d ≤ st.mindd

/-- The points found are points of the triangles. -/
structure Found (T1 T2 : Tri ℝ) (st : DState ℝ) : Prop where
  minP : st.minP ∈ T1.pts
  minQ : st.minQ ∈ T2.pts
  mindd : st.mindd = (st.minP - st.minQ).dot (st.minP - st.minQ)
  P : st.P ∈ T1.pts
  Q : st.Q ∈ T2.pts

theorem dstep_spec {T1 T2 : Tri ℝ} {d : ℝ} {p q : V3 ℝ} (hd : IsDist T1.pts T2.pts d p q) {s1 s2 : V3 ℝ × V3 ℝ × V3 ℝ}
    (h1 : s1 ∈ T1.sides) (h2 : s2 ∈ T2.sides) {st : DState ℝ} (hst : Inv T1 T2 d st) :
    (∀ r, dstep s1 s2 st = .inl r → IsDist T1.pts T2.pts (Real.sqrt r.dd) r.P r.Q) ∧
    ∀ st', dstep s1 s2 st = .inr st' → Inv T1 T2 d st' ∧
      (Found T1 T2 st ∨ (s1.1 - s2.1).dot (s1.1 - s2.1) ≤ st.mindd → Found T1 T2 st') ∧
      (0 < d → ∀ s w : ℝ, 0 ≤ s → s ≤ 1 → 0 ≤ w → w ≤ 1 → d < (s1.1 + s • s1.2.1).dist (s2.1 + w • s2.2.1)) := by
  have hr := segPoints_spec s1.1 s1.2.1 s2.1 s2.2.1
  simp only [dstep]
  obtain ⟨r, er⟩ : ∃ r, r = segPoints s1.1 s1.2.1 s2.1 s2.2.1 := ⟨_, rfl⟩
  rw [← er] at hr ⊢
  have opt := @seg_opt _ _ _ _ _ hr
  obtain ⟨t, u, t0, t1, u0, u1, hX, hY, hA, hB⟩ := hr.near
  obtain ⟨V, hV⟩ : ∃ V, V = r.Y - r.X := ⟨_, rfl⟩
  have hvec := hr.vec
  rw [← hV] at hvec hA hB
  simp only [← hV] at opt ⊢
  have hXm : r.X ∈ T1.pts := by rw [hX]; exact side_pts h1 t0 t1
  have hYm : r.Y ∈ T2.pts := by rw [hY]; exact side_pts h2 u0 u1
  have hdist : r.X.dist r.Y = V.nrm := by rw [V3.dist_comm, dist_eq, hV]
  have hmin : d ≤ V.nrm := by rw [← hdist]; exact hd.least _ hXm _ hYm
  have hd0 := isDist_nonneg hd
  have hdd : d * d ≤ V.dot V := by rw [← nrm_mul_self]; exact mul_self_le_mul_self hd0 hmin
  -- the vertices of the sides
  have sX : ∀ s : ℝ, 0 ≤ s → s ≤ 1 → (s1.1 + s • s1.2.1 - r.X).dot r.vec ≤ 0 := fun s s0 s1' => by
    have e : s1.1 + s • s1.2.1 - r.X = (s - t) • s1.2.1 := by rw [hX]; v3
    rw [e, smul_dot]
    rcases hvec with ⟨k, k0, hk⟩ | ⟨-, hk, -⟩
    · rw [hk, dot_smul]
      have := mul_nonneg k0.le (neg_nonneg.2 (hA s s0 s1'))
      linarith
    · rw [hk, mul_zero]
  have sY : ∀ s : ℝ, 0 ≤ s → s ≤ 1 → 0 ≤ (s2.1 + s • s2.2.1 - r.Y).dot r.vec := fun s s0 s1' => by
    have e : s2.1 + s • s2.2.1 - r.Y = (s - u) • s2.2.1 := by rw [hY]; v3
    rw [e, smul_dot]
    rcases hvec with ⟨k, k0, hk⟩ | ⟨-, -, hk⟩
    · rw [hk, dot_smul]
      have := mul_nonneg k0.le (hB s s0 s1')
      linarith
    · rw [hk, mul_zero]
  have vX : ∀ c : ℝ, 0 ≤ c → (s1.2.2 - r.X).dot r.vec ≤ c → ∀ x ∈ T1.verts, (x - r.X).dot r.vec ≤ c := fun c c0 hc x hx => by
    rcases (sides_vert h1).2.2.2 x hx with rfl | rfl | rfl
    · have := sX 0 le_rfl zero_le_one
      have e : s1.1 + (0 : ℝ) • s1.2.1 = s1.1 := by v3
      rw [e] at this; linarith
    · have := sX 1 zero_le_one le_rfl
      have e : s1.1 + (1 : ℝ) • s1.2.1 = s1.1 + s1.2.1 := by v3
      rw [e] at this; linarith
    · exact hc
  have vY : ∀ c : ℝ, c ≤ 0 → c ≤ (s2.2.2 - r.Y).dot r.vec → ∀ y ∈ T2.verts, c ≤ (y - r.Y).dot r.vec := fun c c0 hc y hy => by
    rcases (sides_vert h2).2.2.2 y hy with rfl | rfl | rfl
    · have := sY 0 le_rfl zero_le_one
      have e : s2.1 + (0 : ℝ) • s2.2.1 = s2.1 := by v3
      rw [e] at this; linarith
    · have := sY 1 zero_le_one le_rfl
      have e : s2.1 + (1 : ℝ) • s2.2.1 = s2.1 + s2.2.1 := by v3
      rw [e] at this; linarith
    · exact hc
  have pX : ∀ c : ℝ, 0 ≤ c → (s1.2.2 - r.X).dot r.vec ≤ c → ∀ x ∈ T1.pts, (x - r.X).dot r.vec ≤ c := fun c c0 hc x hx => by
    have := pts_le (ax := -r.vec) (c := -(c + r.X.dot r.vec)) (fun v hv => by
      have := vX c c0 hc v hv
      rw [sub_dot] at this
      rw [neg_dot, dot_comm r.vec]; linarith) hx
    rw [neg_dot, dot_comm r.vec] at this
    rw [sub_dot]; linarith
  have pY : ∀ c : ℝ, c ≤ 0 → c ≤ (s2.2.2 - r.Y).dot r.vec → ∀ y ∈ T2.pts, c ≤ (y - r.Y).dot r.vec := fun c c0 hc y hy => by
    have := pts_le (ax := r.vec) (c := c + r.Y.dot r.vec) (fun v hv => by
      have := vY c c0 hc v hv
      rw [sub_dot] at this
      rw [dot_comm r.vec]; linarith) hy
    rw [dot_comm r.vec] at this
    rw [sub_dot]; linarith
  have found0 : ∀ a b : Bool, a = b → Found T1 T2 ⟨r.X, r.Y, V.dot V, a, r.X, r.Y⟩ := fun a b _ =>
    ⟨hXm, hYm, by
      have e : r.X - r.Y = -V := by rw [hV]; v3
      show V.dot V = (r.X - r.Y).dot (r.X - r.Y)
      rw [e, neg_dot, dot_neg, neg_neg], hXm, hYm⟩
  -- sides as near as the triangles
  have near : 0 < d → V.dot V ≤ st.mindd → V.nrm ≤ d → (s1.2.2 - r.X).dot r.vec ≤ 0 ∧ (s2.2.2 - r.Y).dot r.vec ≥ 0 := fun h0 _ hle => by
    have hVd : V.nrm = d := le_antisymm hle hmin
    have hD : IsDist T1.pts T2.pts d r.X r.Y := ⟨hXm, hYm, by rw [hdist, hVd], hd.least⟩
    have n1 := near_dot T1.pts_convex hD.left (b := r.Y) (fun x hx => by rw [hD.attained]; exact hD.least x hx _ hD.right)
      (vert_mem (sides_vert h1).2.2.1)
    have n2 := near_dot T2.pts_convex hD.right (b := r.X)
      (fun y hy => by rw [V3.dist_comm, hD.attained, V3.dist_comm]; exact hD.least _ hD.left y hy) (vert_mem (sides_vert h2).2.2.1)
    rcases hvec with ⟨k, k0, hk⟩ | ⟨hz, -, -⟩
    · have e : r.X - r.Y = -V := by rw [hV]; v3
      rw [← hV] at n1
      rw [e, neg_dot] at n2
      rw [hk, dot_smul, dot_smul, dot_comm _ V, dot_comm _ V]
      constructor
      · nlinarith
      · show 0 ≤ _
        exact mul_nonneg k0.le (by linarith)
    · rw [hz, nrm_zero] at hVd
      linarith
  have far : 0 < d → ¬V.nrm ≤ d → ∀ s w : ℝ, 0 ≤ s → s ≤ 1 → 0 ≤ w → w ≤ 1 → d < (s1.1 + s • s1.2.1).dist (s2.1 + w • s2.2.1) :=
    fun _ hn s w s0 s1' w0 w1 => by
      have := nrm_le_of_dot (opt s0 s1' w0 w1)
      rw [V3.dist_comm, dist_eq]
      exact lt_of_lt_of_le (not_le.1 hn) this
  by_cases hc : V.dot V ≤ st.mindd
  · rw [if_pos hc]
    by_cases hab : (s1.2.2 - r.X).dot r.vec ≤ 0 ∧ (s2.2.2 - r.Y).dot r.vec ≥ 0
    · rw [if_pos hab]
      refine ⟨fun r' hr' => ?_, fun st' h => nomatch h⟩
      cases hr'
      show IsDist T1.pts T2.pts (Real.sqrt (V.dot V)) r.X r.Y
      refine ⟨hXm, hYm, hdist, fun x hx y hy => ?_⟩
      show V.nrm ≤ _
      rw [V3.dist_comm, dist_eq]
      rcases hvec with ⟨k, k0, hk⟩ | ⟨hz, -, -⟩
      · refine nrm_le_of_dot ?_
        have a := pX 0 le_rfl hab.1 x hx
        have b := pY 0 le_rfl hab.2 y hy
        rw [hk, dot_smul, dot_comm _ V] at a b
        have a' : V.dot (x - r.X) ≤ 0 := by
          by_contra hn
          have := mul_pos k0 (not_le.1 hn)
          linarith
        have b' : 0 ≤ V.dot (y - r.Y) := (mul_nonneg_iff_of_pos_left k0).1 b
        have e : y - x = V + (y - r.Y) - (x - r.X) := by rw [hV]; v3
        rw [e, dot_sub, dot_add]
        linarith
      · rw [hz, nrm_zero]; exact nrm_nonneg _
    · rw [if_neg hab]
      refine ⟨fun r' hr' => (nomatch hr'), fun st' h => ?_⟩
      cases h
      refine ⟨⟨fun h => ?_, hdd⟩, fun _ => found0 _ _ rfl, fun h0 => far h0 fun hle => hab (near h0 hc hle)⟩
      rcases (Bool.or_eq_true _ _ ▸ h : st.shown = true ∨ _) with h | h
      · exact hst.shown h
      · have h := of_decide_eq_true h
        rintro ⟨z, hz1, hz2⟩
        obtain ⟨a, ea⟩ : ∃ a, a = (s1.2.2 - r.X).dot r.vec := ⟨_, rfl⟩
        obtain ⟨b, eb⟩ : ∃ b, b = (s2.2.2 - r.Y).dot r.vec := ⟨_, rfl⟩
        rw [← ea, ← eb] at h
        have a1 : 0 ≤ (if a < 0 then 0 else a) ∧ a ≤ (if a < 0 then 0 else a) := by split_ifs <;> constructor <;> linarith
        have b1 : (if b > 0 then 0 else b) ≤ 0 ∧ (if b > 0 then 0 else b) ≤ b := by split_ifs <;> constructor <;> linarith
        have x1 := pX _ a1.1 (by rw [← ea]; exact a1.2) z hz1
        have y1 := pY _ b1.1 (by rw [← eb]; exact b1.2) z hz2
        have e : (z - r.X).dot r.vec - (z - r.Y).dot r.vec = V.dot r.vec := by
          rw [hV, sub_dot, sub_dot, sub_dot]; ring
        have h : 0 < V.dot r.vec - (if a < 0 then 0 else a) + (if b > 0 then 0 else b) := h
        linarith
  · rw [if_neg hc]
    refine ⟨fun r' hr' => (nomatch hr'), fun st' h => ?_⟩
    cases h
    refine ⟨⟨hst.shown, hst.mindd⟩, ?_, fun h0 => far h0 fun hle => hc ?_⟩
    · rintro (h | h)
      · exact ⟨h.minP, h.minQ, h.mindd, hXm, hYm⟩
      · exfalso
        apply hc
        refine le_trans ?_ h
        have := nrm_le_of_dot (opt le_rfl zero_le_one le_rfl zero_le_one)
        have e : s2.1 + (0 : ℝ) • s2.2.1 - (s1.1 + (0 : ℝ) • s1.2.1) = -(s1.1 - s2.1) := by v3
        rw [e, nrm_neg] at this
        have := mul_self_le_mul_self (nrm_nonneg _) this
        rwa [nrm_mul_self, nrm_mul_self] at this
    · have := mul_self_le_mul_self (nrm_nonneg V) hle
      rw [nrm_mul_self] at this
      exact this.trans hst.mindd

theorem dloop_spec {T1 T2 : Tri ℝ} {d : ℝ} {p q : V3 ℝ} (hd : IsDist T1.pts T2.pts d p q) :
    ∀ (l : List ((V3 ℝ × V3 ℝ × V3 ℝ) × (V3 ℝ × V3 ℝ × V3 ℝ))) (st : DState ℝ), (∀ s ∈ l, s.1 ∈ T1.sides ∧ s.2 ∈ T2.sides) →
    Inv T1 T2 d st →
    (∀ r, dloop l st = .inl r → IsDist T1.pts T2.pts (Real.sqrt r.dd) r.P r.Q) ∧
    ∀ st', dloop l st = .inr st' → Inv T1 T2 d st' ∧
      (Found T1 T2 st ∨ (∃ s l', l = s :: l' ∧ (s.1.1 - s.2.1).dot (s.1.1 - s.2.1) ≤ st.mindd) → Found T1 T2 st') ∧
      (0 < d → ∀ s ∈ l, ∀ r w : ℝ, 0 ≤ r → r ≤ 1 → 0 ≤ w → w ≤ 1 → d < (s.1.1 + r • s.1.2.1).dist (s.2.1 + w • s.2.2.1))
  | [], st, _, hst => ⟨fun _ h => (nomatch h), fun st' h => by cases h; exact ⟨hst, by simp, by simp⟩⟩
  | (s1, s2) :: l, st, hl, hst => by
    obtain ⟨k1, k2⟩ := hl _ (List.mem_cons_self ..)
    obtain ⟨a, b⟩ := dstep_spec hd k1 k2 hst
    simp only [dloop]
    cases hs : dstep s1 s2 st with
    | inl r => exact ⟨fun r' h => by cases h; exact a _ hs, fun st' h => nomatch h⟩
    | inr st1 =>
      simp only []
      obtain ⟨i1, f1, n1⟩ := b _ hs
      obtain ⟨c, e⟩ := dloop_spec hd l st1 (fun s h => hl s (List.mem_cons_of_mem _ h)) i1
      refine ⟨c, fun st' h => ?_⟩
      obtain ⟨i2, f2, n2⟩ := e st' h
      refine ⟨i2, fun h => f2 (.inl (f1 ?_)), fun h0 s hs => ?_⟩
      · rcases h with h | ⟨s, l', h, h'⟩
        · exact .inl h
        · cases h; exact .inr h'
      · rcases List.mem_cons.1 hs with rfl | hs
        · exact n1 h0
        · exact n2 h0 s hs

/-! ### The query -/

/-- What the query says about all triangles. -/
theorem triDist_any {thin : ℝ} (ht : 0 ≤ thin) (T1 T2 : Tri ℝ) :
    (triDist thin T1 T2).2.1 ∈ T1.pts ∧ (triDist thin T1 T2).2.2 ∈ T2.pts ∧
    (Touch T1.pts T2.pts → (triDist thin T1 T2).1 = 0) ∧
    (0 < (triDist thin T1 T2).1 → (triDist thin T1 T2).2.1.dist (triDist thin T1 T2).2.2 = (triDist thin T1 T2).1) ∧
    ((T1.nor ≠ 0 → thin < T1.nor.dot T1.nor) → (T2.nor ≠ 0 → thin < T2.nor.dot T2.nor) →
      ∀ {d p q}, IsDist T1.pts T2.pts d p q → (triDist thin T1 T2).1 = d) := by
  obtain ⟨d, p, q, hd⟩ := exists_isDist T1 T2
  have hd0 := isDist_nonneg hd
  have uniq : ∀ {d' p' q'}, IsDist T1.pts T2.pts d' p' q' → d' = d := fun h =>
    le_antisymm (by rw [← hd.attained]; exact h.least _ hd.left _ hd.right)
      (by rw [← h.attained]; exact hd.least _ h.left _ h.right)
  have exact' : ∀ {d' p' q'}, IsDist T1.pts T2.pts d' p' q' → p' ∈ T1.pts ∧ q' ∈ T2.pts ∧ (Touch T1.pts T2.pts → d' = 0) ∧
      (0 < d' → p'.dist q' = d') ∧ ((T1.nor ≠ 0 → thin < T1.nor.dot T1.nor) → (T2.nor ≠ 0 → thin < T2.nor.dot T2.nor) →
        ∀ {d p q}, IsDist T1.pts T2.pts d p q → d' = d) := fun {d' p' q'} h =>
    ⟨h.left, h.right, fun ht => (isDist_touch h).1 ht, fun _ => h.attained, fun _ _ {_ _ _} h' => (uniq h).trans (uniq h').symm⟩
  simp only [triDist, triDist2]
  obtain ⟨st, est⟩ : ∃ st : DState ℝ, st = ⟨0, 0, (T1.a - T2.a).dot (T1.a - T2.a) + 1, false, 0, 0⟩ := ⟨_, rfl⟩
  rw [← est]
  have hmin : (T1.a - T2.a).dot (T1.a - T2.a) ≤ st.mindd := by
    rw [est]
    show (T1.a - T2.a).dot (T1.a - T2.a) ≤ (T1.a - T2.a).dot (T1.a - T2.a) + 1
    linarith
  have hst : Inv T1 T2 d st := ⟨fun h => by rw [est] at h; exact absurd h Bool.false_ne_true, by
    have := hd.least T1.a (vert_mem (by simp [verts])) T2.a (vert_mem (by simp [verts]))
    rw [dist_eq] at this
    have := mul_self_le_mul_self hd0 this
    rw [nrm_mul_self] at this
    exact this.trans hmin⟩
  obtain ⟨l1, l2⟩ := dloop_spec hd (T1.sides ×ˢ T2.sides) st (fun s hs => List.mem_product.1 hs) hst
  cases hl : dloop (T1.sides ×ˢ T2.sides) st with
  | inl r => exact exact' (l1 r hl)
  | inr st' =>
    obtain ⟨i, f, n⟩ := l2 st' hl
    have hf := f (.inr ⟨((T1.a, T1.e1, T1.c), (T2.a, T2.e1, T2.c)), _, rfl, hmin⟩)
    simp only []
    cases h1 : face thin T1 T2 with
    | mk s1 o1 =>
      cases o1 with
      | some r =>
        obtain ⟨fp, y⟩ := r
        exact exact' (face_some ht (by rw [h1]))
      | none =>
        simp only []
        cases h2 : face thin T2 T1 with
        | mk s2 o2 =>
          cases o2 with
          | some r =>
            obtain ⟨fp, y⟩ := r
            have h := dist_symm (face_some ht (by rw [h2]))
            have e : (fp - y).nrm = (y - fp).nrm := by rw [← dist_eq, ← dist_eq, V3.dist_comm]
            rw [e] at h
            exact exact' h
          | none =>
            simp only []
            have ex : (T1.nor ≠ 0 → thin < T1.nor.dot T1.nor) → (T2.nor ≠ 0 → thin < T2.nor.dot T2.nor) → d = 0 := fun k1 k2 => by
              by_contra h0
              have hp : 0 < d := lt_of_le_of_ne hd0 (Ne.symm h0)
              have nn : ∀ x y, T1.OnEdge x → T2.OnEdge y → d < x.dist y := by
                rintro x y ⟨a, ha, r, r0, r1, rfl⟩ ⟨b, hb, w, w0, w1, rfl⟩
                exact n hp (a, b) (List.mem_product.2 ⟨ha, hb⟩) r w r0 r1 w0 w1
              rcases complete k1 k2 hd hp nn with ⟨r, h⟩ | ⟨r, h⟩
              · rw [h1] at h; cases h
              · rw [h2] at h; cases h
            by_cases hs : (st'.shown || s1 || s2) = true
            · rw [if_pos hs]
              have hn : ¬Touch T1.pts T2.pts := by
                simp only [Bool.or_eq_true] at hs
                rcases hs with (h | h) | h
                · exact i.shown h
                · exact face_sep (by rw [h1]; exact h)
                · exact fun h' => face_sep (by rw [h2]; exact h) (touch_symm.1 h')
              refine ⟨hf.minP, hf.minQ, fun h => absurd h hn, fun _ => ?_, fun k1 k2 => ?_⟩
              · rw [dist_eq, hf.mindd]; rfl
              · exact absurd ((isDist_touch hd).2 (ex k1 k2)) hn
            · rw [if_neg hs]
              refine ⟨hf.P, hf.Q, fun _ => Real.sqrt_zero, fun h => ?_, fun k1 k2 {_ _ _} h => ?_⟩
              · rw [Real.sqrt_zero] at h; exact absurd h (lt_irrefl _)
              · rw [Real.sqrt_zero, uniq h, ex k1 k2]

end Tri
end Fcl
