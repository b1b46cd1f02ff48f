import Verif.Motion.TriCcd
import Verif.BVH.TriDistLemmas

/-!
# Where two moving triangles touch for the first time
-/

namespace Fcl
namespace TriCcd
open V3

/-! ### The first time at which finitely many linear inequalities hold -/

theorem first_time {t1 : ℝ} (ht : 0 ≤ t1) : ∀ l : List (ℝ × ℝ), (∃ p ∈ l, 0 < p.1) → (∀ p ∈ l, p.1 + t1 * p.2 ≤ 0) →
    ∃ t, 0 ≤ t ∧ t ≤ t1 ∧ (∀ p ∈ l, p.1 + t * p.2 ≤ 0) ∧ ∃ p ∈ l, 0 < p.1 ∧ p.1 + t * p.2 = 0 := by
  have conv : ∀ {s t : ℝ} {p : ℝ × ℝ}, p.1 + s * p.2 ≤ 0 → p.1 + t1 * p.2 ≤ 0 → s ≤ t → t ≤ t1 → p.1 + t * p.2 ≤ 0 := by
    intro s t p h1 h2 h3 h4
    rcases le_total 0 p.2 with h | h
    · nlinarith [mul_le_mul_of_nonneg_right h4 h]
    · nlinarith [mul_le_mul_of_nonpos_right h3 h]
  intro l
  induction l with
  | nil => rintro ⟨p, hp, -⟩; simp at hp
  | cons p l ih =>
    intro hpos hall
    have hp1 := hall p (by simp)
    have hl := fun q hq => hall q (List.mem_cons_of_mem _ hq)
    by_cases hp : 0 < p.1
    · have hneg : p.2 < 0 := by
        by_contra hc
        have := mul_nonneg ht (not_lt.1 hc)
        linarith
      have htp : p.1 + (p.1 / -p.2) * p.2 = 0 := by
        have : p.2 ≠ 0 := hneg.ne
        field_simp
        ring
      have htp0 : 0 ≤ p.1 / -p.2 := div_nonneg hp.le (by linarith)
      have htp1 : p.1 / -p.2 ≤ t1 := by
        rw [div_le_iff₀ (by linarith)]
        linarith
      set tp := p.1 / -p.2
      by_cases hex : ∃ q ∈ l, 0 < q.1
      · obtain ⟨t, h0, h1, h2, q, hq, hq1, hq2⟩ := ih hex hl
        rcases le_total tp t with hc | hc
        · refine ⟨t, h0, h1, ?_, q, List.mem_cons_of_mem _ hq, hq1, hq2⟩
          intro x hx
          rcases List.mem_cons.1 hx with rfl | hx
          · exact conv htp.le hp1 hc h1
          · exact h2 x hx
        · refine ⟨tp, htp0, htp1, ?_, p, by simp, hp, htp⟩
          intro x hx
          rcases List.mem_cons.1 hx with rfl | hx
          · exact htp.le
          · exact conv (h2 x hx) (hl x hx) hc htp1
      · refine ⟨tp, htp0, htp1, ?_, p, by simp, hp, htp⟩
        intro x hx
        rcases List.mem_cons.1 hx with rfl | hx
        · exact htp.le
        · exact conv (s := 0) (by simpa using not_lt.1 fun h => hex ⟨x, hx, h⟩) (hl x hx) htp0 htp1
    · obtain ⟨q, hq, hq1⟩ := hpos
      rcases List.mem_cons.1 hq with rfl | hq
      · exact absurd hq1 hp
      · obtain ⟨t, h0, h1, h2, q, hq, hq1, hq2⟩ := ih ⟨q, hq, hq1⟩ hl
        refine ⟨t, h0, h1, ?_, q, List.mem_cons_of_mem _ hq, hq1, hq2⟩
        intro x hx
        rcases List.mem_cons.1 hx with rfl | hx
        · exact conv (s := 0) (by simpa using not_lt.1 hp) hp1 h0 h1
        · exact h2 x hx

/-! ### Vectors -/

theorem lagrange (a b c d : V3 ℝ) : (a.cross b).dot (c.cross d) = a.dot c * b.dot d - a.dot d * b.dot c := by
  simp only [dot, cross]; ring

theorem zero_dot (a : V3 ℝ) : (0 : V3 ℝ).dot a = 0 := by simp [dot]

theorem parallel_ne {n N v : V3 ℝ} (h : n.cross N = 0) (hn : n.dot v ≠ 0) (hN : N ≠ 0) : N.dot v ≠ 0 := by
  intro h0
  have := lagrange n N v N
  rw [h, zero_dot, show N.dot v = 0 from h0, mul_zero, sub_zero] at this
  rcases mul_eq_zero.1 this.symm with h | h
  · exact hn h
  · exact hN (dot_self_eq_zero h)

theorem parallel_zero {n N w : V3 ℝ} (h : n.cross N = 0) (hn : n ≠ 0) (hw : n.dot w = 0) : N.dot w = 0 := by
  have := lagrange n N n w
  rw [h, zero_dot, hw, zero_mul, sub_zero] at this
  rcases mul_eq_zero.1 this.symm with h | h
  · exact absurd (dot_self_eq_zero h) hn
  · exact h

/-- A vector orthogonal to two others is parallel to their product. -/
theorem cross_cross_zero {n e f : V3 ℝ} (he : n.dot e = 0) (hf : n.dot f = 0) : n.cross (e.cross f) = 0 := by
  simp only [dot] at he hf
  apply V3.ext' <;> simp only [cross, zero_x, zero_y, zero_z]
  · linear_combination e.x * hf - f.x * he
  · linear_combination e.y * hf - f.y * he
  · linear_combination e.z * hf - f.z * he

theorem cross_zero_trans {m A B : V3 ℝ} (hm : m ≠ 0) (hA : m.cross A = 0) (hB : m.cross B = 0) : A.cross B = 0 := by
  by_contra h
  have h1 : ∀ w : V3 ℝ, m.dot w = 0 → A.dot w = 0 := fun w => parallel_zero hA hm
  have h2 : ∀ w : V3 ℝ, m.dot w = 0 → B.dot w = 0 := fun w => parallel_zero hB hm
  have hmm : m.dot m ≠ 0 := fun h => hm (dot_self_eq_zero h)
  have e1 : ∀ X : V3 ℝ, m.cross X = 0 → (m.dot m) • X = (m.dot X) • m := by
    intro X hX
    have a := congrArg V3.x hX
    have b := congrArg V3.y hX
    have c := congrArg V3.z hX
    simp only [cross, zero_x, zero_y, zero_z] at a b c
    apply V3.ext' <;> simp only [smul_x, smul_y, smul_z, dot]
    · linear_combination m.z * b - m.y * c
    · linear_combination m.x * c - m.z * a
    · linear_combination m.y * a - m.x * b
  apply h
  have eA := e1 A hA
  have eB := e1 B hB
  have key : (m.dot m * m.dot m) • A.cross B = 0 := by
    rw [← Tri.cross_smul, eA, eB, Tri.cross_smul]
    apply V3.ext' <;> simp [cross] <;> ring_nf <;> simp
  have hk : m.dot m * m.dot m ≠ 0 := mul_ne_zero hmm hmm
  have a := congrArg V3.x key
  have b := congrArg V3.y key
  have c := congrArg V3.z key
  simp only [smul_x, smul_y, smul_z, zero_x, zero_y, zero_z, mul_eq_zero, hk, false_or] at a b c
  exact V3.ext' a b c

/-! ### Contacts of features -/

/-- The point is on the segment. -/
def OnSeg (e : V3 ℝ × V3 ℝ) (z : V3 ℝ) : Prop := ∃ k : ℝ, 0 ≤ k ∧ k ≤ 1 ∧ z = e.1 + k • (e.2 - e.1)

/-- A vertex of one triangle is on the other one and leaves its plane with the relative velocity `v`, or two edges meet and leave their
common plane. -/
def Hit (S T : Tri ℝ) (v : V3 ℝ) : Prop :=
  (∃ q ∈ T.verts, q ∈ S.pts ∧ S.nor.dot v ≠ 0) ∨ (∃ q ∈ S.verts, q ∈ T.pts ∧ T.nor.dot v ≠ 0) ∨
  ∃ e ∈ sides S, ∃ f ∈ sides T, ∃ z, OnSeg e z ∧ OnSeg f z ∧ ((e.2 - e.1).cross (f.2 - f.1)).dot v ≠ 0

theorem Hit.symm {S T : Tri ℝ} {v : V3 ℝ} (h : Hit S T v) : Hit T S v := by
  rcases h with h | h | ⟨e, he, f, hf, z, h1, h2, h3⟩
  · exact .inr (.inl h)
  · exact .inl h
  · refine .inr (.inr ⟨f, hf, e, he, z, h2, h1, fun h => h3 ?_⟩)
    simp only [dot, cross] at h ⊢
    linear_combination -h

theorem side_pts {S : Tri ℝ} {e : V3 ℝ × V3 ℝ} (he : e ∈ sides S) {z : V3 ℝ} (hz : OnSeg e z) : z ∈ S.pts := by
  obtain ⟨k, h0, h1, rfl⟩ := hz
  have hv : e.1 ∈ S.verts ∧ e.2 ∈ S.verts := by
    simp only [sides, List.mem_cons, List.not_mem_nil, or_false] at he
    rcases he with rfl | rfl | rfl <;> simp [Tri.verts]
  have := HullOf.seg k h0 h1 (Tri.vert_mem hv.1 : HullOf [S.a, S.b, S.c] _) (Tri.vert_mem hv.2)
  have e' : (1 - k) • e.1 + k • e.2 = e.1 + k • (e.2 - e.1) := by v3
  rw [e'] at this
  exact this

theorem side_verts {S : Tri ℝ} {e : V3 ℝ × V3 ℝ} (he : e ∈ sides S) : e.1 ∈ S.verts ∧ e.2 ∈ S.verts := by
  simp only [sides, List.mem_cons, List.not_mem_nil, or_false] at he
  rcases he with rfl | rfl | rfl <;> simp [Tri.verts]

theorem side_nor {S : Tri ℝ} {e : V3 ℝ × V3 ℝ} (he : e ∈ sides S) : S.nor.dot (e.2 - e.1) = 0 := by
  simp only [sides, List.mem_cons, List.not_mem_nil, or_false] at he
  rcases he with rfl | rfl | rfl <;> simp only [Tri.nor, Tri.e1, Tri.e2, dot, cross, sub_x, sub_y, sub_z] <;> ring

/-- A point of a triangle with weights one of which is zero is on a side. -/
theorem weights_side {S : Tri ℝ} {α β γ : ℝ} (ha : 0 ≤ α) (hb : 0 ≤ β) (hc : 0 ≤ γ) (hs : α + β + γ = 1)
    (h0 : α = 0 ∨ β = 0 ∨ γ = 0) : ∃ e ∈ sides S, OnSeg e (α • S.a + β • S.b + γ • S.c) := by
  rcases h0 with h | h | h
  · refine ⟨(S.b, S.c), by simp [sides], γ, hc, by linarith, ?_⟩
    have : β = 1 - γ := by linarith
    rw [h, this]; v3
  · refine ⟨(S.c, S.a), by simp [sides], α, ha, by linarith, ?_⟩
    have : γ = 1 - α := by linarith
    rw [h, this]; v3
  · refine ⟨(S.a, S.b), by simp [sides], β, hb, by linarith, ?_⟩
    have : α = 1 - β := by linarith
    rw [h, this]; v3

/-- On the way from a point of a triangle to a point of its plane outside there is a point of a side. -/
theorem exit {S : Tri ℝ} (hS : S.nor ≠ 0) {z q : V3 ℝ} (hz : z ∈ S.pts) (hq : (q - S.a).dot S.nor = 0) (hn : q ∉ S.pts) :
    ∃ e ∈ sides S, ∃ s : ℝ, 0 ≤ s ∧ s ≤ 1 ∧ OnSeg e (q + s • (z - q)) := by
  obtain ⟨α, β, γ, ha, hb, hc, hs, rfl⟩ := Tri.pts_comb hz
  have eq := Tri.bary' hS hq
  have hsum : (q - S.b).dot (S.nor.cross S.e2) / S.nor.dot S.nor + (q - S.c).dot (S.nor.cross S.e3) / S.nor.dot S.nor +
      (q - S.a).dot (S.nor.cross S.e1) / S.nor.dot S.nor = 1 := by
    rw [← add_div, ← add_div, Tri.bary_sum, div_self (Tri.nor_pos hS).ne']
  revert eq hsum
  generalize (q - S.b).dot (S.nor.cross S.e2) / S.nor.dot S.nor = α'
  generalize (q - S.c).dot (S.nor.cross S.e3) / S.nor.dot S.nor = β'
  generalize (q - S.a).dot (S.nor.cross S.e1) / S.nor.dot S.nor = γ'
  rintro rfl hsum
  obtain ⟨s, h0, h1, hall, p, hp, -, hp0⟩ := first_time (t1 := 1) zero_le_one [(-α', α' - α), (-β', β' - β), (-γ', γ' - γ)] (by
      by_contra hc'
      apply hn
      simp only [List.mem_cons, List.not_mem_nil, or_false, not_exists, not_and, not_lt] at hc'
      have k1 := hc' (-α', α' - α) (by simp)
      have k2 := hc' (-β', β' - β) (by simp)
      have k3 := hc' (-γ', γ' - γ) (by simp)
      exact (hull_triangle _ _ _ _).2 ⟨α', β', γ', by simpa using k1, by simpa using k2, by simpa using k3, hsum, rfl⟩) (by
      simp only [List.mem_cons, List.not_mem_nil, or_false]
      rintro p (rfl | rfl | rfl) <;> simp <;> assumption)
  have k1 := hall (-α', α' - α) (by simp)
  have k2 := hall (-β', β' - β) (by simp)
  have k3 := hall (-γ', γ' - γ) (by simp)
  simp only at k1 k2 k3
  obtain ⟨e, he, hon⟩ := weights_side (S := S) (α := α' + s * (α - α')) (β := β' + s * (β - β')) (γ := γ' + s * (γ - γ'))
    (by linarith) (by linarith) (by linarith) (by linear_combination (1 - s) * hsum + s * hs) (by
      simp only [List.mem_cons, List.not_mem_nil, or_false] at hp
      rcases hp with rfl | rfl | rfl <;> simp only at hp0
      · exact .inl (by linarith)
      · exact .inr (.inl (by linarith))
      · exact .inr (.inr (by linarith)))
  refine ⟨e, he, s, h0, h1, ?_⟩
  convert hon using 1
  v3

/-- The part of a triangle that is least in a direction: the whole triangle, a side, or a vertex. -/
theorem face {S : Tri ℝ} {n z : V3 ℝ} (hz : z ∈ S.pts) (h : ∀ x ∈ S.verts, n.dot z ≤ n.dot x) :
    (∀ x ∈ S.verts, n.dot x = n.dot z) ∨ (∃ e ∈ sides S, OnSeg e z ∧ n.dot (e.2 - e.1) = 0) ∨ z ∈ S.verts := by
  obtain ⟨α, β, γ, ha, hb, hc, hs, rfl⟩ := Tri.pts_comb hz
  set z := α • S.a + β • S.b + γ • S.c with hzd
  have e : α * (n.dot S.a - n.dot z) + β * (n.dot S.b - n.dot z) + γ * (n.dot S.c - n.dot z) = 0 := by
    have : n.dot z = α * n.dot S.a + β * n.dot S.b + γ * n.dot S.c := by
      rw [hzd]; simp only [dot, add_x, add_y, add_z, smul_x, smul_y, smul_z]; ring
    rw [this]
    linear_combination -(α * n.dot S.a + β * n.dot S.b + γ * n.dot S.c) * hs
  have na := mul_nonneg ha (sub_nonneg.2 (h S.a (by simp [Tri.verts])))
  have nb := mul_nonneg hb (sub_nonneg.2 (h S.b (by simp [Tri.verts])))
  have nc := mul_nonneg hc (sub_nonneg.2 (h S.c (by simp [Tri.verts])))
  have za : α * (n.dot S.a - n.dot z) = 0 := by linarith
  have zb : β * (n.dot S.b - n.dot z) = 0 := by linarith
  have zc : γ * (n.dot S.c - n.dot z) = 0 := by linarith
  rw [mul_eq_zero, sub_eq_zero] at za zb zc
  have seg : ∀ x y : V3 ℝ, n.dot x = n.dot z → n.dot y = n.dot z → n.dot (y - x) = 0 := by
    intro x y hx hy
    have : n.dot (y - x) = n.dot y - n.dot x := by simp only [dot, sub_x, sub_y, sub_z]; ring
    rw [this, hx, hy, _root_.sub_self]
  rcases za with za | za
  · rcases zb with zb | zb
    · right; right
      have : γ = 1 := by linarith
      rw [hzd, za, zb, this]
      have : (0 : ℝ) • S.a + (0 : ℝ) • S.b + (1 : ℝ) • S.c = S.c := by v3
      rw [this]; simp [Tri.verts]
    · rcases zc with zc | zc
      · right; right
        have : β = 1 := by linarith
        rw [hzd, za, zc, this]
        have : (0 : ℝ) • S.a + (1 : ℝ) • S.b + (0 : ℝ) • S.c = S.b := by v3
        rw [this]; simp [Tri.verts]
      · right; left
        refine ⟨(S.b, S.c), by simp [sides], ⟨γ, hc, by linarith, ?_⟩, seg _ _ zb zc⟩
        have : β = 1 - γ := by linarith
        rw [hzd, za, this]; v3
  · rcases zb with zb | zb
    · rcases zc with zc | zc
      · right; right
        have : α = 1 := by linarith
        rw [hzd, zb, zc, this]
        have : (1 : ℝ) • S.a + (0 : ℝ) • S.b + (0 : ℝ) • S.c = S.a := by v3
        rw [this]; simp [Tri.verts]
      · right; left
        refine ⟨(S.c, S.a), by simp [sides], ⟨α, ha, by linarith, ?_⟩, seg _ _ zc za⟩
        have : γ = 1 - α := by linarith
        rw [hzd, zb, this]; v3
    · rcases zc with zc | zc
      · right; left
        refine ⟨(S.a, S.b), by simp [sides], ⟨β, hb, by linarith, ?_⟩, seg _ _ za zb⟩
        have : α = 1 - β := by linarith
        rw [hzd, zc, this]; v3
      · left
        intro x hx
        simp only [Tri.verts, List.mem_cons, List.not_mem_nil, or_false] at hx
        rcases hx with rfl | rfl | rfl <;> assumption

/-- The two sides at a vertex. -/
theorem vertex_sides {T : Tri ℝ} {q : V3 ℝ} (hq : q ∈ T.verts) :
    ∃ f ∈ sides T, ∃ g ∈ sides T, OnSeg f q ∧ OnSeg g q ∧ (f.2 - f.1).cross (g.2 - g.1) = T.nor := by
  have beg : ∀ a b : V3 ℝ, OnSeg (a, b) a := fun a b => ⟨0, le_rfl, zero_le_one, by v3⟩
  have fin : ∀ a b : V3 ℝ, OnSeg (a, b) b := fun a b => ⟨1, zero_le_one, le_rfl, by v3⟩
  simp only [Tri.verts, List.mem_cons, List.not_mem_nil, or_false] at hq
  rcases hq with rfl | rfl | rfl
  · exact ⟨(T.c, T.a), by simp [sides], (T.a, T.b), by simp [sides], fin _ _, beg _ _, by simp only [Tri.nor, Tri.e1, Tri.e2, cross]; v3⟩
  · exact ⟨(T.a, T.b), by simp [sides], (T.b, T.c), by simp [sides], fin _ _, beg _ _, by simp only [Tri.nor, Tri.e1, Tri.e2, cross]⟩
  · exact ⟨(T.b, T.c), by simp [sides], (T.c, T.a), by simp [sides], fin _ _, beg _ _, by simp only [Tri.nor, Tri.e1, Tri.e2, cross]; v3⟩

variable {S T : Tri ℝ} {v n z : V3 ℝ}

/-- A side of one triangle at a vertex of the other. -/
theorem hit_edge_vertex (hpar : S.nor.cross T.nor ≠ 0) (h0 : S.nor.dot v = 0) {e : V3 ℝ × V3 ℝ} (he : e ∈ sides S) (hz : OnSeg e z)
    (hv : v.cross (e.2 - e.1) ≠ 0) (hq : z ∈ T.verts) : Hit S T v := by
  obtain ⟨f, hf, g, hg, zf, zg, e1⟩ := vertex_sides hq
  by_contra hn
  have h1 : ((e.2 - e.1).cross (f.2 - f.1)).dot v = 0 := by
    by_contra h; exact hn (.inr (.inr ⟨e, he, f, hf, z, hz, zf, h⟩))
  have h2 : ((e.2 - e.1).cross (g.2 - g.1)).dot v = 0 := by
    by_contra h; exact hn (.inr (.inr ⟨e, he, g, hg, z, hz, zg, h⟩))
  have k1 : (v.cross (e.2 - e.1)).cross T.nor = 0 := by
    rw [← e1]
    refine cross_cross_zero ?_ ?_
    · rw [← h1]; simp only [dot, cross]; ring
    · rw [← h2]; simp only [dot, cross]; ring
  have k2 : (v.cross (e.2 - e.1)).cross S.nor = 0 := by
    have := cross_cross_zero h0 (side_nor he)
    have a := congrArg V3.x this
    have b := congrArg V3.y this
    have c := congrArg V3.z this
    simp only [cross, zero_x, zero_y, zero_z] at a b c
    apply V3.ext' <;> simp only [cross, zero_x, zero_y, zero_z]
    · linear_combination -a
    · linear_combination -b
    · linear_combination -c
  exact hpar (cross_zero_trans hv k2 k1)

theorem cross_ne_of_dot {e : V3 ℝ} (hn : n.dot v ≠ 0) (he : n.dot e = 0) (h : e ≠ 0) : v.cross e ≠ 0 := by
  intro h0
  have a := congrArg V3.x h0
  have b := congrArg V3.y h0
  have c := congrArg V3.z h0
  simp only [cross, zero_x, zero_y, zero_z] at a b c
  apply h
  simp only [dot] at he hn
  have k : ∀ t : ℝ, (n.x * v.x + n.y * v.y + n.z * v.z) * t = 0 → t = 0 := fun t ht => (mul_eq_zero.1 ht).resolve_left hn
  apply V3.ext' <;> simp only [zero_x, zero_y, zero_z] <;> apply k
  · linear_combination v.x * he - n.y * c + n.z * b
  · linear_combination v.y * he + n.x * c - n.z * a
  · linear_combination v.z * he - n.x * b + n.y * a

theorem nor_of_face (h : ∀ x ∈ S.verts, n.dot x = n.dot z) : n.cross S.nor = 0 := by
  refine cross_cross_zero ?_ ?_
  · have h1 := h S.a (by simp [Tri.verts])
    have h2 := h S.b (by simp [Tri.verts])
    simp only [Tri.e1, dot, sub_x, sub_y, sub_z] at h1 h2 ⊢
    linear_combination h2 - h1
  · have h1 := h S.b (by simp [Tri.verts])
    have h2 := h S.c (by simp [Tri.verts])
    simp only [Tri.e2, dot, sub_x, sub_y, sub_z] at h1 h2 ⊢
    linear_combination h2 - h1

/-- A triangle and a side of the other in its plane. -/
theorem hit_face_edge (hS : S.nor ≠ 0) (hcr : ∀ e ∈ sides S, ∀ f ∈ sides T, (e.2 - e.1).cross (f.2 - f.1) ≠ 0) (hz : z ∈ S.pts)
    (hn : n.dot v ≠ 0) (hface : ∀ x ∈ S.verts, n.dot x = n.dot z) {f : V3 ℝ × V3 ℝ} (hf : f ∈ sides T) (hzf : OnSeg f z)
    (hnf : n.dot (f.2 - f.1) = 0) : Hit S T v := by
  have hpar := nor_of_face hface
  have hn0 : n ≠ 0 := fun h => hn (by rw [h, zero_dot])
  by_cases hin : f.1 ∈ S.pts
  · exact .inl ⟨f.1, (side_verts hf).1, hin, parallel_ne hpar hn hS⟩
  · obtain ⟨k, k0, k1, rfl⟩ := hzf
    have hpl : (f.1 - S.a).dot S.nor = 0 := by
      rw [dot_comm]
      refine parallel_zero hpar hn0 ?_
      have := hface S.a (by simp [Tri.verts])
      simp only [dot, sub_x, sub_y, sub_z, add_x, add_y, add_z, smul_x, smul_y, smul_z] at this hnf ⊢
      linear_combination -this - k * hnf
    obtain ⟨e, he, s, s0, s1, hon⟩ := exit hS hz hpl hin
    refine .inr (.inr ⟨e, he, f, hf, _, hon, ⟨s * k, mul_nonneg s0 k0, mul_le_one₀ s1 k0 k1, by v3⟩, ?_⟩)
    refine parallel_ne (cross_cross_zero ?_ hnf) hn (hcr e he f hf)
    have h1 := hface _ (side_verts he).1
    have h2 := hface _ (side_verts he).2
    have : n.dot (e.2 - e.1) = n.dot e.2 - n.dot e.1 := by simp only [dot, sub_x, sub_y, sub_z]; ring
    rw [this, h1, h2, _root_.sub_self]

/-- Two triangles in one plane. -/
theorem hit_face_face (hS : S.nor ≠ 0) (hT : T.nor ≠ 0) (hcr : ∀ e ∈ sides S, ∀ f ∈ sides T, (e.2 - e.1).cross (f.2 - f.1) ≠ 0)
    (hz : z ∈ S.pts) (hz' : z ∈ T.pts) (hn : n.dot v ≠ 0) (hface : ∀ x ∈ S.verts, n.dot x = n.dot z)
    (hface' : ∀ x ∈ T.verts, n.dot x = n.dot z) : Hit S T v := by
  have hpar := nor_of_face hface
  have hn0 : n ≠ 0 := fun h => hn (by rw [h, zero_dot])
  by_cases hin : T.a ∈ S.pts
  · exact .inl ⟨T.a, by simp [Tri.verts], hin, parallel_ne hpar hn hS⟩
  · have ha := hface' T.a (by simp [Tri.verts])
    have hpl : (T.a - S.a).dot S.nor = 0 := by
      rw [dot_comm]
      refine parallel_zero hpar hn0 ?_
      have := hface S.a (by simp [Tri.verts])
      simp only [dot, sub_x, sub_y, sub_z] at this ha ⊢
      linear_combination ha - this
    obtain ⟨e, he, s, s0, s1, hon⟩ := exit hS hz hpl hin
    have hw : T.a + s • (z - T.a) ∈ T.pts := by
      have := HullOf.seg s s0 s1 (Tri.vert_mem (p := T) (x := T.a) (by simp [Tri.verts]) : HullOf [T.a, T.b, T.c] _) hz'
      have e' : (1 - s) • T.a + s • z = T.a + s • (z - T.a) := by v3
      rw [e'] at this
      exact this
    have hwn : n.dot (T.a + s • (z - T.a)) = n.dot z := by
      simp only [dot, sub_x, sub_y, sub_z, add_x, add_y, add_z, smul_x, smul_y, smul_z] at ha ⊢
      linear_combination (1 - s) * ha
    refine (hit_face_edge (S := T) (T := S) (n := n) hT (fun f hf e he h => hcr e he f hf ?_) hw hn (fun x hx => ?_) he hon ?_).symm
    · have a := congrArg V3.x h
      have b := congrArg V3.y h
      have c := congrArg V3.z h
      simp only [cross, zero_x, zero_y, zero_z] at a b c
      apply V3.ext' <;> simp only [cross, zero_x, zero_y, zero_z]
      · linear_combination -a
      · linear_combination -b
      · linear_combination -c
    · rw [hface' x hx, hwn]
    · have h1 := hface _ (side_verts he).1
      have h2 := hface _ (side_verts he).2
      have : n.dot (e.2 - e.1) = n.dot e.2 - n.dot e.1 := by simp only [dot, sub_x, sub_y, sub_z]; ring
      rw [this, h1, h2, _root_.sub_self]

/-- Two triangles on different sides of a plane that touch, with a relative velocity that is not along this plane: two of their features
touch, and the velocity is not along the plane of these. -/
theorem hit_of_touch (hS : S.nor ≠ 0) (hT : T.nor ≠ 0) (hcr : ∀ e ∈ sides S, ∀ f ∈ sides T, (e.2 - e.1).cross (f.2 - f.1) ≠ 0)
    (hpar : S.nor.cross T.nor ≠ 0 ∨ S.nor.dot v ≠ 0) (hz : z ∈ S.pts) (hz' : z ∈ T.pts) (hn : n.dot v ≠ 0)
    (h1 : ∀ x ∈ S.verts, n.dot z ≤ n.dot x) (h2 : ∀ x ∈ T.verts, n.dot x ≤ n.dot z) : Hit S T v := by
  have neg : ∀ x : V3 ℝ, (-n).dot x = -n.dot x := fun x => by simp only [dot, neg_x, neg_y, neg_z]; ring
  have hcr' : ∀ f ∈ sides T, ∀ e ∈ sides S, (f.2 - f.1).cross (e.2 - e.1) ≠ 0 := by
    intro f hf e he h
    apply hcr e he f hf
    have a := congrArg V3.x h
    have b := congrArg V3.y h
    have c := congrArg V3.z h
    simp only [cross, zero_x, zero_y, zero_z] at a b c
    apply V3.ext' <;> simp only [cross, zero_x, zero_y, zero_z]
    · linear_combination -a
    · linear_combination -b
    · linear_combination -c
  have hpar' : T.nor.dot v = 0 → S.nor.dot v = 0 → T.nor.cross S.nor ≠ 0 := by
    intro _ h0 h
    rcases hpar with hp | hp
    · apply hp
      have a := congrArg V3.x h
      have b := congrArg V3.y h
      have c := congrArg V3.z h
      simp only [cross, zero_x, zero_y, zero_z] at a b c
      apply V3.ext' <;> simp only [cross, zero_x, zero_y, zero_z]
      · linear_combination -a
      · linear_combination -b
      · linear_combination -c
    · exact hp h0
  -- an edge of one at a vertex of the other
  have EV : ∀ e ∈ sides S, OnSeg e z → n.dot (e.2 - e.1) = 0 → z ∈ T.verts → Hit S T v := by
    intro e he hon hne hq
    by_cases h0 : S.nor.dot v = 0
    · refine hit_edge_vertex (hpar.resolve_right fun h => h h0) h0 he hon (cross_ne_of_dot hn hne ?_) hq
      intro h
      obtain ⟨f, hf, -⟩ := vertex_sides hq
      refine hcr e he f hf ?_
      rw [h]
      apply V3.ext' <;> simp [cross]
    · exact .inl ⟨z, hq, hz, h0⟩
  have VE : ∀ f ∈ sides T, OnSeg f z → n.dot (f.2 - f.1) = 0 → z ∈ S.verts → Hit S T v := by
    intro f hf hon hne hq
    by_cases h0 : T.nor.dot v = 0
    · by_cases h0' : S.nor.dot v = 0
      · refine (hit_edge_vertex (S := T) (T := S) (hpar' h0 h0') h0 hf hon (cross_ne_of_dot hn hne ?_) hq).symm
        intro h
        obtain ⟨e, he, -⟩ := vertex_sides hq
        refine hcr e he f hf ?_
        rw [h]
        apply V3.ext' <;> simp [cross]
      · -- the planes may be parallel: the vertex is on `S` as well
        by_cases hq' : f.1 = z
        · exact .inl ⟨z, hq' ▸ (side_verts hf).1, hz, h0'⟩
        · by_cases hp : T.nor.cross S.nor = 0
          · exact absurd h0 (parallel_ne (by
              have a := congrArg V3.x hp
              have b := congrArg V3.y hp
              have c := congrArg V3.z hp
              simp only [cross, zero_x, zero_y, zero_z] at a b c
              apply V3.ext' <;> simp only [cross, zero_x, zero_y, zero_z]
              · linear_combination -a
              · linear_combination -b
              · linear_combination -c) h0' hT)
          · refine (hit_edge_vertex (S := T) (T := S) hp h0 hf hon (cross_ne_of_dot hn hne ?_) hq).symm
            intro h
            obtain ⟨e, he, -⟩ := vertex_sides hq
            refine hcr e he f hf ?_
            rw [h]
            apply V3.ext' <;> simp [cross]
    · exact .inr (.inl ⟨z, hq, hz', h0⟩)
  rcases face hz h1 with fS | ⟨e, he, hon, hne⟩ | fS
  · have hSv := parallel_ne (nor_of_face fS) hn hS
    rcases face (n := -n) hz' (fun x hx => by rw [neg, neg]; linarith [h2 x hx]) with fT | ⟨f, hf, hon, hne⟩ | fT
    · exact hit_face_face hS hT hcr hz hz' hn fS fun x hx => by have := fT x hx; rw [neg, neg] at this; linarith
    · exact hit_face_edge hS hcr hz hn fS hf hon (by rw [neg] at hne; linarith)
    · exact .inl ⟨z, fT, hz, hSv⟩
  · rcases face (n := -n) hz' (fun x hx => by rw [neg, neg]; linarith [h2 x hx]) with fT | ⟨f, hf, honf, hnf⟩ | fT
    · exact (hit_face_edge (S := T) (T := S) (n := n) hT hcr' hz' hn
        (fun x hx => by have := fT x hx; rw [neg, neg] at this; linarith) he hon hne).symm
    · rw [neg, neg_eq_zero] at hnf
      exact .inr (.inr ⟨e, he, f, hf, z, hon, honf, parallel_ne (cross_cross_zero hne hnf) hn (hcr e he f hf)⟩)
    · exact EV e he hon hne fT
  · rcases face (n := -n) hz' (fun x hx => by rw [neg, neg]; linarith [h2 x hx]) with fT | ⟨f, hf, honf, hnf⟩ | fT
    · exact .inr (.inl ⟨z, fS, hz', parallel_ne (nor_of_face fun x hx => by
        have := fT x hx; rw [neg, neg] at this; linarith) hn hT⟩)
    · rw [neg, neg_eq_zero] at hnf
      exact VE f hf honf hnf fS
    · -- two vertices
      by_cases h0 : S.nor.dot v = 0
      · obtain ⟨e, he, g, hg, ze, zg, eg⟩ := vertex_sides fS
        have hp := hpar.resolve_right fun h => h h0
        by_cases h3 : v.cross (e.2 - e.1) = 0
        · by_cases h4 : v.cross (g.2 - g.1) = 0
          · have hv0 : v ≠ 0 := fun h => hn (by rw [h]; simp [dot])
            exact absurd (eg ▸ cross_zero_trans hv0 h3 h4) hS
          · exact hit_edge_vertex hp h0 hg zg h4 fT
        · exact hit_edge_vertex hp h0 he ze h3 fT
      · exact .inl ⟨z, fT, hz, h0⟩

end TriCcd
end Fcl
