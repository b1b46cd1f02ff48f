import Verif.Ccd.EpaLemmas
import Verif.Props.PolytopeEx

/-!
# The first polytope of the algorithm
-/

namespace Fcl
namespace Pt

open V3 Ccd

variable {s : Bool} {a b c d : SP} {A B : Set (V3 ℝ)}

/-- The vertex opposite to a face. -/
def opp : ℕ → ℕ
  | 0 => 3
  | 1 => 2
  | 2 => 0
  | _ => 1

theorem tetra_pos0 : (tetra s a b c d).bare.pos 0 = a.v := rfl
theorem tetra_pos1 : (tetra s a b c d).bare.pos 1 = b.v := rfl
theorem tetra_pos2 : (tetra s a b c d).bare.pos 2 = c.v := rfl
theorem tetra_pos3 : (tetra s a b c d).bare.pos 3 = d.v := rfl

theorem tetra_closed : Closed (tetra s a b c d).bare := by
  have : closedB [a.v, b.v, c.v, d.v].length (tetraE s) tetraF = true := by cases s <;> rfl
  have h := closed_of this
  cases s <;> exact h

theorem tetra_end {w e : ℕ} (h : (tetra s a b c d).bare.End w e) : w < 4 := tetra_closed.end_lt h

theorem tetra_side {e f : ℕ} (h : (tetra s a b c d).bare.Side e f) : f < 4 ∧ e < 6 := by
  obtain ⟨fc, h1, h2⟩ := h
  have hf : f < 4 := (List.getElem?_eq_some_iff.1 h1).1
  refine ⟨hf, ?_⟩
  interval_cases f <;> (cases h1; simp [Face.edges] at h2; omega)

theorem tetra_corner {w f : ℕ} (h : (tetra s a b c d).bare.Corner w f) : f < 4 ∧ w < 4 ∧ w ≠ opp f := by
  obtain ⟨e, hs, he⟩ := h
  obtain ⟨hf, hl⟩ := tetra_side hs
  refine ⟨hf, tetra_end he, ?_⟩
  obtain ⟨fc, h1, h2⟩ := hs
  obtain ⟨ed, h3, h4⟩ := he
  cases s <;> interval_cases f <;> cases h1 <;> simp only [Face.edges, List.mem_cons, List.not_mem_nil, or_false] at h2 <;>
    rcases h2 with rfl | rfl | rfl <;> cases h3 <;> simp only [opp] at h4 ⊢ <;> omega

theorem tetra_corner_of {w f : ℕ} (hf : f < 4) (hw : w < 4) (h : w ≠ opp f) : (tetra s a b c d).bare.Corner w f := by
  have mk : ∀ {e f w : ℕ} (fc : Face) (ed : Edge), tetraF[f]? = some fc → e ∈ fc.edges → (tetraE s)[e]? = some ed → (ed.a = w ∨ ed.b = w) →
      (tetra s a b c d).bare.Corner w f :=
    fun fc ed h1 h2 h3 h4 => ⟨_, ⟨fc, h1, h2⟩, ed, h3, h4⟩
  cases s <;> interval_cases f <;> interval_cases w <;> first
    | exact absurd rfl h
    | (refine mk (e := 3) _ _ rfl ?_ rfl ?_ <;> decide)
    | (refine mk (e := 5) _ _ rfl ?_ rfl ?_ <;> decide)
    | (refine mk (e := 4) _ _ rfl ?_ rfl ?_ <;> decide)
    | (refine mk (e := 1) _ _ rfl ?_ rfl ?_ <;> decide)
    | (refine mk (e := 2) _ _ rfl ?_ rfl ?_ <;> decide)

theorem tetra_joins {e w u : ℕ} (h : (tetra s a b c d).bare.Joins e w u) : w < 4 ∧ u < 4 ∧ w ≠ u ∧ ∀ e', (tetra s a b c d).bare.Joins e' w u → e = e' := by
  have hw := tetra_end h.left
  have hu := tetra_end h.symm.left
  refine ⟨hw, hu, ?_, ?_⟩
  · rintro rfl
    obtain ⟨ed, h1, h2⟩ := h
    apply tetra_closed.distinct h1
    rcases h2 with ⟨h2, h3⟩ | ⟨h2, h3⟩ <;> rw [h2, h3]
  · rintro e' ⟨ed', k1, k2⟩
    obtain ⟨ed, h1, h2⟩ := h
    have len : (tetraE s).length = 6 := by cases s <;> rfl
    have l1 : e < 6 := len ▸ (List.getElem?_eq_some_iff.1 h1).1
    have l2 : e' < 6 := len ▸ (List.getElem?_eq_some_iff.1 k1).1
    cases s <;> interval_cases e <;> interval_cases e' <;> first | rfl | (cases h1; cases k1; simp only at h2 k2; omega)

/-- The four vertices are not in one plane, in any order. -/
theorem tetra_vol (hv : vol a.v b.v c.v d.v ≠ 0) {i j k o : ℕ} (hi : i < 4) (hj : j < 4) (hk : k < 4) (ho : o < 4) (ij : i ≠ j) (ik : i ≠ k) (io : i ≠ o)
    (jk : j ≠ k) (jo : j ≠ o) (ko : k ≠ o) :
    vol ((tetra s a b c d).bare.pos i) ((tetra s a b c d).bare.pos j) ((tetra s a b c d).bare.pos k) ((tetra s a b c d).bare.pos o) ≠ 0 := by
  have key : vol ((tetra s a b c d).bare.pos i) ((tetra s a b c d).bare.pos j) ((tetra s a b c d).bare.pos k) ((tetra s a b c d).bare.pos o) = vol a.v b.v c.v d.v ∨
      vol ((tetra s a b c d).bare.pos i) ((tetra s a b c d).bare.pos j) ((tetra s a b c d).bare.pos k) ((tetra s a b c d).bare.pos o) = -vol a.v b.v c.v d.v := by
    interval_cases i <;> interval_cases j <;> first
      | exact absurd rfl ij
      | (interval_cases k <;> first
          | exact absurd rfl ik
          | exact absurd rfl jk
          | (interval_cases o <;> first
              | exact absurd rfl io
              | exact absurd rfl jo
              | exact absurd rfl ko
              | exact Or.inl rfl
              | (left; simp only [tetra_pos0, tetra_pos1, tetra_pos2, tetra_pos3, vol, V3.dot, V3.cross, sub_x, sub_y, sub_z]; ring1)
              | (right; simp only [tetra_pos0, tetra_pos1, tetra_pos2, tetra_pos3, vol, V3.dot, V3.cross, sub_x, sub_y, sub_z]; ring1)))
  rcases key with h | h <;> rw [h]
  · exact hv
  · exact neg_ne_zero.2 hv

/-- Two further vertices. -/
theorem others {w u : ℕ} (hw : w < 4) (hu : u < 4) (h : w ≠ u) : ∃ x y, x < 4 ∧ y < 4 ∧ w ≠ x ∧ w ≠ y ∧ u ≠ x ∧ u ≠ y ∧ x ≠ y := by
  interval_cases w <;> interval_cases u <;> first
    | exact absurd rfl h
    | exact ⟨0, 1, by decide⟩
    | exact ⟨0, 2, by decide⟩
    | exact ⟨0, 3, by decide⟩
    | exact ⟨1, 2, by decide⟩
    | exact ⟨1, 3, by decide⟩
    | exact ⟨2, 3, by decide⟩

/-- One further vertex. -/
theorem other {w u x : ℕ} (hw : w < 4) (hu : u < 4) (hx : x < 4) (h1 : w ≠ u) (h2 : w ≠ x) (h3 : u ≠ x) : ∃ y < 4, w ≠ y ∧ u ≠ y ∧ x ≠ y ∧ ∀ z < 4, z = w ∨ z = u ∨ z = x ∨ z = y := by
  have : ∃ y < 4, w ≠ y ∧ u ≠ y ∧ x ≠ y := by
    interval_cases w <;> interval_cases u <;> interval_cases x <;> first
      | exact absurd rfl h1
      | exact absurd rfl h2
      | exact absurd rfl h3
      | exact ⟨0, by decide⟩
      | exact ⟨1, by decide⟩
      | exact ⟨2, by decide⟩
      | exact ⟨3, by decide⟩
  obtain ⟨y, hy, a, b, c⟩ := this
  exact ⟨y, hy, a, b, c, fun z hz => by omega⟩

theorem tetra_full (hv : vol a.v b.v c.v d.v ≠ 0) (k w : V3 ℝ) (hk : k ≠ 0) : ∃ u < (tetra s a b c d).bare.verts.length, k.dot ((tetra s a b c d).bare.pos u - w) ≠ 0 := by
  by_contra hcon
  push Not at hcon
  have h0 := hcon 0 (show 0 < 4 by decide)
  have h1 := hcon 1 (show 1 < 4 by decide)
  have h2 := hcon 2 (show 2 < 4 by decide)
  have h3 := hcon 3 (show 3 < 4 by decide)
  rw [tetra_pos0] at h0
  rw [tetra_pos1] at h1
  rw [tetra_pos2] at h2
  rw [tetra_pos3] at h3
  have k1 : k.dot (a.v - d.v) = 0 := by rw [dot_sub] at *; linarith
  have k2 : k.dot (b.v - d.v) = 0 := by rw [dot_sub] at *; linarith
  have k3 : k.dot (c.v - d.v) = 0 := by rw [dot_sub] at *; linarith
  clear h0 h1 h2 h3 hcon
  unfold vol at hv
  generalize a.v - d.v = p at *
  generalize b.v - d.v = q at *
  generalize c.v - d.v = r at *
  simp only [V3.dot, V3.cross] at *
  apply hk
  apply V3.ext' <;> simp only [zero_x, zero_y, zero_z] <;> refine (mul_eq_zero.1 ?_).resolve_left hv
  · linear_combination (r.y * q.z - r.z * q.y) * k1 + (p.y * r.z - p.z * r.y) * k2 + (q.y * p.z - q.z * p.y) * k3
  · linear_combination (r.z * q.x - r.x * q.z) * k1 + (p.z * r.x - p.x * r.z) * k2 + (q.z * p.x - q.x * p.z) * k3
  · linear_combination (r.x * q.y - r.y * q.x) * k1 + (p.x * r.y - p.y * r.x) * k2 + (q.x * p.y - q.y * p.x) * k3

theorem tetra_behind (hv : vol a.v b.v c.v d.v ≠ 0) {f : ℕ} (hf : f < 4) : ∃ n, Outward (tetra s a b c d).bare f n := by
  have ho : opp f < 4 := by interval_cases f <;> decide
  obtain ⟨p, hp, hpo⟩ : ∃ p < 4, opp f ≠ p := by
    interval_cases f
    · exact ⟨0, by decide⟩
    · exact ⟨0, by decide⟩
    · exact ⟨1, by decide⟩
    · exact ⟨0, by decide⟩
  obtain ⟨q, r, hq, hr, o1, o2, o3, o4, o5⟩ := others ho hp hpo
  set T := (tetra s a b c d).bare with hT
  have v := tetra_vol (s := s) hv ho hq hr hp o1 o2 hpo o5 o3.symm o4.symm
  have e : vol (T.pos (opp f)) (T.pos q) (T.pos r) (T.pos p) = ((T.pos r - T.pos p).cross (T.pos q - T.pos p)).dot (T.pos (opp f) - T.pos p) := rfl
  rw [← hT, e] at v
  set m := (T.pos r - T.pos p).cross (T.pos q - T.pos p) with hm
  have mq : m.dot (T.pos q) = m.dot (T.pos p) := by rw [hm]; simp only [V3.dot, V3.cross, sub_x, sub_y, sub_z]; ring
  have mr : m.dot (T.pos r) = m.dot (T.pos p) := by rw [hm]; simp only [V3.dot, V3.cross, sub_x, sub_y, sub_z]; ring
  have sm : ∀ x, ((-m.dot (T.pos (opp f) - T.pos p)) • m).dot x = -m.dot (T.pos (opp f) - T.pos p) * m.dot x := fun x => by
    simp only [V3.dot, smul_x, smul_y, smul_z]; ring
  refine ⟨(-m.dot (T.pos (opp f) - T.pos p)) • m, fun h => ?_, fun w hw u hu => ?_⟩
  · have h1 := sm (T.pos (opp f) - T.pos p)
    rw [h] at h1
    have : (0 : V3 ℝ).dot (T.pos (opp f) - T.pos p) = 0 := by simp [V3.dot]
    rw [this] at h1
    have := mul_self_pos.2 v
    nlinarith
  · obtain ⟨-, lw, nw⟩ := tetra_corner hw
    have lu : u < 4 := hu
    rw [sm, dot_sub m (T.pos u)]
    have flat : ∀ z < 4, z ≠ opp f → m.dot (T.pos z) = m.dot (T.pos p) := by
      intro z hz hne
      have : z = p ∨ z = q ∨ z = r := by omega
      rcases this with rfl | rfl | rfl
      · rfl
      · exact mq
      · exact mr
    rw [flat w lw nw]
    by_cases hu : u = opp f
    · rw [hu, dot_sub]
      nlinarith [sq_nonneg (m.dot (T.pos (opp f)) - m.dot (T.pos p))]
    · rw [flat u lu hu, _root_.sub_self, mul_zero]

theorem tetra_convex (hv : vol a.v b.v c.v d.v ≠ 0) : Convex (tetra s a b c d).bare := by
  refine ⟨tetra_closed, fun f hf => tetra_behind hv (tetra_closed.newF f hf), ?_, ?_, tetra_full hv⟩
  · intro e e' w w' hw hw' h
    have l1 := tetra_end hw
    have l2 := tetra_end hw'
    by_contra hne
    obtain ⟨x, y, hx, hy, n1, n2, n3, n4, n5⟩ := others l1 l2 hne
    have := tetra_vol (s := s) hv l1 hx hy l2 n1 n2 hne n5 n3.symm n4.symm
    rw [h] at this
    apply this
    simp only [vol, V3.dot, sub_x, sub_y, sub_z]; ring
  · intro e e' w u u' h h' t ht heq
    obtain ⟨lw, lu, n1, un⟩ := tetra_joins h
    obtain ⟨-, lu', n2, -⟩ := tetra_joins h'
    by_cases huu : u = u'
    · subst huu
      exact un e' h'
    exfalso
    obtain ⟨y, hy, m1, m2, m3, -⟩ := other lw lu lu' n1 n2 huu
    have := tetra_vol (s := s) hv hy lu' lu lw m3.symm m2.symm m1.symm (Ne.symm huu) n2.symm n1.symm
    apply this
    unfold vol
    rw [heq]
    simp only [V3.dot, V3.cross, smul_x, smul_y, smul_z]; ring

theorem opp_inj {f g : ℕ} (hf : f < 4) (hg : g < 4) (h : opp f = opp g) : f = g := by
  interval_cases f <;> interval_cases g <;> first | rfl | exact absurd h (by decide)

theorem tetra_facets (hv : vol a.v b.v c.v d.v ≠ 0) : Facets (tetra s a b c d).bare := by
  intro f g n hf hg h1 h2
  by_contra hne
  have lf : f < 4 := tetra_closed.newF f hf
  have lg : g < 4 := tetra_closed.newF g hg
  obtain ⟨u, hu, h⟩ := tetra_full hv n ((tetra s a b c d).bare.pos 0) h1.1
  have all : ∀ w < 4, ∀ u < 4, n.dot ((tetra s a b c d).bare.pos u - (tetra s a b c d).bare.pos w) ≤ 0 := by
    intro w hw u hu
    by_cases hwf : w = opp f
    · exact h2.2 w (tetra_corner_of lg hw (fun h => hne (opp_inj lf lg (hwf.symm.trans h)))) u hu
    · exact h1.2 w (tetra_corner_of lf hw hwf) u hu
  have p := all 0 (by norm_num) u hu
  have q := all u hu 0 (by norm_num)
  rw [dot_sub] at *
  exact h (by linarith)

theorem tetra_within (h : HullOf [a.v, b.v, c.v, d.v] 0) : Within (tetra s a b c d).bare 0 := by
  intro k m hk
  have h0 := hk 0 (show 0 < 4 by decide)
  have h1 := hk 1 (show 1 < 4 by decide)
  have h2 := hk 2 (show 2 < 4 by decide)
  have h3 := hk 3 (show 3 < 4 by decide)
  rw [tetra_pos0] at h0
  rw [tetra_pos1] at h1
  rw [tetra_pos2] at h2
  rw [tetra_pos3] at h3
  clear hk
  generalize (0 : V3 ℝ) = z at h
  induction h with
  | pt hp => simp only [List.mem_cons, List.not_mem_nil, or_false] at hp; rcases hp with rfl | rfl | rfl | rfl <;> assumption
  | seg t t0 t1 _ _ i1 i2 =>
    have e : ∀ x y : V3 ℝ, k.dot ((1 - t) • x + t • y) = (1 - t) * k.dot x + t * k.dot y := fun x y => by
      simp only [V3.dot, add_x, add_y, add_z, smul_x, smul_y, smul_z]; ring
    rw [e]
    have := mul_le_mul_of_nonneg_left i1 (by linarith : (0 : ℝ) ≤ 1 - t)
    have := mul_le_mul_of_nonneg_left i2 t0
    linarith

/-- The tetrahedron of four support points with the origin in it. -/
theorem tetra_sound (hv : vol a.v b.v c.v d.v ≠ 0) (h0 : HullOf [a.v, b.v, c.v, d.v] 0) (hm : ∀ p ∈ [a, b, c, d], Made A B p)
    (he : ∀ p ∈ [a, b, c, d], ∃ k : V3 ℝ, k ≠ 0 ∧ ∀ x ∈ Diff A B, k.dot x ≤ k.dot p.v) : Sound A B (tetra s a b c d) :=
  ⟨tetra_convex hv, tetra_facets hv, tetra_within h0, ⟨0, by simp [tetra, tetraF]⟩, hm, he⟩

end Pt
end Fcl
