import Verif.Ccd.PolytopeHull
import Mathlib.Algebra.BigOperators.Field
import Mathlib.Algebra.Order.BigOperators.Group.Finset

/-!
# The faces seen from a point are in one piece

The faces are ordered by how far the point is in front of them, with ties broken by the direction of the normal. From every face one can go up
to the largest one over edges, as the simplex method does on the dual polytope.
-/

namespace Fcl
namespace Pt

open V3

variable {P : Poly (V3 ℝ)} {outside flat : ℕ → Bool} {f : ℕ} {s : Patch} {q : V3 ℝ}

/-- No two faces are in one plane. -/
def Facets (P : Poly (V3 ℝ)) : Prop :=
  ∀ f g n, P.faces f ≠ none → P.faces g ≠ none → Outward P f n → Outward P g n → f = g

/-! ### An order of vectors -/

/-- First by the product with `Q`, then by the coordinates. -/
def LP (Q v : V3 ℝ) : Prop :=
  0 < v.dot Q ∨ (v.dot Q = 0 ∧ (0 < v.x ∨ (v.x = 0 ∧ (0 < v.y ∨ (v.y = 0 ∧ 0 < v.z)))))

variable {Q : V3 ℝ}

theorem lp_add {u v : V3 ℝ} (hu : LP Q u) (hv : LP Q v) : LP Q (u + v) := by
  have e : (u + v).dot Q = u.dot Q + v.dot Q := by simp only [dot, add_x, add_y, add_z]; ring
  unfold LP at *
  rw [e, add_x, add_y, add_z]
  rcases hu with a | ⟨a, b | ⟨b, c | ⟨c, d⟩⟩⟩ <;> rcases hv with a' | ⟨a', b' | ⟨b', c' | ⟨c', d'⟩⟩⟩
  all_goals first
    | exact Or.inl (by linarith)
    | exact Or.inr ⟨by linarith, Or.inl (by linarith)⟩
    | exact Or.inr ⟨by linarith, Or.inr ⟨by linarith, Or.inl (by linarith)⟩⟩
    | exact Or.inr ⟨by linarith, Or.inr ⟨by linarith, Or.inr ⟨by linarith, by linarith⟩⟩⟩

theorem lp_smul {u : V3 ℝ} {c : ℝ} (hc : 0 < c) (hu : LP Q u) : LP Q (c • u) := by
  have e : (c • u).dot Q = c * u.dot Q := by simp only [dot, smul_x, smul_y, smul_z]; ring
  unfold LP at *
  rw [e, smul_x, smul_y, smul_z]
  rcases hu with a | ⟨a, b | ⟨b, c' | ⟨c', d⟩⟩⟩
  · exact Or.inl (mul_pos hc a)
  · exact Or.inr ⟨by rw [a, mul_zero], Or.inl (mul_pos hc b)⟩
  · exact Or.inr ⟨by rw [a, mul_zero], Or.inr ⟨by rw [b, mul_zero], Or.inl (mul_pos hc c')⟩⟩
  · exact Or.inr ⟨by rw [a, mul_zero], Or.inr ⟨by rw [b, mul_zero], Or.inr ⟨by rw [c', mul_zero], mul_pos hc d⟩⟩⟩

theorem lp_zero : ¬LP Q 0 := by
  simp [LP, dot]

theorem lp_total {u v : V3 ℝ} (h : u ≠ v) : LP Q (u - v) ∨ LP Q (v - u) := by
  have e : (u - v).dot Q = -(v - u).dot Q := by simp only [dot, sub_x, sub_y, sub_z]; ring
  unfold LP
  rw [e, sub_x, sub_y, sub_z, sub_x, sub_y, sub_z]
  rcases lt_trichotomy ((v - u).dot Q) 0 with a | a | a
  · exact Or.inl (Or.inl (by linarith))
  · rcases lt_trichotomy u.x v.x with b | b | b
    · exact Or.inr (Or.inr ⟨a, Or.inl (by linarith)⟩)
    · rcases lt_trichotomy u.y v.y with c | c | c
      · exact Or.inr (Or.inr ⟨a, Or.inr ⟨by linarith, Or.inl (by linarith)⟩⟩)
      · rcases lt_trichotomy u.z v.z with d | d | d
        · exact Or.inr (Or.inr ⟨a, Or.inr ⟨by linarith, Or.inr ⟨by linarith, by linarith⟩⟩⟩)
        · exact absurd (V3.ext' b c d) h
        · exact Or.inl (Or.inr ⟨by linarith, Or.inr ⟨by linarith, Or.inr ⟨by linarith, by linarith⟩⟩⟩)
      · exact Or.inl (Or.inr ⟨by linarith, Or.inr ⟨by linarith, Or.inl (by linarith)⟩⟩)
    · exact Or.inl (Or.inr ⟨by linarith, Or.inl (by linarith)⟩)
  · exact Or.inr (Or.inl a)

theorem lp_asymm {u v : V3 ℝ} (h : LP Q (u - v)) (h' : LP Q (v - u)) : False := by
  have := lp_add h h'
  rw [show (u - v) + (v - u) = 0 by apply V3.ext' <;> simp] at this
  exact lp_zero this

theorem lp_trans {u v w : V3 ℝ} (h : LP Q (u - v)) (h' : LP Q (v - w)) : LP Q (u - w) := by
  have := lp_add h h'
  rwa [show (u - v) + (v - w) = u - w by apply V3.ext' <;> simp] at this

theorem lp_dot {u : V3 ℝ} (h : LP Q u) : 0 ≤ u.dot Q := by
  rcases h with h | ⟨h, -⟩
  · exact h.le
  · exact h.ge

/-! ### A point inside -/

/-- The mean of the vertices is strictly behind all the faces. -/
theorem Convex.centre (hc : Convex P) : ∃ o : V3 ℝ, ∀ f n w, Outward P f n → P.Corner w f → 0 < n.dot (P.pos w - o) := by
  set L := P.verts.length with hL
  set S : (V3 ℝ → ℝ) → ℝ := fun φ => ∑ u ∈ Finset.range L, φ (P.pos u) with hS
  refine ⟨⟨S V3.x / L, S V3.y / L, S V3.z / L⟩, fun f n w hn hw => ?_⟩
  obtain ⟨u0, hu0, hne⟩ := hc.full n (P.pos w) hn.1
  have Lp : (0 : ℝ) < L := by exact_mod_cast (by omega : 0 < L)
  have sum : n.dot (P.pos w - ⟨S V3.x / L, S V3.y / L, S V3.z / L⟩) * L = ∑ u ∈ Finset.range L, -(n.dot (P.pos u - P.pos w)) := by
    have : ∀ u, -(n.dot (P.pos u - P.pos w)) = n.dot (P.pos w) - (n.x * (P.pos u).x + n.y * (P.pos u).y + n.z * (P.pos u).z) := fun u => by
      simp only [dot, sub_x, sub_y, sub_z]; ring
    rw [Finset.sum_congr rfl fun u _ => this u, Finset.sum_sub_distrib, Finset.sum_add_distrib, Finset.sum_add_distrib, ← Finset.mul_sum,
      ← Finset.mul_sum, ← Finset.mul_sum, Finset.sum_const, Finset.card_range, nsmul_eq_mul]
    simp only [hS, dot, sub_x, sub_y, sub_z]
    field_simp
    ring
  have pos : 0 < ∑ u ∈ Finset.range L, -(n.dot (P.pos u - P.pos w)) := by
    apply Finset.sum_pos'
    · intro u hu
      have := hn.2 w hw u (Finset.mem_range.1 hu)
      linarith
    · refine ⟨u0, Finset.mem_range.2 hu0, ?_⟩
      have := lt_of_le_of_ne (hn.2 w hw u0 hu0) hne
      linarith
  rw [← sum] at pos
  exact (mul_pos_iff_of_pos_right Lp).1 pos

/-! ### The largest face -/

theorem dual (a b c μ : V3 ℝ) : (a.dot (b.cross c)) • μ = (μ.dot a) • (b.cross c) + (μ.dot b) • (c.cross a) + (μ.dot c) • (a.cross b) := by
  apply V3.ext' <;> simp only [dot, cross, add_x, add_y, add_z, smul_x, smul_y, smul_z] <;> ring

/-- A nonnegative combination of positive vectors. -/
theorem lp_comb {x y z : V3 ℝ} (hx : LP Q x) (hy : LP Q y) (hz : LP Q z) {a b c : ℝ} (ha : 0 ≤ a) (hb : 0 ≤ b) (hc : 0 ≤ c)
    (hn : ¬(a = 0 ∧ b = 0 ∧ c = 0)) : LP Q (a • x + b • y + c • z) := by
  have key : ∀ {v : V3 ℝ} {t : ℝ}, LP Q v → 0 ≤ t → t • v = 0 ∧ t = 0 ∨ LP Q (t • v) := by
    intro v t hv ht
    rcases lt_or_eq_of_le ht with h | h
    · exact Or.inr (lp_smul h hv)
    · left; rw [← h]; exact ⟨by apply V3.ext' <;> simp, rfl⟩
  have z1 : ∀ v : V3 ℝ, 0 + v = v := fun v => by apply V3.ext' <;> simp
  have z2 : ∀ v : V3 ℝ, v + 0 = v := fun v => by apply V3.ext' <;> simp
  rcases key hx ha with ⟨h1, h1'⟩ | h1 <;> rcases key hy hb with ⟨h2, h2'⟩ | h2 <;> rcases key hz hc with ⟨h3, h3'⟩ | h3
  · exact absurd ⟨h1', h2', h3'⟩ hn
  · rw [h1, h2, z1, z1]; exact h3
  · rw [h1, h3, z1, z2]; exact h2
  · rw [h1, z1]; exact lp_add h2 h3
  · rw [h2, h3, z2, z2]; exact h1
  · rw [h2, z2]; exact lp_add h1 h3
  · rw [h3, z2]; exact lp_add h1 h2
  · exact lp_add (lp_add h1 h2) h3

/-- The faces that are seen are in one piece: a set that has with a face also the faces next to it that are seen has all or none of them. -/
theorem seen_connected (hc : Convex P) (hfc : Facets P) {S : ℕ → Prop}
    (hS : ∀ e a b, P.Side e a → P.Side e b → Sees P q a → Sees P q b → S a → S b) {f g : ℕ} (hf : P.faces f ≠ none) (hg : P.faces g ≠ none)
    (sf : Sees P q f) (sg : Sees P q g) (h : S f) : S g := by
  classical
  obtain ⟨o, ho⟩ := hc.centre
  have ex : ∀ f, ∃ ν : V3 ℝ, P.faces f ≠ none → Outward P f ν ∧ ∀ w, P.Corner w f → ν.dot (P.pos w - o) = 1 := by
    intro f
    by_cases hl : P.faces f ≠ none
    · obtain ⟨n, hn⟩ := hc.behind f hl
      obtain ⟨fc, hfc⟩ := Option.ne_none_iff_exists'.1 hl
      obtain ⟨a, b, c, -, -, -, -, -, -, -, -, -, cor⟩ := hc.closed.corners hfc
      have ca := (cor a).2 (Or.inl rfl)
      have hp := ho f n a hn ca
      set r := n.dot (P.pos a - o) with hr
      have hd : ∀ x, ((1 / r) • n).dot x = (1 / r) * n.dot x := fun x => by simp only [dot, smul_x, smul_y, smul_z]; ring
      refine ⟨(1 / r) • n, fun _ => ⟨outward_scale hp hn fun x => ?_, fun w hw => ?_⟩⟩
      · rw [hd]; field_simp
      · have := hn.flat hc.closed ca hw
        rw [hd]
        have : n.dot (P.pos w - o) = r := by rw [hr]; rw [dot_sub] at *; linarith
        rw [this]
        field_simp
    · exact ⟨0, fun h => absurd h hl⟩
  choose ν hν using ex
  set Q := q - o with hQ
  have one : ∀ {h : ℕ}, P.faces h ≠ none → ∀ u < P.verts.length, (ν h).dot (P.pos u - o) ≤ 1 := by
    intro h hl u hu
    obtain ⟨fc, hfc⟩ := Option.ne_none_iff_exists'.1 hl
    obtain ⟨a, b, c, -, -, -, -, -, -, -, -, -, cor⟩ := hc.closed.corners hfc
    have ca := (cor a).2 (Or.inl rfl)
    have h1 := (hν h hl).2 a ca
    have h2 := (hν h hl).1.2 a ca u hu
    rw [dot_sub] at *
    linarith
  have sees : ∀ {h : ℕ}, P.faces h ≠ none → (Sees P q h ↔ 1 < (ν h).dot Q) := by
    intro h hl
    obtain ⟨fc, hfc⟩ := Option.ne_none_iff_exists'.1 hl
    obtain ⟨a, b, c, -, -, -, -, -, -, -, -, -, cor⟩ := hc.closed.corners hfc
    have ca := (cor a).2 (Or.inl rfl)
    have h1 := (hν h hl).2 a ca
    constructor
    · rintro ⟨n, hn, w, hw, hp⟩
      obtain ⟨t, ht, e⟩ := (hν h hl).1.same hc hl hn
      have := mul_pos ht hp
      rw [← e] at this
      have h2 := (hν h hl).2 w hw
      rw [hQ]
      rw [dot_sub] at *
      linarith
    · intro h2
      refine ⟨_, (hν h hl).1, a, ca, ?_⟩
      rw [hQ] at h2
      rw [dot_sub] at *
      linarith
  have inj : ∀ {a b : ℕ}, P.faces a ≠ none → P.faces b ≠ none → ν a = ν b → a = b := fun {a b} ha hb e =>
    hfc a b (ν a) ha hb (hν a ha).1 (e ▸ (hν b hb).1)
  -- a face that is larger than those next to it is larger than all
  have localMax : ∀ {t : ℕ}, P.faces t ≠ none → (∀ e b, P.Side e t → P.Side e b → b ≠ t → LP Q (ν t - ν b)) →
      ∀ h, P.faces h ≠ none → h ≠ t → LP Q (ν t - ν h) := by
    intro t ht hloc h hh hne
    obtain ⟨fc, hfc⟩ := Option.ne_none_iff_exists'.1 ht
    obtain ⟨a, b, c, h1, h2, h3, j0, j1, j2, n01, n02, n12, cor⟩ := hc.closed.corners hfc
    have ca := (cor a).2 (Or.inl rfl)
    have cb := (cor b).2 (Or.inr (Or.inl rfl))
    have cc := (cor c).2 (Or.inr (Or.inr rfl))
    set A := P.pos a - o with hA
    set B := P.pos b - o with hB
    set C := P.pos c - o with hC
    have tA := (hν t ht).2 a ca
    have tB := (hν t ht).2 b cb
    have tC := (hν t ht).2 c cc
    have la := hc.closed.end_lt j0.left
    have lb := hc.closed.end_lt j1.left
    have lc := hc.closed.end_lt j2.left
    have ar := hc.area h1 h3 j0 j1 j2 n01 n02
    have ar' : (P.pos b - P.pos a).cross (P.pos c - P.pos a) = (B - A).cross (C - A) := by
      rw [hA, hB, hC]; apply V3.ext' <;> simp only [cross, sub_x, sub_y, sub_z] <;> ring
    rw [ar'] at ar
    set D := A.dot (B.cross C) with hD
    have detk : D = ((B - A).cross (C - A)).dot A := by
      rw [hD]; simp only [dot, cross, sub_x, sub_y, sub_z]; ring
    have D0 : D ≠ 0 := by
      intro h0
      have e1 : (ν t).dot (B - A) = 0 := by rw [dot_sub]; linarith
      have e2 : (ν t).dot (C - A) = 0 := by rw [dot_sub]; linarith
      have := span_cross e1 e2 A
      rw [← detk, h0, mul_zero, tA, mul_one] at this
      exact (dot_self_pos ar).ne' this
    have expand : ∀ μ : V3 ℝ, μ = (μ.dot A) • ((1 / D) • B.cross C) + (μ.dot B) • ((1 / D) • C.cross A) + (μ.dot C) • ((1 / D) • A.cross B) := by
      intro μ
      have := dual A B C μ
      rw [← hD] at this
      have ex := congrArg V3.x this
      have ey := congrArg V3.y this
      have ez := congrArg V3.z this
      simp only [add_x, add_y, add_z, smul_x, smul_y, smul_z] at ex ey ez
      apply V3.ext' <;> simp only [add_x, add_y, add_z, smul_x, smul_y, smul_z] <;> field_simp <;> linarith
    have diff : ∀ k v : V3 ℝ, (ν t - k).dot v = (ν t).dot v - k.dot v := fun k v => by simp only [dot, sub_x, sub_y, sub_z]; ring
    -- the dual vectors are positive
    have nb : ∀ e : ℕ, P.Side e t → ∃ b, P.Side e b ∧ b ≠ t ∧ P.faces b ≠ none := by
      intro e he
      obtain ⟨ed, b, -, -, hne, hk⟩ := hc.closed.across he
      have hb := (hk b).2 (Or.inr rfl)
      refine ⟨b, hb, hne.symm, ?_⟩
      obtain ⟨fc', h', -⟩ := hb
      rw [h']; simp
    have getc : ∀ {v : V3 ℝ} {r : ℝ}, 0 ≤ r → LP Q (r • v) → LP Q v := by
      intro v r hr h
      rcases lt_or_eq_of_le hr with h' | h'
      · have := lp_smul (inv_pos.2 h') h
        rwa [show r⁻¹ • r • v = v by apply V3.ext' <;> simp only [smul_x, smul_y, smul_z] <;> field_simp] at this
      · rw [← h'] at h
        exact absurd (by rwa [show (0 : ℝ) • v = 0 by apply V3.ext' <;> simp] at h) lp_zero
    have zz : ∀ v : V3 ℝ, (0 : ℝ) • v = 0 := fun v => by apply V3.ext' <;> simp
    have z1 : ∀ v : V3 ℝ, 0 + v = v := fun v => by apply V3.ext' <;> simp
    have z2 : ∀ v : V3 ℝ, v + 0 = v := fun v => by apply V3.ext' <;> simp
    have pC : LP Q ((1 / D) • A.cross B) := by
      have hs : P.Side fc.e0 t := ⟨fc, hfc, by simp [Face.edges]⟩
      obtain ⟨g, hg, hgt, hgl⟩ := nb _ hs
      have h5 := hloc _ g hs hg hgt
      have gA := (hν g hgl).2 a ⟨_, hg, j0.left⟩
      have gB := (hν g hgl).2 b ⟨_, hg, j0.symm.left⟩
      have gC := one hgl c lc
      rw [expand (ν t - ν g), diff, diff, diff, tA, tB, tC, gA, gB, _root_.sub_self, zz, zz, z1, z1] at h5
      exact getc (by linarith) h5
    have pA : LP Q ((1 / D) • B.cross C) := by
      have hs : P.Side fc.e1 t := ⟨fc, hfc, by simp [Face.edges]⟩
      obtain ⟨g, hg, hgt, hgl⟩ := nb _ hs
      have h5 := hloc _ g hs hg hgt
      have gB := (hν g hgl).2 b ⟨_, hg, j1.left⟩
      have gC := (hν g hgl).2 c ⟨_, hg, j1.symm.left⟩
      have gA := one hgl a la
      rw [expand (ν t - ν g), diff, diff, diff, tA, tB, tC, gC, gB, _root_.sub_self, zz, zz, z2, z2] at h5
      exact getc (by linarith) h5
    have pB : LP Q ((1 / D) • C.cross A) := by
      have hs : P.Side fc.e2 t := ⟨fc, hfc, by simp [Face.edges]⟩
      obtain ⟨g, hg, hgt, hgl⟩ := nb _ hs
      have h5 := hloc _ g hs hg hgt
      have gC := (hν g hgl).2 c ⟨_, hg, j2.left⟩
      have gA := (hν g hgl).2 a ⟨_, hg, j2.symm.left⟩
      have gB := one hgl b lb
      rw [expand (ν t - ν g), diff, diff, diff, tA, tB, tC, gC, gA, _root_.sub_self, zz, zz, z1, z2] at h5
      exact getc (by linarith) h5
    rw [expand (ν t - ν h)]
    have dA : 0 ≤ (ν t - ν h).dot A := by rw [diff, tA]; linarith [one hh a la]
    have dB : 0 ≤ (ν t - ν h).dot B := by rw [diff, tB]; linarith [one hh b lb]
    have dC : 0 ≤ (ν t - ν h).dot C := by rw [diff, tC]; linarith [one hh c lc]
    refine lp_comb pA pB pC dA dB dC ?_
    rintro ⟨q1, q2, q3⟩
    have := expand (ν t - ν h)
    rw [q1, q2, q3, zz, zz, zz, z1, z1] at this
    apply hne
    apply inj hh ht
    have ex := congrArg V3.x this
    have ey := congrArg V3.y this
    have ez := congrArg V3.z this
    simp only [sub_x, sub_y, sub_z, zero_x, zero_y, zero_z] at ex ey ez
    apply V3.ext' <;> linarith
  -- going up
  have climb : ∀ (N g : ℕ), ((Finset.range P.nextF).filter fun h => P.faces h ≠ none ∧ LP Q (ν h - ν g)).card = N → P.faces g ≠ none →
      Sees P q g → ∃ t, P.faces t ≠ none ∧ (∀ h, P.faces h ≠ none → h ≠ t → LP Q (ν t - ν h)) ∧ (S g ↔ S t) := by
    intro N
    induction N using Nat.strong_induction_on with
    | _ N ih =>
      intro g hN hg sg
      by_cases hmax : ∀ e b, P.Side e g → P.Side e b → b ≠ g → LP Q (ν g - ν b)
      · exact ⟨g, hg, localMax hg hmax, Iff.rfl⟩
      push Not at hmax
      obtain ⟨e, b, h1, h2, h3, h4⟩ := hmax
      have hb : P.faces b ≠ none := by obtain ⟨fc, h', -⟩ := h2; rw [h']; simp
      have up : LP Q (ν b - ν g) := (lp_total fun h => h3 (inj hb hg h)).resolve_right h4
      have sb : Sees P q b := by
        rw [sees hb]
        have := (sees hg).1 sg
        have h5 := lp_dot up
        have : (ν b - ν g).dot Q = (ν b).dot Q - (ν g).dot Q := by simp only [dot, sub_x, sub_y, sub_z]; ring
        linarith
      obtain ⟨t, ht, hm, hst⟩ := ih _ (by
        rw [← hN]
        apply Finset.card_lt_card
        refine ⟨fun h hh => ?_, fun hsub => ?_⟩
        · obtain ⟨k1, k2, k3⟩ := Finset.mem_filter.1 hh
          exact Finset.mem_filter.2 ⟨k1, k2, lp_trans k3 up⟩
        · have := hsub (Finset.mem_filter.2 ⟨Finset.mem_range.2 (hc.closed.newF b hb), hb, up⟩)
          have := (Finset.mem_filter.1 this).2.2
          exact lp_asymm this this) b rfl hb sb
      exact ⟨t, ht, hm, ⟨fun h => hst.1 (hS e g b h1 h2 sg sb h), fun h => hS e b g h2 h1 sb sg (hst.2 h)⟩⟩
  obtain ⟨t, ht, hm, h1⟩ := climb _ f rfl hf sf
  obtain ⟨t', ht', hm', h2⟩ := climb _ g rfl hg sg
  have : t = t' := by
    by_contra hne
    exact lp_asymm (hm t' ht' (Ne.symm hne)) (hm' t ht hne)
  subst this
  exact h2.2 (h1.1 h)

/-- The patch has all the faces that are seen. -/
theorem patch_all (hc : Convex P) (hfc : Facets P) (hx : Exact P outside flat q) (hp : IsPatch P outside flat f s) (hf : Sees P q f) {g : ℕ}
    (hg : P.faces g ≠ none) (sg : Sees P q g) : g ∈ s.visible := by
  refine seen_connected hc hfc (q := q) (S := fun g => g ∈ s.visible) ?_ (hp.faces f hp.start) hg hf sg hp.start
  intro e a b ha hb sa sb hav
  by_contra hbv
  have he : e ∈ s.border := (hp.border e).2 ⟨⟨a, hav, ha⟩, b, hb, hbv⟩
  have := hp.unseen e he b hb hbv
  have hbl : P.faces b ≠ none := by obtain ⟨fc, h', -⟩ := hb; rw [h']; simp
  rw [(hx.seen b hbl).2 sb] at this
  cases this

end Pt
end Fcl
