import Verif.Ccd.PolytopeVisible
import Verif.BVH.MeshLemmas

/-!
# A convex polytope has every point that is behind all of its faces

and so the ball around the origin up to its nearest face.
-/

namespace Fcl
namespace Pt

open V3

variable {P : Poly (V3 ℝ)} {f : ℕ}

theorem dot_comb (k a b c : V3 ℝ) (x y z : ℝ) : k.dot (x • a + y • b + z • c) = x * k.dot a + y * k.dot b + z * k.dot c := by
  simp only [dot, add_x, add_y, add_z, smul_x, smul_y, smul_z]; ring

/-- The mean of some points. -/
theorem list_mean : ∀ (L : List (V3 ℝ)), L ≠ [] → ∃ o : V3 ℝ, HullOf L o ∧ ∀ (k : V3 ℝ) (c : ℝ), (∀ v ∈ L, k.dot v ≤ c) →
    k.dot o ≤ c ∧ (k.dot o = c → ∀ v ∈ L, k.dot v = c)
  | [], h => absurd rfl h
  | [v], _ => ⟨v, .pt (by simp), fun k c h => ⟨h v (by simp), fun e u hu => by simp at hu; rw [hu]; exact e⟩⟩
  | v :: w :: L, _ => by
    obtain ⟨o, ho, hk⟩ := list_mean (w :: L) (by simp)
    have ho' : HullOf (v :: w :: L) o := by
      clear hk
      induction ho with
      | pt hp => exact .pt (List.mem_cons_of_mem _ hp)
      | seg t h0 h1 _ _ i1 i2 => exact .seg t h0 h1 i1 i2
    refine ⟨(1 - 1 / 2 : ℝ) • v + (1 / 2 : ℝ) • o, .seg _ (by norm_num) (by norm_num) (.pt (by simp)) ho', fun k c h => ?_⟩
    have e : k.dot ((1 - 1 / 2 : ℝ) • v + (1 / 2 : ℝ) • o) = (1 / 2) * k.dot v + (1 / 2) * k.dot o := by
      simp only [dot, add_x, add_y, add_z, smul_x, smul_y, smul_z]; ring
    have h1 := h v (by simp)
    obtain ⟨h2, h3⟩ := hk k c fun u hu => h u (List.mem_cons_of_mem _ hu)
    rw [e]
    refine ⟨by linarith, fun he u hu => ?_⟩
    rcases List.mem_cons.1 hu with rfl | hu
    · linarith
    · exact h3 (by linarith) u hu

/-- The mean of the vertices is strictly behind all the faces. -/
theorem Convex.mean (hc : Convex P) : ∃ o : V3 ℝ, HullOf P.verts o ∧ ∀ f n w, Outward P f n → P.Corner w f → 0 < n.dot (P.pos w - o) := by
  have ne : P.verts ≠ [] := by
    obtain ⟨u, hu, -⟩ := hc.full ⟨1, 0, 0⟩ 0 (fun h => by simpa using congrArg V3.x h)
    rintro h
    rw [h] at hu
    simp at hu
  obtain ⟨o, ho, hk⟩ := list_mean _ ne
  refine ⟨o, ho, fun f n w hn hw => ?_⟩
  obtain ⟨h1, h2⟩ := hk n (n.dot (P.pos w)) fun v hv => by
    obtain ⟨u, hu, rfl⟩ := mem_pos hv
    have := hn.2 w hw u hu
    rw [dot_sub] at this
    linarith
  rw [dot_sub]
  refine sub_pos.2 (lt_of_le_of_ne h1 fun h => ?_)
  obtain ⟨u, hu, hne⟩ := hc.full n (P.pos w) hn.1
  apply hne
  rw [dot_sub, h2 h _ (pos_mem hu), _root_.sub_self]

/-- The face on the other side of an edge has the third corner strictly behind it. -/
theorem across_lt (hc : Convex P) (hfc : Facets P) {a b c e g : ℕ} {m : V3 ℝ} (hs : P.Side e f) (hg : P.Side e g) (hgf : g ≠ f) (hj : P.Joins e a b)
    (cor : ∀ w, P.Corner w f → w = a ∨ w = b ∨ w = c) (hcc : P.Corner c f) (hm : Outward P g m) : m.dot (P.pos c - P.pos a) < 0 := by
  have hl : P.faces g ≠ none := by obtain ⟨fc, h, -⟩ := hg; rw [h]; simp
  have hlf : P.faces f ≠ none := by obtain ⟨fc, h, -⟩ := hs; rw [h]; simp
  have ca : P.Corner a g := ⟨e, hg, hj.left⟩
  have cb : P.Corner b g := ⟨e, hg, hj.symm.left⟩
  refine lt_of_le_of_ne (hm.2 a ca c ?_) fun h0 => ?_
  · obtain ⟨_, _, h⟩ := hcc; exact hc.closed.end_lt h
  · refine hgf (hfc g f m hl hlf hm ⟨hm.1, fun w hw u hu => ?_⟩)
    have h1 := hm.2 a ca u hu
    have h2 : m.dot (P.pos w - P.pos a) = 0 := by
      rcases cor w hw with rfl | rfl | rfl
      · simp [dot]
      · exact hm.flat hc.closed ca cb
      · exact h0
    rw [dot_sub] at *
    linarith

theorem across_behind (hc : Convex P) (hfc : Facets P) {a b c e : ℕ} (hs : P.Side e f) (hj : P.Joins e a b)
    (cor : ∀ w, P.Corner w f → w = a ∨ w = b ∨ w = c) (hcc : P.Corner c f) :
    ∃ g m, P.faces g ≠ none ∧ Outward P g m ∧ P.Corner a g ∧ P.Corner b g ∧ m.dot (P.pos c - P.pos a) < 0 := by
  obtain ⟨ed, he⟩ := hc.closed.live hs
  obtain ⟨x, y, -, -, hxy, hall⟩ := hc.closed.two e ed he
  have : ∃ g, P.Side e g ∧ g ≠ f := by
    by_cases h : x = f
    · exact ⟨y, (hall y).2 (Or.inr rfl), fun h' => hxy (h.trans h'.symm)⟩
    · exact ⟨x, (hall x).2 (Or.inl rfl), h⟩
  obtain ⟨g, hg, hgf⟩ := this
  have hl : P.faces g ≠ none := by obtain ⟨fc, h, -⟩ := hg; rw [h]; simp
  obtain ⟨m, hm⟩ := hc.behind g hl
  exact ⟨g, m, hl, hm, ⟨e, hg, hj.left⟩, ⟨e, hg, hj.symm.left⟩, across_lt hc hfc hs hg hgf hj cor hcc hm⟩

/-- The corners of a face with what is behind its three neighbours. -/
theorem face_sides (hc : Convex P) (hfc : Facets P) (hl : P.faces f ≠ none) : ∃ a b c, (P.pos b - P.pos a).cross (P.pos c - P.pos a) ≠ 0 ∧
    (∀ w, P.Corner w f ↔ w = a ∨ w = b ∨ w = c) ∧
    (∃ g m, P.faces g ≠ none ∧ Outward P g m ∧ P.Corner a g ∧ P.Corner b g ∧ m.dot (P.pos c - P.pos a) < 0) ∧
    (∃ g m, P.faces g ≠ none ∧ Outward P g m ∧ P.Corner b g ∧ P.Corner c g ∧ m.dot (P.pos a - P.pos b) < 0) ∧
    (∃ g m, P.faces g ≠ none ∧ Outward P g m ∧ P.Corner c g ∧ P.Corner a g ∧ m.dot (P.pos b - P.pos c) < 0) := by
  obtain ⟨fc, hf⟩ := Option.ne_none_iff_exists'.1 hl
  obtain ⟨a, b, c, hab, hbc, hca, j0, j1, j2, n01, n02, n12, cor⟩ := hc.closed.corners hf
  have s0 : P.Side fc.e0 f := ⟨fc, hf, by simp [Face.edges]⟩
  have s1 : P.Side fc.e1 f := ⟨fc, hf, by simp [Face.edges]⟩
  have s2 : P.Side fc.e2 f := ⟨fc, hf, by simp [Face.edges]⟩
  refine ⟨a, b, c, hc.area hab hca j0 j1 j2 n01 n02, cor, ?_, ?_, ?_⟩
  · exact across_behind hc hfc s0 j0 (fun w hw => (cor w).1 hw) ((cor c).2 (by tauto))
  · exact across_behind hc hfc s1 j1 (fun w hw => by have := (cor w).1 hw; tauto) ((cor a).2 (by tauto))
  · exact across_behind hc hfc s2 j2 (fun w hw => by have := (cor w).1 hw; tauto) ((cor b).2 (by tauto))

/-- `p` is behind the planes of all the faces. -/
def Behind (P : Poly (V3 ℝ)) (p : V3 ℝ) : Prop := ∀ g m w, P.faces g ≠ none → Outward P g m → P.Corner w g → m.dot (p - P.pos w) ≤ 0

/-- `x` is a point of the triangle `f`. -/
def OnFace (P : Poly (V3 ℝ)) (f : ℕ) (x : V3 ℝ) : Prop :=
  ∃ a b c, (∀ w, P.Corner w f ↔ w = a ∨ w = b ∨ w = c) ∧ HullOf [P.pos a, P.pos b, P.pos c] x

theorem hull_mono {L M : List (V3 ℝ)} (h : ∀ v ∈ L, v ∈ M) {x : V3 ℝ} (hx : HullOf L x) : HullOf M x := by
  induction hx with
  | pt hp => exact .pt (h _ hp)
  | seg t h0 h1 _ _ i1 i2 => exact .seg t h0 h1 i1 i2

/-- A linear function on a face is what it is on the corners. -/
theorem OnFace.dot {x k : V3 ℝ} {c : ℝ} (h : OnFace P f x) (hk : ∀ w, P.Corner w f → k.dot (P.pos w) = c) : k.dot x = c := by
  obtain ⟨a, b, d, cor, hx⟩ := h
  obtain ⟨u, v, w, -, -, -, hs, rfl⟩ := (hull_triangle _ _ _ _).1 hx
  rw [dot_comb, hk a ((cor a).2 (by tauto)), hk b ((cor b).2 (by tauto)), hk d ((cor d).2 (by tauto))]
  linear_combination c * hs

theorem OnFace.flat (hc : Convex P) {n x : V3 ℝ} {w : ℕ} (h : OnFace P f x) (hn : Outward P f n) (hw : P.Corner w f) :
    n.dot x = n.dot (P.pos w) :=
  h.dot fun w' hw' => by
    have := hn.flat hc.closed hw hw'
    rw [dot_sub] at this
    linarith

/-- A point of the plane of a face that is behind all the others is a point of the face. -/
theorem face_hull (hc : Convex P) (hfc : Facets P) (hl : P.faces f ≠ none) {n p : V3 ℝ} {w : ℕ} (hn : Outward P f n) (hw : P.Corner w f)
    (hp : n.dot (p - P.pos w) = 0) (hb : Behind P p) : OnFace P f p := by
  obtain ⟨a, b, c, area, cor, ⟨g1, m1, l1, o1, a1, b1, k1⟩, ⟨g2, m2, l2, o2, b2, c2, k2⟩, ⟨g3, m3, l3, o3, c3, a3, k3⟩⟩ := face_sides hc hfc hl
  refine ⟨a, b, c, cor, (hull_triangle _ _ _ _).2 ?_⟩
  have ca := (cor a).2 (Or.inl rfl)
  have cb := (cor b).2 (Or.inr (Or.inl rfl))
  have cc := (cor c).2 (Or.inr (Or.inr rfl))
  set u := P.pos b - P.pos a with hu
  set v := P.pos c - P.pos a with hv
  set N := u.cross v with hN
  have NN := dot_self_pos area
  have nu : n.dot u = 0 := hn.flat hc.closed ca cb
  have nv : n.dot v = 0 := hn.flat hc.closed ca cc
  have nN : n.dot N ≠ 0 := fun h => by
    have := span_cross nu nv n
    rw [← hN, h, zero_mul] at this
    rcases mul_eq_zero.1 this with h' | h'
    · exact NN.ne' h'
    · exact (dot_self_pos hn.1).ne' h'
  have pz : N.dot (p - P.pos a) = 0 := by
    have h1 := span_cross nu nv (p - P.pos a)
    have h2 : n.dot (p - P.pos a) = 0 := by
      have := hn.flat hc.closed ca hw
      rw [dot_sub] at *
      linarith
    rw [h2, mul_zero] at h1
    exact (mul_eq_zero.1 h1.symm).resolve_left nN
  set β := N.dot ((p - P.pos a).cross v) / N.dot N with hβ
  set γ := N.dot (u.cross (p - P.pos a)) / N.dot N with hγ
  have comb : p = (1 - β - γ) • P.pos a + β • P.pos b + γ • P.pos c := by
    have key : (N.dot N) • (p - P.pos a) = (N.dot ((p - P.pos a).cross v)) • u + (N.dot (u.cross (p - P.pos a))) • v + (N.dot (p - P.pos a)) • N := by
      rw [hN]
      apply V3.ext' <;> simp only [V3.dot, cross, add_x, add_y, add_z, smul_x, smul_y, smul_z] <;> ring
    rw [pz] at key
    have kx := congrArg V3.x key
    have ky := congrArg V3.y key
    have kz := congrArg V3.z key
    simp only [add_x, add_y, add_z, smul_x, smul_y, smul_z, sub_x, sub_y, sub_z, zero_mul, _root_.add_zero] at kx ky kz
    have bN : N.dot ((p - P.pos a).cross v) = β * N.dot N := by rw [hβ]; field_simp
    have gN : N.dot (u.cross (p - P.pos a)) = γ * N.dot N := by rw [hγ]; field_simp
    rw [bN, gN, hu, hv] at kx ky kz
    simp only [sub_x, sub_y, sub_z] at kx ky kz
    apply V3.ext' <;> simp only [add_x, add_y, add_z, smul_x, smul_y, smul_z]
    · apply mul_left_cancel₀ NN.ne'; linear_combination kx
    · apply mul_left_cancel₀ NN.ne'; linear_combination ky
    · apply mul_left_cancel₀ NN.ne'; linear_combination kz
  have side : ∀ {x y z : ℕ} {α β γ : ℝ} {g : ℕ} {m : V3 ℝ}, α + β + γ = 1 → p = α • P.pos x + β • P.pos y + γ • P.pos z → P.faces g ≠ none →
      Outward P g m → P.Corner x g → P.Corner y g → m.dot (P.pos z - P.pos x) < 0 → 0 ≤ γ := by
    intro x y z α β γ g m hs hp hl hm cx cy k
    have h1 := hb g m x hl hm cx
    have h2 := hm.flat hc.closed cx cy
    rw [dot_sub] at *
    rw [hp, dot_comb] at h1
    by_contra hneg
    have := mul_pos_of_neg_of_neg (not_le.1 hneg) k
    have h3 : α = 1 - β - γ := by linarith
    have h4 : m.dot (P.pos y) = m.dot (P.pos x) := by linarith
    rw [h3, h4] at h1
    linarith
  refine ⟨1 - β - γ, β, γ, ?_, ?_, ?_, by ring, comb⟩
  · refine side (x := b) (y := c) (z := a) (α := β) (β := γ) (by ring) ?_ l2 o2 b2 c2 k2
    rw [comb]; apply V3.ext' <;> simp only [add_x, add_y, add_z, smul_x, smul_y, smul_z] <;> ring
  · refine side (x := c) (y := a) (z := b) (α := γ) (β := 1 - β - γ) (by ring) ?_ l3 o3 c3 a3 k3
    rw [comb]; apply V3.ext' <;> simp only [add_x, add_y, add_z, smul_x, smul_y, smul_z] <;> ring
  · exact side (x := a) (y := b) (z := c) (α := 1 - β - γ) (β := β) (by ring) comb l1 o1 a1 b1 k1

/-- If no point of a face is nearer to the origin than `r`, no plane of a face is. -/
theorem plane_far (hc : Convex P) (hfc : Facets P) (h0 : Within P 0) {r : ℝ} (hr0 : 0 ≤ r)
    (hr : ∀ f x, P.faces f ≠ none → OnFace P f x → r * r ≤ x.dot x) (hl : P.faces f ≠ none) {n : V3 ℝ} {w : ℕ} (hn : Outward P f n) (hw : P.Corner w f) :
    r * n.nrm ≤ n.dot (P.pos w) := by
  classical
  have ex : ∀ f, ∃ n : V3 ℝ, ∃ w, P.faces f ≠ none → Outward P f n ∧ n.nrm = 1 ∧ P.Corner w f := by
    intro f
    by_cases hl : P.faces f ≠ none
    · obtain ⟨n, hn⟩ := hc.behind f hl
      obtain ⟨fc, hfc⟩ := Option.ne_none_iff_exists'.1 hl
      obtain ⟨a, b, c, -, -, -, -, -, -, -, -, -, cor⟩ := hc.closed.corners hfc
      have := nrm_pos hn.1
      refine ⟨n.normalized, a, fun _ => ⟨outward_scale this hn fun x => ?_, nrm_normalized hn.1, (cor a).2 (Or.inl rfl)⟩⟩
      conv_lhs => rw [← nrm_smul_normalized n]
      simp only [V3.dot, smul_x, smul_y, smul_z]; ring
    · exact ⟨0, 0, fun h => absurd h hl⟩
  choose N W hN using ex
  have hne : ((Finset.range P.nextF).filter fun g => P.faces g ≠ none).Nonempty :=
    ⟨f, Finset.mem_filter.2 ⟨Finset.mem_range.2 (hc.closed.newF f hl), hl⟩⟩
  obtain ⟨g, hg, hmin⟩ := Finset.exists_min_image _ (fun g => (N g).dot (P.pos (W g))) hne
  obtain ⟨-, hgl⟩ := Finset.mem_filter.1 hg
  obtain ⟨og, ug, cg⟩ := hN g hgl
  set d := (N g).dot (P.pos (W g)) with hd
  have d0 : 0 ≤ d := by
    have := h0 (N g) d fun u hu => by
      have := og.2 _ cg u hu
      rw [dot_sub] at this
      linarith
    simpa [V3.dot] using this
  have unit : ∀ {k : V3 ℝ}, k.nrm = 1 → k.dot k = 1 := fun h => by rw [← nrm_mul_self, h, mul_one]
  have min' : ∀ h, P.faces h ≠ none → d ≤ (N h).dot (P.pos (W h)) := fun h hh =>
    hmin h (Finset.mem_filter.2 ⟨Finset.mem_range.2 (hc.closed.newF h hh), hh⟩)
  have sc : ∀ (k : V3 ℝ), k.dot (d • N g) = d * k.dot (N g) := fun k => by simp only [V3.dot, smul_x, smul_y, smul_z]; ring
  -- the foot of the nearest plane is on its face
  have foot : OnFace P g (d • N g) := by
    refine face_hull hc hfc hgl og cg ?_ fun h m w hh hm hw => ?_
    · rw [dot_sub, sc, unit ug]; linarith
    · obtain ⟨oh, uh, ch⟩ := hN h hh
      obtain ⟨t, ht, e⟩ := oh.same hc hh hm
      have h1 : (N h).dot (d • N g - P.pos w) ≤ 0 := by
        have h2 := min' h hh
        have h3 := oh.flat hc.closed ch hw
        have h4 := dot_le (N h) (N g)
        rw [uh, ug] at h4
        rw [dot_sub, sc]
        rw [dot_sub] at h3
        nlinarith
      have h5 := e (d • N g - P.pos w)
      nlinarith
  have h1 := hr g _ hgl foot
  have h2 : (d • N g).dot (d • N g) = d * d := by
    have := unit ug
    simp only [V3.dot, smul_x, smul_y, smul_z] at *
    linear_combination d * d * this
  rw [h2] at h1
  have h3 : r ≤ d := (mul_self_le_mul_self_iff hr0 d0).2 h1
  obtain ⟨of, uf, cf⟩ := hN f hl
  obtain ⟨t, ht, e⟩ := of.same hc hl hn
  have h4 := min' f hl
  have h5 := of.flat hc.closed cf hw
  rw [dot_sub] at h5
  have h6 := e (P.pos w)
  have h7 := e n
  have h8 := e (N f)
  rw [unit uf] at h8
  rw [dot_comm, ← nrm_mul_self] at h7
  have np := nrm_pos hn.1
  have tn : t * n.nrm = 1 := by
    have h9 : (t * n.nrm) * (t * n.nrm) = 1 * 1 := by rw [h7] at h8; linarith
    exact (mul_self_inj_of_nonneg (mul_nonneg ht.le np.le) zero_le_one).1 h9
  have h9 : r ≤ t * n.dot (P.pos w) := by linarith
  have h10 := mul_le_mul_of_nonneg_right h9 np.le
  have h11 : t * n.dot (P.pos w) * n.nrm = n.dot (P.pos w) := by linear_combination n.dot (P.pos w) * tn
  linarith

/-- A point behind all the faces is in the convex hull of the vertices. -/
theorem behind_hull (hc : Convex P) (hfc : Facets P) (hl : P.faces f ≠ none) {p : V3 ℝ} (hb : Behind P p) : HullOf P.verts p := by
  classical
  obtain ⟨o, hoM, ho⟩ := hc.mean
  have ex : ∀ f, ∃ ν : V3 ℝ, P.faces f ≠ none → Outward P f ν ∧ ∀ w, P.Corner w f → ν.dot (P.pos w - o) = 1 := by
    intro f
    by_cases hl : P.faces f ≠ none
    · obtain ⟨n, hn⟩ := hc.behind f hl
      obtain ⟨fc, hfc⟩ := Option.ne_none_iff_exists'.1 hl
      obtain ⟨a, b, c, -, -, -, -, -, -, -, -, -, cor⟩ := hc.closed.corners hfc
      have ca := (cor a).2 (Or.inl rfl)
      have hp := ho f n a hn ca
      set r := n.dot (P.pos a - o) with hr
      have hd : ∀ x, ((1 / r) • n).dot x = (1 / r) * n.dot x := fun x => by simp only [V3.dot, smul_x, smul_y, smul_z]; ring
      refine ⟨(1 / r) • n, fun _ => ⟨outward_scale hp hn fun x => ?_, fun w hw => ?_⟩⟩
      · rw [hd]; field_simp
      · have := hn.flat hc.closed ca hw
        rw [hd]
        have : n.dot (P.pos w - o) = r := by rw [hr]; rw [dot_sub] at *; linarith
        rw [this]
        field_simp
    · exact ⟨0, fun h => absurd h hl⟩
  choose ν hν using ex
  have hne : ((Finset.range P.nextF).filter fun g => P.faces g ≠ none).Nonempty :=
    ⟨f, Finset.mem_filter.2 ⟨Finset.mem_range.2 (hc.closed.newF f hl), hl⟩⟩
  obtain ⟨g, hg, hmax⟩ := Finset.exists_max_image _ (fun g => (ν g).dot (p - o)) hne
  obtain ⟨-, hgl⟩ := Finset.mem_filter.1 hg
  have max' : ∀ h, P.faces h ≠ none → (ν h).dot (p - o) ≤ (ν g).dot (p - o) := fun h hh =>
    hmax h (Finset.mem_filter.2 ⟨Finset.mem_range.2 (hc.closed.newF h hh), hh⟩)
  obtain ⟨og, ng⟩ := hν g hgl
  obtain ⟨a, b, c, area, cor, ⟨g1, m1, l1, o1, a1, b1, k1⟩, ⟨g2, m2, l2, o2, b2, c2, k2⟩, ⟨g3, m3, l3, o3, c3, a3, k3⟩⟩ := face_sides hc hfc hgl
  have na := ng a ((cor a).2 (by tauto))
  have nb := ng b ((cor b).2 (by tauto))
  have nc := ng c ((cor c).2 (by tauto))
  have lt1 : ∀ {h m x z}, P.faces h ≠ none → Outward P h m → P.Corner x h → m.dot (P.pos z - P.pos x) < 0 → (ν h).dot (P.pos z - o) < 1 := by
    intro h m x z hh hm cx k
    obtain ⟨t, ht, e⟩ := (hν h hh).1.same hc hh hm
    have h1 := (hν h hh).2 x cx
    have h2 := e (P.pos z - P.pos x)
    have h3 := mul_neg_of_pos_of_neg ht k
    rw [← h2] at h3
    rw [dot_sub] at *
    linarith
  set A := P.pos a - o with hA
  set B := P.pos b - o with hB
  set C := P.pos c - o with hC
  have eN : (P.pos b - P.pos a).cross (P.pos c - P.pos a) = (B - A).cross (C - A) := by
    rw [hA, hB, hC]
    apply V3.ext' <;> simp only [cross, sub_x, sub_y, sub_z] <;> ring
  rw [eN] at area
  have det : A.dot (B.cross C) ≠ 0 := by
    intro h0
    have h1 : ((B - A).cross (C - A)).dot A = A.dot (B.cross C) := by simp only [V3.dot, cross, sub_x, sub_y, sub_z]; ring
    have h2 := span_cross (n := ν g) (u := B - A) (v := C - A) (by rw [dot_sub, na, nb, _root_.sub_self])
      (by rw [dot_sub, na, nc, _root_.sub_self]) A
    rw [h1, h0, na, mul_zero, mul_one] at h2
    exact (dot_self_pos area).ne' h2
  set α := (p - o).dot (B.cross C) / A.dot (B.cross C) with hα
  set β := (p - o).dot (C.cross A) / A.dot (B.cross C) with hβ
  set γ := (p - o).dot (A.cross B) / A.dot (B.cross C) with hγ
  have comb : p - o = α • A + β • B + γ • C := by
    have key : (A.dot (B.cross C)) • (p - o) = ((p - o).dot (B.cross C)) • A + ((p - o).dot (C.cross A)) • B + ((p - o).dot (A.cross B)) • C := by
      apply V3.ext' <;> simp only [V3.dot, cross, add_x, add_y, add_z, smul_x, smul_y, smul_z] <;> ring
    have e1 : (p - o).dot (B.cross C) = α * A.dot (B.cross C) := by rw [hα]; field_simp
    have e2 : (p - o).dot (C.cross A) = β * A.dot (B.cross C) := by rw [hβ]; field_simp
    have e3 : (p - o).dot (A.cross B) = γ * A.dot (B.cross C) := by rw [hγ]; field_simp
    rw [e1, e2, e3] at key
    have kx := congrArg V3.x key
    have ky := congrArg V3.y key
    have kz := congrArg V3.z key
    simp only [add_x, add_y, add_z, smul_x, smul_y, smul_z] at kx ky kz ⊢
    apply V3.ext' <;> simp only [add_x, add_y, add_z, smul_x, smul_y, smul_z]
    · apply mul_left_cancel₀ det; linear_combination kx
    · apply mul_left_cancel₀ det; linear_combination ky
    · apply mul_left_cancel₀ det; linear_combination kz
  have sum : (ν g).dot (p - o) = α + β + γ := by rw [comb, dot_comb, na, nb, nc]; ring
  have pos : ∀ {h : ℕ} {x y z : ℝ}, P.faces h ≠ none → x + y + z = α + β + γ → ∀ {Z : V3 ℝ}, (ν h).dot (p - o) = x + y + z * (ν h).dot Z →
      (ν h).dot Z < 1 → 0 ≤ z := by
    intro h x y z hh hs Z e hZ
    have h1 := max' h hh
    rw [e, sum, ← hs] at h1
    by_contra hneg
    have := mul_pos_of_neg_of_neg (not_le.1 hneg) (sub_neg.2 hZ)
    linarith
  have hγ0 : 0 ≤ γ := by
    refine pos (h := g1) (x := α) (y := β) l1 rfl (Z := C) ?_ (lt1 l1 o1 a1 k1)
    rw [comb, dot_comb, (hν g1 l1).2 a a1, (hν g1 l1).2 b b1]; ring
  have hα0 : 0 ≤ α := by
    refine pos (h := g2) (x := β) (y := γ) l2 (by ring) (Z := A) ?_ (lt1 l2 o2 b2 k2)
    rw [comb, dot_comb, (hν g2 l2).2 b b2, (hν g2 l2).2 c c2]; ring
  have hβ0 : 0 ≤ β := by
    refine pos (h := g3) (x := α) (y := γ) l3 (by ring) (Z := B) ?_ (lt1 l3 o3 c3 k3)
    rw [comb, dot_comb, (hν g3 l3).2 a a3, (hν g3 l3).2 c c3]; ring
  have s1 : α + β + γ ≤ 1 := by
    have h1 := hb g (ν g) a hgl og ((cor a).2 (by tauto))
    have h2 : (ν g).dot (p - o) = (ν g).dot (p - P.pos a) + (ν g).dot A := by rw [hA]; simp only [dot_sub]; ring
    rw [← sum, h2, na]; linarith
  have mem : ∀ {w h : ℕ}, P.Corner w h → P.pos w ∈ P.verts := fun ⟨_, _, h⟩ => pos_mem (hc.closed.end_lt h)
  rcases (by positivity : 0 ≤ α + β + γ).eq_or_lt with h0 | h0
  · have e1 : α = 0 := by linarith
    have e2 : β = 0 := by linarith
    have e3 : γ = 0 := by linarith
    rw [e1, e2, e3] at comb
    have : p = o := by
      have kx := congrArg V3.x comb
      have ky := congrArg V3.y comb
      have kz := congrArg V3.z comb
      simp only [add_x, add_y, add_z, smul_x, smul_y, smul_z, sub_x, sub_y, sub_z] at kx ky kz
      apply V3.ext' <;> linarith
    rw [this]; exact hoM
  · set s := α + β + γ with hs
    have tri : HullOf P.verts ((α / s) • P.pos a + (β / s) • P.pos b + (γ / s) • P.pos c) := by
      refine hull_mono (L := [P.pos a, P.pos b, P.pos c]) ?_ ((hull_triangle _ _ _ _).2 ⟨_, _, _, by positivity, by positivity, by positivity, ?_, rfl⟩)
      · intro v hv
        simp only [List.mem_cons, List.not_mem_nil, or_false] at hv
        rcases hv with rfl | rfl | rfl
        · exact mem a1
        · exact mem b1
        · exact mem c2
      · rw [← add_div, ← add_div, ← hs, div_self h0.ne']
    have : p = (1 - s) • o + s • ((α / s) • P.pos a + (β / s) • P.pos b + (γ / s) • P.pos c) := by
      have kx := congrArg V3.x comb
      have ky := congrArg V3.y comb
      have kz := congrArg V3.z comb
      simp only [hA, hB, hC, add_x, add_y, add_z, smul_x, smul_y, smul_z, sub_x, sub_y, sub_z] at kx ky kz
      apply V3.ext' <;> simp only [add_x, add_y, add_z, smul_x, smul_y, smul_z, mul_add, ← mul_assoc, mul_div_cancel₀ _ h0.ne']
      · rw [hs]; linear_combination kx
      · rw [hs]; linear_combination ky
      · rw [hs]; linear_combination kz
    rw [this]
    exact .seg s h0.le s1 hoM tri

/-- The ball around the origin up to the nearest face is in the convex hull of the vertices. -/
theorem ball_hull (hc : Convex P) (hfc : Facets P) (h0 : Within P 0) {r : ℝ} (hr0 : 0 ≤ r) (hl : P.faces f ≠ none)
    (hr : ∀ f x, P.faces f ≠ none → OnFace P f x → r * r ≤ x.dot x) {p : V3 ℝ} (hp : p.nrm ≤ r) : HullOf P.verts p := by
  refine behind_hull hc hfc hl fun g m w hg hm hw => ?_
  have h1 := plane_far hc hfc h0 hr0 hr hg hm hw
  have h2 := dot_le m p
  have h3 := mul_le_mul_of_nonneg_left hp (nrm_nonneg m)
  rw [dot_sub]
  linarith

end Pt
end Fcl
