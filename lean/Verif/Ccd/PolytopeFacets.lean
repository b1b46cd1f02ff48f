import Verif.Ccd.PolytopeBall

/-!
# The faces of the expanded polytope are in different planes
-/

namespace Fcl
namespace Pt

open V3

variable {P : Poly (V3 ℝ)} {outside flat : ℕ → Bool} {f : ℕ} {s : Patch} {q : V3 ℝ}

/-- The point is in the plane of no face. -/
def Generic (P : Poly (V3 ℝ)) (q : V3 ℝ) : Prop := ∀ g n w, P.faces g ≠ none → Outward P g n → P.Corner w g → n.dot (q - P.pos w) ≠ 0

theorem dot_add (k a b : V3 ℝ) : k.dot (a + b) = k.dot a + k.dot b := by
  simp only [dot, add_x, add_y, add_z]; ring

theorem dot_smul (k a : V3 ℝ) (t : ℝ) : k.dot (t • a) = t * k.dot a := by
  simp only [dot, smul_x, smul_y, smul_z]; ring

/-- The vertices in the plane of a new face are on its border edge. -/
theorem border_plane (hc : Convex P) (hfc : Facets P) (hx : Exact P outside flat q) (hp : IsPatch P outside flat f s) (hf : Sees P q f)
    (hq : Generic P q) {e a b v : ℕ} (he : e ∈ s.border) (hj : P.Joins e a b) (hv : v < P.verts.length) {n : V3 ℝ} (n0 : n ≠ 0)
    (nb : n.dot (P.pos b - P.pos a) = 0) (nq : n.dot (q - P.pos a) = 0) (nv : n.dot (P.pos v - P.pos a) = 0) :
    ∃ t : ℝ, 0 ≤ t ∧ t ≤ 1 ∧ P.pos v = P.pos a + t • (P.pos b - P.pos a) := by
  obtain ⟨⟨g, hg, hgs⟩, h, hhs, hh⟩ := (hp.border e).1 he
  obtain ⟨n1, on1, w', hw', hpos⟩ := patch_seen hx hp hf hg
  have hgl : P.faces g ≠ none := hp.faces g hg
  have hl : P.faces h ≠ none := by obtain ⟨fc, h3, -⟩ := hhs; rw [h3]; simp
  obtain ⟨m1, om1⟩ := hc.behind h hl
  have ca : P.Corner a g := ⟨e, hgs, hj.left⟩
  have cb : P.Corner b g := ⟨e, hgs, hj.symm.left⟩
  have da : P.Corner a h := ⟨e, hhs, hj.left⟩
  have db : P.Corner b h := ⟨e, hhs, hj.symm.left⟩
  have hgh : h ≠ g := fun h' => hh (h' ▸ hg)
  set u := P.pos b - P.pos a with hu
  set r := q - P.pos a with hr
  set x := P.pos v - P.pos a with hxv
  have n1r : 0 < n1.dot r := by
    have := on1.flat hc.closed ca hw'
    rw [hr]; rw [dot_sub] at *
    linarith
  have m1r : m1.dot r < 0 := by
    refine lt_of_le_of_ne ?_ (hq h m1 a hl om1 da)
    have h1 := hp.unseen e he h hhs hh
    have h2 : ¬Sees P q h := fun h' => by rw [(hx.seen h hl).2 h'] at h1; cases h1
    by_contra hcon
    exact h2 ⟨m1, om1, a, da, not_le.1 hcon⟩
  have n1u : n1.dot u = 0 := on1.flat hc.closed ca cb
  have m1u : m1.dot u = 0 := om1.flat hc.closed da db
  have u0 : u ≠ 0 := sub_ne hc hj
  have N0 : u.cross r ≠ 0 := fun h0 => by
    have := parallel_of_cross u0 h0
    rw [this, dot_smul, n1u, mul_zero] at n1r
    exact lt_irrefl _ n1r
  have NN := dot_self_pos N0
  have nN : n.dot (u.cross r) ≠ 0 := fun h => by
    have := span_cross nb nq n
    rw [h, zero_mul] at this
    rcases mul_eq_zero.1 this with h' | h'
    · exact NN.ne' h'
    · exact (dot_self_pos n0).ne' h'
  have Nx : (u.cross r).dot x = 0 := by
    have := span_cross nb nq x
    rw [nv, mul_zero] at this
    exact (mul_eq_zero.1 this.symm).resolve_left nN
  set k : V3 ℝ := (-(m1.dot r)) • n1 + (n1.dot r) • m1 with hk
  have kdot : ∀ x, k.dot x = -(m1.dot r) * n1.dot x + n1.dot r * m1.dot x := fun x => by
    simp [hk, dot, V3.add_x, V3.add_y, V3.add_z, V3.smul_x, V3.smul_y, V3.smul_z]; ring
  have kx : k.dot x = 0 := by
    have := span_cross (n := k) (u := u) (v := r) (by rw [kdot, n1u, m1u]; ring) (by rw [kdot]; ring) x
    rw [Nx, mul_zero] at this
    exact (mul_eq_zero.1 this).resolve_left NN.ne'
  have a1 := on1.2 a ca v hv
  have a2 := om1.2 a da v hv
  rw [← hxv] at a1 a2
  rw [kdot] at kx
  have b1 := mul_nonneg (neg_nonneg.2 m1r.le) (neg_nonneg.2 a1)
  have b2 := mul_nonneg n1r.le (neg_nonneg.2 a2)
  have n1x : n1.dot x = 0 := (mul_eq_zero.1 (by linarith : -(m1.dot r) * n1.dot x = 0)).resolve_left (neg_ne_zero.2 m1r.ne)
  have m1x : m1.dot x = 0 := (mul_eq_zero.1 (by linarith : n1.dot r * m1.dot x = 0)).resolve_left n1r.ne'
  have on : OnFace P g (P.pos v) := by
    refine face_hull hc hfc hgl on1 ca n1x fun g' m w _ hm hw => hm.2 w hw v hv
  obtain ⟨i, j, l, cor, hull⟩ := on
  have hab : a ≠ b := by rintro rfl; exact u0 (by rw [hu]; apply V3.ext' <;> simp)
  have ex : ∃ z, ∀ w, P.Corner w g ↔ w = a ∨ w = b ∨ w = z := by
    rcases (cor a).1 ca with rfl | rfl | rfl <;> rcases (cor b).1 cb with rfl | rfl | rfl
    · exact absurd rfl hab
    · exact ⟨l, cor⟩
    · exact ⟨j, fun w => by rw [cor]; tauto⟩
    · exact ⟨l, fun w => by rw [cor]; tauto⟩
    · exact absurd rfl hab
    · exact ⟨i, fun w => by rw [cor]; tauto⟩
    · exact ⟨j, fun w => by rw [cor]; tauto⟩
    · exact ⟨i, fun w => by rw [cor]; tauto⟩
    · exact absurd rfl hab
  obtain ⟨z, cz⟩ := ex
  have hull' : HullOf [P.pos a, P.pos b, P.pos z] (P.pos v) := by
    refine hull_mono (fun y hy => ?_) hull
    have mem : ∀ w, P.Corner w g → P.pos w ∈ [P.pos a, P.pos b, P.pos z] := fun w hw => by
      rcases (cz w).1 hw with rfl | rfl | rfl <;> simp
    simp only [List.mem_cons, List.not_mem_nil, or_false] at hy
    rcases hy with rfl | rfl | rfl
    · exact mem _ ((cor _).2 (by tauto))
    · exact mem _ ((cor _).2 (by tauto))
    · exact mem _ ((cor _).2 (by tauto))
  have zlt := across_lt hc hfc hgs hhs hgh hj (fun w hw => (cz w).1 hw) ((cz z).2 (by tauto)) om1
  obtain ⟨α, β, γ, hα, hβ, hγ, hs, hcomb⟩ := (hull_triangle _ _ _ _).1 hull'
  have gz : γ * m1.dot (P.pos z - P.pos a) = 0 := by
    rw [hxv, dot_sub, hcomb, dot_comb] at m1x
    rw [hu, dot_sub] at m1u
    rw [dot_sub]
    have : α = 1 - β - γ := by linarith
    rw [this] at m1x
    linear_combination m1x - β * m1u
  have g0 : γ = 0 := (mul_eq_zero.1 gz).resolve_right zlt.ne
  refine ⟨β, hβ, by linarith, ?_⟩
  rw [hcomb, g0, hu]
  have : α = 1 - β := by linarith
  rw [this]
  apply V3.ext' <;> simp only [add_x, add_y, add_z, smul_x, smul_y, smul_z, sub_x, sub_y, sub_z] <;> ring

/-- No two faces of the expanded polytope are in one plane, if the point is in the plane of no face. -/
theorem expand_facets (hc : Convex P) (hfc : Facets P) (hx : Exact P outside flat q) (hp : IsPatch P outside flat f s) (hf : Sees P q f)
    (hq : Generic P q) {R : Poly (V3 ℝ)} (hR : Closed R) (hS : Shape P s R q) : Facets R := by
  obtain ⟨hv, m, num, minj, mend, numN, numInj, hj, hside⟩ := hS
  have len : R.verts.length = P.verts.length + 1 := by rw [hv]; simp
  have posO : ∀ u < P.verts.length, R.pos u = P.pos u := fun u hu => by
    simp [Poly.pos, hv, List.getD_eq_getElem?_getD, List.getElem?_append_left hu]
  have posN : R.pos P.verts.length = q := by simp [Poly.pos, hv, List.getD_eq_getElem?_getD]
  have live : ∀ {k h}, P.Side k h → P.edges k ≠ none := fun h => by obtain ⟨ed, h1⟩ := hc.closed.live h; rw [h1]; simp
  -- an old edge that is kept has its ends
  have ends : ∀ {k h w}, R.Side k h → P.edges k ≠ none → P.End w k → R.End w k := by
    intro k h w hs hk hw
    obtain ⟨ed, he⟩ := hR.live hs
    have jr : R.Joins k ed.a ed.b := ⟨ed, he, Or.inl ⟨rfl, rfl⟩⟩
    rcases hj _ _ _ jr with h1 | ⟨w', h1, -⟩
    · rcases h1.ends.1 hw with rfl | rfl
      · exact ⟨ed, he, Or.inl rfl⟩
      · exact ⟨ed, he, Or.inr rfl⟩
    · exact absurd (mend _ _ h1).1 hk
  have kind : ∀ h, R.faces h ≠ none → (h ∉ s.visible ∧ P.faces h ≠ none) ∨ ∃ e ∈ s.border, h = num e := by
    intro h hl
    obtain ⟨fc, hfc⟩ := Option.ne_none_iff_exists'.1 hl
    have hs0 : R.Side fc.e0 h := ⟨fc, hfc, by simp [Face.edges]⟩
    rcases (hside _ _).1 hs0 with ⟨hvis, hs1⟩ | ⟨e, he, rfl, -⟩
    · exact Or.inl ⟨hvis, by obtain ⟨fc', h3, -⟩ := hs1; rw [h3]; simp⟩
    · exact Or.inr ⟨e, he, rfl⟩
  have oldO : ∀ {h n}, h ∉ s.visible → Outward R h n → Outward P h n := by
    intro h n hvis ho
    refine ⟨ho.1, fun w ⟨k, hk, hw⟩ u hu => ?_⟩
    have sk : R.Side k h := (hside _ _).2 (Or.inl ⟨hvis, hk⟩)
    have := ho.2 w ⟨k, sk, ends sk (live hk) hw⟩ u (by omega)
    rwa [posO u hu, posO w (hc.closed.end_lt hw)] at this
  have newO : ∀ {e n}, e ∈ s.border → Outward R (num e) n → ∃ a b, P.Joins e a b ∧ a < P.verts.length ∧ b < P.verts.length ∧
      n.dot (q - P.pos a) = 0 ∧ n.dot (P.pos b - P.pos a) = 0 ∧ ∀ u < P.verts.length, n.dot (P.pos u - P.pos a) ≤ 0 := by
    intro e n he ho
    have se : R.Side e (num e) := (hside _ _).2 (Or.inr ⟨e, he, rfl, Or.inl rfl⟩)
    obtain ⟨⟨g, -, hgs⟩, -⟩ := (hp.border e).1 he
    obtain ⟨ed, hed⟩ := hc.closed.live hgs
    have je : P.Joins e ed.a ed.b := ⟨ed, hed, Or.inl ⟨rfl, rfl⟩⟩
    have la := hc.closed.end_lt je.left
    have lb := hc.closed.end_lt je.symm.left
    have ca : R.Corner ed.a (num e) := ⟨e, se, ends se (live hgs) je.left⟩
    have cb : R.Corner ed.b (num e) := ⟨e, se, ends se (live hgs) je.symm.left⟩
    have cq : R.Corner P.verts.length (num e) := by
      obtain ⟨fc, hfc, hem⟩ := id se
      obtain ⟨nd, -⟩ := hR.tri _ _ hfc
      have : ∃ k ∈ fc.edges, k ≠ e := by
        simp only [Face.edges, List.nodup_cons, List.mem_cons, List.not_mem_nil, or_false, not_or] at nd
        by_cases h0 : fc.e0 = e
        · exact ⟨fc.e1, by simp [Face.edges], fun h => nd.1.1 (h0.trans h.symm)⟩
        · exact ⟨fc.e0, by simp [Face.edges], h0⟩
      obtain ⟨k, hk, hke⟩ := this
      have sk : R.Side k (num e) := ⟨fc, hfc, hk⟩
      rcases (hside _ _).1 sk with ⟨-, fc', h3, -⟩ | ⟨e', he', hnum, h | ⟨w, -, hw⟩⟩
      · rw [numN] at h3; cases h3
      · have := numInj _ he _ he' hnum
        exact absurd (h.trans this.symm) hke
      · obtain ⟨ed', hed'⟩ := hR.live sk
        refine ⟨k, sk, ed', hed', ?_⟩
        rcases hj k ed'.a ed'.b ⟨ed', hed', Or.inl ⟨rfl, rfl⟩⟩ with h | ⟨w', -, ⟨h, -⟩ | ⟨-, h⟩⟩
        · exact absurd (mend _ _ hw).1 (by obtain ⟨d, hd, -⟩ := h; rw [hd]; simp)
        · exact Or.inl h
        · exact Or.inr h
    refine ⟨ed.a, ed.b, je, la, lb, ?_, ?_, fun u hu => ?_⟩
    · have := ho.flat hR ca cq
      rwa [posN, posO _ la] at this
    · have := ho.flat hR ca cb
      rwa [posO _ lb, posO _ la] at this
    · have := ho.2 _ ca u (by omega)
      rwa [posO u hu, posO _ la] at this
  -- an old face and a new one
  have mixed : ∀ {h e n}, h ∉ s.visible → P.faces h ≠ none → e ∈ s.border → Outward R h n → Outward R (num e) n → False := by
    intro h e n hvis hl he o1 o2
    obtain ⟨a, b, je, la, lb, k1, k2, k3⟩ := newO he o2
    have o1' := oldO hvis o1
    obtain ⟨fc, hfc⟩ := Option.ne_none_iff_exists'.1 hl
    obtain ⟨w, b0, c0, -, -, -, -, -, -, -, -, -, cor⟩ := hc.closed.corners hfc
    have cw := (cor w).2 (Or.inl rfl)
    have lw : w < P.verts.length := by obtain ⟨_, _, h⟩ := id cw; exact hc.closed.end_lt h
    apply hq h n w hl o1' cw
    have h1 := o1'.2 w cw a la
    have h2 := k3 w lw
    rw [dot_sub] at *
    linarith
  intro f1 f2 n l1 l2 o1 o2
  rcases kind f1 l1 with ⟨v1, p1⟩ | ⟨e1, b1, rfl⟩ <;> rcases kind f2 l2 with ⟨v2, p2⟩ | ⟨e2, b2, rfl⟩
  · exact hfc f1 f2 n p1 p2 (oldO v1 o1) (oldO v2 o2)
  · exact (mixed v1 p1 b2 o1 o2).elim
  · exact (mixed v2 p2 b1 o2 o1).elim
  · obtain ⟨a, b, je, la, lb, k1, k2, k3⟩ := newO b1 o1
    obtain ⟨a', b', je', la', lb', k1', k2', k3'⟩ := newO b2 o2
    have z1 : n.dot (P.pos a' - P.pos a) = 0 := by
      have h1 := k3 a' la'
      have h2 := k3' a la
      rw [dot_sub] at *
      linarith
    have z2 : n.dot (P.pos b' - P.pos a) = 0 := by rw [dot_sub] at *; linarith
    have z3 : n.dot (P.pos a - P.pos a') = 0 := by rw [dot_sub] at *; linarith
    have z4 : n.dot (P.pos b - P.pos a') = 0 := by rw [dot_sub] at *; linarith
    obtain ⟨t, t0, t1, ht⟩ := border_plane hc hfc hx hp hf hq b1 je la' o1.1 k2 k1 z1
    obtain ⟨t', t0', t1', ht'⟩ := border_plane hc hfc hx hp hf hq b1 je lb' o1.1 k2 k1 z2
    obtain ⟨c, c0, c1, hc1⟩ := border_plane hc hfc hx hp hf hq b2 je' la o1.1 k2' k1' z3
    obtain ⟨c', c0', c1', hc1'⟩ := border_plane hc hfc hx hp hf hq b2 je' lb o1.1 k2' k1' z4
    have u0 := sub_ne hc je
    set u := P.pos b - P.pos a with hu
    have uu := dot_self_pos u0
    have ev : ∀ {x : V3 ℝ} {τ : ℝ}, x = P.pos a + τ • u → u.dot x = u.dot (P.pos a) + τ * u.dot u := fun h => by rw [h, dot_add, dot_smul]
    have e1' := ev ht
    have e2' := ev ht'
    have eb : u.dot (P.pos b) = u.dot (P.pos a) + u.dot u := by rw [hu, dot_sub]; ring
    have q1 := congrArg u.dot hc1
    have q2 := congrArg u.dot hc1'
    rw [dot_add, dot_smul, dot_sub, e1', e2'] at q1 q2
    rw [eb] at q2
    have r1 : (1 - c) * t + c * t' = 0 := by
      apply mul_right_cancel₀ uu.ne'; linear_combination -q1
    have r2 : (1 - c') * t + c' * t' = 1 := by
      apply mul_right_cancel₀ uu.ne'; linear_combination -q2
    have ends : (t = 0 ∧ t' = 1) ∨ (t = 1 ∧ t' = 0) := by
      have m1 := mul_nonneg (by linarith : 0 ≤ 1 - c) t0
      have m2 := mul_nonneg c0 t0'
      have m3 := mul_nonneg (by linarith : 0 ≤ 1 - c') (by linarith : 0 ≤ 1 - t)
      have m4 := mul_nonneg c0' (by linarith : 0 ≤ 1 - t')
      have z5 : (1 - c) * t = 0 := by linarith
      have z6 : c * t' = 0 := by linarith
      have z7 : (1 - c') * (1 - t) = 0 := by linarith
      have z8 : c' * (1 - t') = 0 := by linarith
      rcases mul_eq_zero.1 z5 with h | h
      · have hc1 : c = 1 := by linarith
        rw [hc1, one_mul] at z6
        rw [z6] at z8
        have : c' = 0 := by linarith
        rw [this] at z7
        exact Or.inr ⟨by linarith, z6⟩
      · rw [h] at z7
        have : c' = 1 := by linarith
        rw [this] at z8
        exact Or.inl ⟨h, by linarith⟩
    have at0 : P.pos a + (0 : ℝ) • u = P.pos a := by apply V3.ext' <;> simp
    have at1 : P.pos a + (1 : ℝ) • u = P.pos b := by rw [hu]; apply V3.ext' <;> simp
    have fin : ∀ {x y}, P.Joins e2 x y → P.pos x = P.pos a → P.pos y = P.pos b → e1 = e2 := by
      intro x y jx hx hy
      have := hc.apart _ _ _ _ jx.left je.left hx
      subst this
      refine hc.strict _ _ _ _ _ je jx 1 one_pos ?_
      rw [hy]; apply V3.ext' <;> simp
    rw [show e1 = e2 from ?_]
    rcases ends with ⟨rfl, rfl⟩ | ⟨rfl, rfl⟩
    · rw [at0] at ht; rw [at1] at ht'
      exact fin je' ht ht'
    · rw [at1] at ht; rw [at0] at ht'
      exact fin je'.symm ht' ht

end Pt
end Fcl
