import Verif.Ccd.PolytopeNormal

/-!
# The expansion of a convex polytope
-/

namespace Fcl
namespace Pt

open V3

variable {P : Poly (V3 ℝ)} {outside flat : ℕ → Bool} {f : ℕ} {s : Patch} {q : V3 ℝ}

/-- The tests of visibility are exact, and no edge of a face that is seen is in line with the point. -/
structure Exact (P : Poly (V3 ℝ)) (outside flat : ℕ → Bool) (q : V3 ℝ) : Prop where
  seen : ∀ g, P.faces g ≠ none → (outside g = true ↔ Sees P q g)
  line : ∀ e g, flat e = true → P.Side e g → ¬Sees P q g

theorem patch_seen (hx : Exact P outside flat q) (hp : IsPatch P outside flat f s) (hf : Sees P q f) {g : ℕ} (hg : g ∈ s.visible) :
    Sees P q g := by
  have := hp.joined g hg
  clear hg
  induction this with
  | refl => exact hf
  | step _ he h1 h2 ih =>
    rcases he.2 with h | h
    · obtain ⟨fc, h3, -⟩ := h2
      exact (hx.seen _ (by rw [h3]; simp)).1 h
    · exact absurd ih (hx.line _ _ h h1)

/-- The two normals at a border edge. -/
theorem border_normals (hc : Convex P) (hx : Exact P outside flat q) (hp : IsPatch P outside flat f s) (hf : Sees P q f) {e w u : ℕ}
    (he : e ∈ s.border) (hj : P.Joins e w u) :
    ∃ n m : V3 ℝ, 0 < n.dot (q - P.pos w) ∧ m.dot (q - P.pos w) ≤ 0 ∧ m ≠ 0 ∧ n.dot (P.pos u - P.pos w) = 0 ∧ m.dot (P.pos u - P.pos w) = 0 ∧
      (∀ v < P.verts.length, n.dot (P.pos v - P.pos w) ≤ 0) ∧ ∀ v < P.verts.length, m.dot (P.pos v - P.pos w) ≤ 0 := by
  obtain ⟨⟨g, hg, hgs⟩, h, hhs, hh⟩ := (hp.border e).1 he
  obtain ⟨n, hn, w', hw', hpos⟩ := patch_seen hx hp hf hg
  have hl : P.faces h ≠ none := by obtain ⟨fc, h3, -⟩ := hhs; rw [h3]; simp
  obtain ⟨m, hm⟩ := hc.behind h hl
  have cw : P.Corner w g := ⟨e, hgs, hj.left⟩
  have cu : P.Corner u g := ⟨e, hgs, hj.symm.left⟩
  have dw : P.Corner w h := ⟨e, hhs, hj.left⟩
  have du : P.Corner u h := ⟨e, hhs, hj.symm.left⟩
  refine ⟨n, m, ?_, ?_, hm.1, hn.flat hc.closed cw cu, hm.flat hc.closed dw du, hn.2 w cw, hm.2 w dw⟩
  · have := hn.flat hc.closed cw hw'
    rw [dot_sub] at *
    linarith
  · have h1 := hp.unseen e he h hhs hh
    have h2 : ¬Sees P q h := fun h' => by rw [(hx.seen h hl).2 h'] at h1; cases h1
    by_contra hcon
    exact h2 ⟨m, hm, w, dw, not_le.1 hcon⟩

theorem sub_ne (hc : Convex P) {e w u : ℕ} (hj : P.Joins e w u) : P.pos u - P.pos w ≠ 0 := by
  intro h
  have hx := congrArg V3.x h
  have hy := congrArg V3.y h
  have hz := congrArg V3.z h
  simp only [sub_x, sub_y, sub_z, zero_x, zero_y, zero_z] at hx hy hz
  have := hc.apart _ _ _ _ hj.left hj.symm.left (by apply V3.ext' <;> linarith)
  subst this
  obtain ⟨ed, h1, h2⟩ := hj
  apply hc.closed.distinct h1
  rcases h2 with ⟨h2, h3⟩ | ⟨h2, h3⟩ <;> rw [h2, h3]

/-- The border does not touch itself: no vertex is on more than two border edges. -/
theorem border_le_two (hc : Convex P) (hx : Exact P outside flat q) (hp : IsPatch P outside flat f s) (hf : Sees P q f) (w : ℕ) :
    (s.border.filter fun e => touch P w e = true).card ≤ 2 := by
  by_contra hcon
  set D : V3 ℝ → Prop := fun x => ∃ v < P.verts.length, x = P.pos v - P.pos w with hD
  have full : ∀ k : V3 ℝ, k ≠ 0 → ∃ d, D d ∧ k.dot d ≠ 0 := by
    intro k hk
    obtain ⟨u, hu, h⟩ := hc.full k (P.pos w) hk
    exact ⟨_, ⟨u, hu, rfl⟩, h⟩
  have info : ∀ e ∈ s.border.filter fun e => touch P w e = true, ∃ u, ∃ n : V3 ℝ, ∃ l : ℝ, P.Joins e w u ∧ u < P.verts.length ∧ 0 < n.dot (q - P.pos w) ∧
      n.dot (P.pos u - P.pos w) = 0 ∧ (∀ x, D x → n.dot x ≤ 0) ∧ l ≠ 0 ∧ (q - P.pos w).cross (P.pos u - P.pos w) ≠ 0 ∧
      ∀ x, D x → l * ((q - P.pos w).cross (P.pos u - P.pos w)).dot x ≤ 0 := by
    intro e he
    obtain ⟨he, ht⟩ := Finset.mem_filter.1 he
    obtain ⟨ed, h1, h2⟩ := touch_iff.1 ht
    have : ∃ u, P.Joins e w u := by
      rcases h2 with rfl | rfl
      · exact ⟨ed.b, ed, h1, Or.inl ⟨rfl, rfl⟩⟩
      · exact ⟨ed.a, ed, h1, Or.inr ⟨rfl, rfl⟩⟩
    obtain ⟨u, hj⟩ := this
    obtain ⟨n, m, a1, a2, a3, a4, a5, a6, a7⟩ := border_normals hc hx hp hf he hj
    have nD : ∀ x, D x → n.dot x ≤ 0 := by rintro x ⟨v, hv, rfl⟩; exact a6 v hv
    have mD : ∀ x, D x → m.dot x ≤ 0 := by rintro x ⟨v, hv, rfl⟩; exact a7 v hv
    obtain ⟨l, b1, b2, b3⟩ := outline full a1 a2 a3 a4 a5 (sub_ne hc hj) nD mD
    exact ⟨u, n, l, hj, hc.closed.end_lt hj.symm.left, a1, a4, nD, b1, b2, b3⟩
  obtain ⟨e1, m1, e2, m2, e3, m3, n12, n13, n23⟩ := Finset.two_lt_card.1 (not_le.1 hcon)
  obtain ⟨u1, k1, l1, j1, v1, p1, z1, D1, nz1, c1, o1⟩ := info e1 m1
  obtain ⟨u2, k2, l2, j2, v2, p2, z2, D2, nz2, c2, o2⟩ := info e2 m2
  obtain ⟨u3, k3, l3, j3, v3, p3, z3, D3, nz3, c3, o3⟩ := info e3 m3
  have pig : 0 < l1 * l2 ∨ 0 < l1 * l3 ∨ 0 < l2 * l3 := by
    rcases lt_or_gt_of_ne nz1 with a | a <;> rcases lt_or_gt_of_ne nz2 with b | b <;> rcases lt_or_gt_of_ne nz3 with c | c
    · exact Or.inl (mul_pos_of_neg_of_neg a b)
    · exact Or.inl (mul_pos_of_neg_of_neg a b)
    · exact Or.inr (Or.inl (mul_pos_of_neg_of_neg a c))
    · exact Or.inr (Or.inr (mul_pos b c))
    · exact Or.inr (Or.inr (mul_pos_of_neg_of_neg b c))
    · exact Or.inr (Or.inl (mul_pos a c))
    · exact Or.inl (mul_pos a b)
    · exact Or.inl (mul_pos a b)
  rcases pig with h | h | h
  · obtain ⟨t, ht, he⟩ := outline_eq full p1 p2 z1 z2 ⟨u1, v1, rfl⟩ ⟨u2, v2, rfl⟩ D1 D2 h c1 c2 o1 o2
    exact n12 (hc.strict _ _ _ _ _ j1 j2 t ht he)
  · obtain ⟨t, ht, he⟩ := outline_eq full p1 p3 z1 z3 ⟨u1, v1, rfl⟩ ⟨u3, v3, rfl⟩ D1 D3 h c1 c3 o1 o3
    exact n13 (hc.strict _ _ _ _ _ j1 j3 t ht he)
  · obtain ⟨t, ht, he⟩ := outline_eq full p2 p3 z2 z3 ⟨u2, v2, rfl⟩ ⟨u3, v3, rfl⟩ D2 D3 h c2 c3 o2 o3
    exact n23 (hc.strict _ _ _ _ _ j2 j3 t ht he)

theorem filter_card {V : Type*} {P : Poly V} {bor : List ℕ} (nb : bor.Nodup) (mb : ∀ x, x ∈ bor ↔ x ∈ s.border) (w : ℕ) :
    (bor.filter (touch P w)).length = (s.border.filter fun e => touch P w e = true).card := by
  rw [← List.toFinset_card_of_nodup (nb.filter _)]
  congr 1
  ext e
  simp [mb]

theorem border_deg (hc : Convex P) (hx : Exact P outside flat q) (hp : IsPatch P outside flat f s) (hf : Sees P q f) {bor : List ℕ}
    (nb : bor.Nodup) (mb : ∀ x, x ∈ bor ↔ x ∈ s.border) (w : ℕ) :
    (bor.filter (touch P w)).length = 0 ∨ (bor.filter (touch P w)).length = 2 := by
  rw [filter_card nb mb]
  have h1 := border_le_two hc hx hp hf w
  obtain ⟨k, hk⟩ := border_even hc.closed hp w
  omega

/-- The plane through a border edge and the point. -/
theorem wedge {D : V3 ℝ → Prop} (full : ∀ k : V3 ℝ, k ≠ 0 → ∃ d, D d ∧ k.dot d ≠ 0) {n m r : V3 ℝ} (hn : 0 < n.dot r)
    (hm : m.dot r ≤ 0) (m0 : m ≠ 0) (nD : ∀ x, D x → n.dot x ≤ 0) (mD : ∀ x, D x → m.dot x ≤ 0) :
    ∃ k : V3 ℝ, k ≠ 0 ∧ k.dot r = 0 ∧ (∀ d, n.dot d = 0 → m.dot d = 0 → k.dot d = 0) ∧ ∀ x, D x → k.dot x ≤ 0 := by
  set k : V3 ℝ := (-(m.dot r)) • n + (n.dot r) • m with hk
  have kdot : ∀ x, k.dot x = -(m.dot r) * n.dot x + n.dot r * m.dot x := fun x => by
    simp [hk, dot, V3.add_x, V3.add_y, V3.add_z, V3.smul_x, V3.smul_y, V3.smul_z]; ring
  refine ⟨k, ?_, by rw [kdot]; ring, fun d h1 h2 => by rw [kdot, h1, h2]; ring, fun x hx => ?_⟩
  · intro h0
    obtain ⟨x, hx, hne⟩ := full m m0
    have h1 := kdot x
    rw [h0] at h1
    have : (0 : V3 ℝ).dot x = 0 := by simp [dot]
    rw [this] at h1
    have h2 := mul_nonneg (neg_nonneg.2 hm) (neg_nonneg.2 (nD x hx))
    have h4 : n.dot r * m.dot x < 0 := mul_neg_of_pos_of_neg hn (lt_of_le_of_ne (mD x hx) hne)
    linarith
  · rw [kdot]
    have := mul_nonneg (neg_nonneg.2 hm) (neg_nonneg.2 (nD x hx))
    have := mul_nonneg hn.le (neg_nonneg.2 (mD x hx))
    linarith

/-- The expansion of a convex polytope is convex, if the patch has all that is seen. -/
theorem expand_convex (hc : Convex P) (hx : Exact P outside flat q) (hp : IsPatch P outside flat f s) (hf : Sees P q f)
    (all : ∀ g, P.faces g ≠ none → Sees P q g → g ∈ s.visible) {R : Poly (V3 ℝ)} (hR : Closed R) (hS : Shape P s R q) : Convex R := by
  obtain ⟨hv, m, num, minj, mend, numN, numInj, hj, hside⟩ := hS
  have len : R.verts.length = P.verts.length + 1 := by rw [hv]; simp
  have posO : ∀ u < P.verts.length, R.pos u = P.pos u := fun u hu => by
    simp [Poly.pos, hv, List.getD_eq_getElem?_getD, List.getElem?_append_left hu]
  have posN : R.pos P.verts.length = q := by simp [Poly.pos, hv, List.getD_eq_getElem?_getD]
  have elt : ∀ {w e}, P.End w e → w < P.verts.length := fun h => hc.closed.end_lt h
  have lt_cases : ∀ u < R.verts.length, u < P.verts.length ∨ u = P.verts.length := fun u hu => by omega
  have live : ∀ {k h}, P.Side k h → P.edges k ≠ none := fun h => by obtain ⟨ed, h1⟩ := hc.closed.live h; rw [h1]; simp
  have joinsLive : ∀ {k a b}, P.Joins k a b → P.edges k ≠ none := fun ⟨ed, h, _⟩ => by rw [h]; simp
  have other : ∀ {Q : Poly (V3 ℝ)} {w e}, Q.End w e → ∃ u, Q.Joins e w u := by
    rintro Q w e ⟨ed, h1, rfl | rfl⟩
    · exact ⟨ed.b, ed, h1, Or.inl ⟨rfl, rfl⟩⟩
    · exact ⟨ed.a, ed, h1, Or.inr ⟨rfl, rfl⟩⟩
  -- a seen face at a vertex with a spoke
  have seenAt : ∀ {w k}, m w = some k → w < P.verts.length ∧ ∃ n : V3 ℝ, 0 < n.dot (q - P.pos w) ∧
      ∀ v < P.verts.length, n.dot (P.pos v - P.pos w) ≤ 0 := by
    intro w k hk
    obtain ⟨-, e, he, hw⟩ := mend w k hk
    obtain ⟨u, hju⟩ := other hw
    obtain ⟨n, -, h1, -, -, -, -, h2, -⟩ := border_normals hc hx hp hf he hju
    exact ⟨elt hw, n, h1, h2⟩
  refine ⟨hR, ?_, ?_, ?_, ?_⟩
  · intro h hl
    obtain ⟨fc, hfc⟩ := Option.ne_none_iff_exists'.1 hl
    have hs0 : R.Side fc.e0 h := ⟨fc, hfc, by simp [Face.edges]⟩
    rcases (hside _ _).1 hs0 with ⟨hvis, hs1⟩ | ⟨e, he, rfl, -⟩
    · have hPl : P.faces h ≠ none := by obtain ⟨fc', h3, -⟩ := hs1; rw [h3]; simp
      obtain ⟨n, hn⟩ := hc.behind h hPl
      refine ⟨n, hn.1, fun w hw u hu => ?_⟩
      have cw : P.Corner w h := by
        obtain ⟨k, hk, hwk⟩ := hw
        rcases (hside _ _).1 hk with ⟨-, hk'⟩ | ⟨e, -, rfl, -⟩
        · obtain ⟨b, hb⟩ := other hwk
          rcases hj _ _ _ hb with hb | ⟨w', hw', -⟩
          · exact ⟨k, hk', hb.left⟩
          · exact absurd (mend _ _ hw').1 (live hk')
        · exact absurd (numN e) hPl
      obtain ⟨e0, -, he0⟩ := id cw
      rw [posO w (elt he0)]
      rcases lt_cases u hu with hu | rfl
      · rw [posO u hu]
        exact hn.2 w cw u hu
      · rw [posN]
        by_contra hcon
        exact hvis (all h hPl ⟨n, hn, w, cw, not_le.1 hcon⟩)
    · obtain ⟨⟨g, -, hgs⟩, -⟩ := (hp.border e).1 he
      obtain ⟨ed, hed⟩ := hc.closed.live hgs
      have hjab : P.Joins e ed.a ed.b := ⟨ed, hed, Or.inl ⟨rfl, rfl⟩⟩
      set a := ed.a
      set b := ed.b
      have la : a < P.verts.length := elt hjab.left
      have lb : b < P.verts.length := elt hjab.symm.left
      obtain ⟨n, m', a1, a2, a3, a4, a5, a6, a7⟩ := border_normals hc hx hp hf he hjab
      obtain ⟨k, k0, kr, kd, kD⟩ := wedge (D := fun x => ∃ v < P.verts.length, x = P.pos v - P.pos a)
        (fun k hk => by obtain ⟨u, hu, h⟩ := hc.full k (P.pos a) hk; exact ⟨_, ⟨u, hu, rfl⟩, h⟩) a1 a2 a3
        (by rintro x ⟨v, hv, rfl⟩; exact a6 v hv) (by rintro x ⟨v, hv, rfl⟩; exact a7 v hv)
      have kall : ∀ u < R.verts.length, k.dot (R.pos u - P.pos a) ≤ 0 := by
        intro u hu
        rcases lt_cases u hu with hu | rfl
        · rw [posO u hu]; exact kD _ ⟨u, hu, rfl⟩
        · rw [posN]; exact kr.le
      refine ⟨k, k0, fun w hw u hu => ?_⟩
      have wz : k.dot (R.pos w - P.pos a) = 0 := by
        have wc : w = a ∨ w = b ∨ w = P.verts.length := by
          obtain ⟨k', hk, hwk⟩ := hw
          obtain ⟨b', hb⟩ := other hwk
          rcases (hside _ _).1 hk with ⟨-, fc', h3, -⟩ | ⟨e', he', hnum, hk'⟩
          · rw [numN e] at h3; cases h3
          · have := numInj e he e' he' hnum
            subst this
            rcases hk' with rfl | ⟨w0, hw0, hm0⟩
            · rcases hj _ _ _ hb with hb | ⟨w', hw', -⟩
              · rcases hjab.ends.1 hb.left with h | h <;> simp [h]
              · exact absurd (mend _ _ hw').1 (live hgs)
            · rcases hj _ _ _ hb with hb | ⟨w', hw', hcs⟩
              · exact absurd (mend _ _ hm0).1 (joinsLive hb)
              · have := minj _ _ _ hm0 hw'
                subst this
                rcases hcs with ⟨h, -⟩ | ⟨h, -⟩
                · exact Or.inr (Or.inr h)
                · rw [h]
                  rcases hjab.ends.1 hw0 with h | h <;> simp [h]
        rcases wc with rfl | rfl | rfl
        · rw [posO _ la]; simp [dot]
        · rw [posO _ lb]; exact kd _ a4 a5
        · rw [posN]; exact kr
      have := kall u hu
      rw [dot_sub] at *
      linarith
  · -- apart
    have cls : ∀ e w, R.End w e → (∃ e0, P.End w e0) ∨ w = P.verts.length := by
      intro e w hw
      obtain ⟨b, hb⟩ := other hw
      rcases hj _ _ _ hb with hb | ⟨w', hw', h⟩
      · exact Or.inl ⟨e, hb.left⟩
      · rcases h with ⟨h, -⟩ | ⟨h, -⟩
        · exact Or.inr h
        · obtain ⟨-, e0, -, he0⟩ := mend _ _ hw'
          exact Or.inl ⟨e0, h ▸ he0⟩
    obtain ⟨n, hn, w0, hw0, hpos⟩ := hf
    have away : ∀ u < P.verts.length, P.pos u ≠ q := fun u hu h => by
      have := hn.2 w0 hw0 u hu
      rw [h] at this
      linarith
    intro e e' w w' hw hw' heq
    rcases cls e w hw with ⟨e0, h0⟩ | rfl <;> rcases cls e' w' hw' with ⟨e1, h1⟩ | rfl
    · rw [posO _ (elt h0), posO _ (elt h1)] at heq
      exact hc.apart _ _ _ _ h0 h1 heq
    · rw [posO _ (elt h0), posN] at heq
      exact absurd heq (away _ (elt h0))
    · rw [posO _ (elt h1), posN] at heq
      exact absurd heq.symm (away _ (elt h1))
    · rfl
  · -- strict
    intro e e' w u u' h h' t ht heq
    have mixed : ∀ {w u k : ℕ} {t : ℝ}, m w = some k → u < P.verts.length → 0 < t → q - P.pos w = t • (P.pos u - P.pos w) → False := by
      intro w u k t hk hu ht heq
      obtain ⟨-, n, n1, n2⟩ := seenAt hk
      rw [heq] at n1
      have : n.dot (t • (P.pos u - P.pos w)) = t * n.dot (P.pos u - P.pos w) := by simp only [dot, smul_x, smul_y, smul_z]; ring
      rw [this] at n1
      have := mul_nonpos_of_nonneg_of_nonpos ht.le (n2 u hu)
      linarith
    rcases hj _ _ _ h with hP | ⟨w0, hm0, hc0⟩ <;> rcases hj _ _ _ h' with hP' | ⟨w1, hm1, hc1⟩
    · have lw := elt hP.left
      rw [posO _ lw, posO _ (elt hP.symm.left), posO _ (elt hP'.symm.left)] at heq
      exact hc.strict _ _ _ _ _ hP hP' t ht heq
    · have lw := elt hP.left
      rcases hc1 with ⟨rfl, -⟩ | ⟨rfl, rfl⟩
      · omega
      · rw [posO _ lw, posN, posO _ (elt hP.symm.left)] at heq
        exact (mixed hm1 (elt hP.symm.left) ht heq).elim
    · have lw := elt hP'.left
      rcases hc0 with ⟨rfl, -⟩ | ⟨rfl, rfl⟩
      · omega
      · rw [posO _ lw, posN, posO _ (elt hP'.symm.left)] at heq
        refine (mixed hm0 (elt hP'.symm.left) (inv_pos.2 ht) ?_).elim
        rw [heq]
        apply V3.ext' <;> simp only [smul_x, smul_y, smul_z] <;> field_simp
    · have same : w0 = w1 → e = e' := fun h => by
        subst h
        rw [hm0] at hm1
        exact Option.some.inj hm1
      obtain ⟨l0, n0, n01, n02⟩ := seenAt hm0
      obtain ⟨l1, n1, n11, n12⟩ := seenAt hm1
      rcases hc0 with ⟨rfl, rfl⟩ | ⟨rfl, rfl⟩ <;> rcases hc1 with ⟨k1, rfl⟩ | ⟨k1, rfl⟩
      · rw [posN, posO _ l0, posO _ l1] at heq
        have dq : ∀ n : V3 ℝ, n.dot (P.pos u') - n.dot q = t * (n.dot (P.pos u) - n.dot q) := fun n => by
          have := congrArg (fun x => n.dot x) heq
          simp only [dot, sub_x, sub_y, sub_z, smul_x, smul_y, smul_z] at this ⊢
          linarith
        have b0 := n02 u' l1
        have b1 := n12 u l0
        have d0 := dq n0
        have d1 := dq n1
        rw [dot_sub] at n01 n11 b0 b1
        apply same
        rcases lt_trichotomy t 1 with h | h | h
        · have := mul_pos (sub_pos.2 h) n01
          nlinarith
        · subst h
          obtain ⟨-, e0, -, he0⟩ := mend _ _ hm0
          obtain ⟨-, e1, -, he1⟩ := mend _ _ hm1
          refine (hc.apart _ _ _ _ he1 he0 ?_).symm
          have ax := congrArg V3.x heq
          have ay := congrArg V3.y heq
          have az := congrArg V3.z heq
          simp only [sub_x, sub_y, sub_z, smul_x, smul_y, smul_z, one_mul] at ax ay az
          apply V3.ext' <;> linarith
        · have h3 : 0 < n1.dot q - n1.dot (P.pos u) := by
            by_contra hcon
            have := mul_nonneg ht.le (sub_nonneg.2 (not_lt.1 hcon |> fun h => (by linarith : n1.dot q ≤ n1.dot (P.pos u))))
            linarith
          have := mul_pos (sub_pos.2 h) h3
          nlinarith
      · omega
      · omega
      · exact same k1
  · intro k w hk
    obtain ⟨u, hu, h⟩ := hc.full k w hk
    exact ⟨u, by omega, by rw [posO u hu]; exact h⟩

theorem Shape.within {R : Poly (V3 ℝ)} (hS : Shape P s R q) {p : V3 ℝ} (h : Within P p) : Within R p := by
  intro k c hk
  refine h k c fun u hu => ?_
  have := hk u (by rw [hS.1]; simp; omega)
  rwa [show R.pos u = P.pos u by simp [Poly.pos, hS.1, List.getD_eq_getElem?_getD, List.getElem?_append_left hu]] at this

end Pt
end Fcl
