import Verif.Props.BoxBox
import Verif.Narrow.FaceLemmas

/-!
# C101: the contacts of two boxes
-/

namespace Fcl
namespace BoxBox
open V3 Zono

variable {eps big : ℝ} {ang : List (ℝ × ℝ) → ℕ → ℝ} {s1 s2 : V3 ℝ} {X1 X2 : Pose ℝ} {maxc : ℕ} {o : Out}

theorem boxAt_of_within {s y p : V3 ℝ} {X : Pose ℝ} (h : Within (half s) y) (e : p = X.R.mulVec y + X.t) : p ∈ BoxAt s X :=
  ⟨y, (mem_box _ _).2 h, e⟩

/-- What is known of the normal when a side was found. -/
theorem face_normal (h1 : X1.Rigid) (h2 : X2.Rigid) (he : 0 ≤ eps) {st : Sat} (P : Passed eps s1 X1 s2 X2 st) (hc : st.code ≤ 6) :
    ∃ s : ℝ, (s = 1 ∨ s = -1) ∧ st.normal = s • worldAxis X1.R X2.R st.code := by
  rcases P.best with ⟨-, -, -, b2, -⟩ | ⟨c7, -⟩
  · rw [Sat.normal, b2]
    split_ifs
    · exact ⟨-1, Or.inr rfl, by v3⟩
    · exact ⟨1, Or.inl rfl, by v3⟩
  · omega

/-- The contacts of a face as candidates. -/
theorem face_contacts (h1 : X1.Rigid) (h2 : X2.Rigid) (w1 : Sides s1) (w2 : Sides s2) (he : 0 ≤ eps) {st : Sat} (P : Passed eps s1 X1 s2 X2 st)
    (hc : st.code ≤ 6) :
    ∃ (cs : List Cand) (f : Cand → CPoint), (∀ c ∈ cs, IsContact (BoxAt s1 X1) (BoxAt s2 X2) (f c)) ∧ (∀ c, (f c).depth = c.dep ∧ (f c).normal = st.normal) ∧
      ∀ maxc, faceContacts ang maxc X1 (half s1) X2 (half s2) st = (chosen ang maxc cs).filterMap fun i => cs[i]?.map f := by
  obtain ⟨s, hs, hn⟩ := face_normal h1 h2 he P hc
  by_cases c3 : st.code ≤ 3
  · have hn' : st.normal = s • X1.R.col (Fin.ofNat 3 (st.code - 1)) := by rw [hn, worldAxis, if_pos c3]
    refine ⟨faceCands X1 (half s1) X2 (half s2) st.normal (Fin.ofNat 3 (st.code - 1)), fun c => ⟨st.normal, c.pt + X1.t + (c.dep / 2) • st.normal, c.dep⟩, fun c hc => ?_,
      fun c => ⟨rfl, rfl⟩, fun maxc => by rw [faceContacts, if_pos c3]⟩
    obtain ⟨d0, ⟨y, hy, ey⟩, x, hx, ex⟩ := (faceCands_spec h1 h2 (half_nonneg w1) (half_nonneg w2) hs hn').2 c hc
    refine ⟨d0, boxAt_of_within hx ?_, boxAt_of_within hy ?_⟩
    · rw [← ex]; v3
    · rw [← ey]; v3
  · have hn' : -st.normal = (-s) • X2.R.col (Fin.ofNat 3 (st.code - 4)) := by rw [hn, worldAxis, if_neg c3]; v3
    refine ⟨faceCands X2 (half s2) X1 (half s1) (-st.normal) (Fin.ofNat 3 (st.code - 4)), fun c => ⟨st.normal, c.pt + X2.t - (c.dep / 2) • st.normal, c.dep⟩, fun c hc => ?_,
      fun c => ⟨rfl, rfl⟩, fun maxc => by rw [faceContacts, if_neg c3]⟩
    obtain ⟨d0, ⟨y, hy, ey⟩, x, hx, ex⟩ := (faceCands_spec h2 h1 (half_nonneg w2) (half_nonneg w1) (by rcases hs with h | h <;> rw [h] <;> simp) hn').2 c hc
    refine ⟨d0, boxAt_of_within hy ?_, boxAt_of_within hx ?_⟩
    · rw [← ey]; v3
    · rw [← ex]; v3

/-- A contact is not deeper than any depth that separates along its normal. -/
theorem contact_le {A B : Set (V3 ℝ)} {c : CPoint} (h : IsContact A B c) {d : ℝ} (hs : SeparatesAlong A B c.normal d) : c.depth ≤ d := by
  by_contra hn
  push Not at hn
  refine hs.2 (c.depth - d) (by linarith) ⟨_, h.first, _, h.second, ?_⟩
  v3

/-- C101: The contacts of a face: at most as many as asked for, with the normal, and each is a contact of the two boxes that is at
most as deep as the depth. -/
theorem C101_face (h1 : X1.Rigid) (h2 : X2.Rigid) (w1 : Sides s1) (w2 : Sides s2) (he : 0 ≤ eps)
    (h : boxBox2 eps big ang maxc s1 X1 s2 X2 = some o) (hc : o.code ≤ 6) :
    o.contacts.length ≤ max maxc 1 ∧
      ∀ c ∈ o.contacts, c.normal = o.normal ∧ IsContact (BoxAt s1 X1) (BoxAt s2 X2) c ∧ c.depth ≤ o.depth := by
  have S := C100_separates h1 h2 w1 w2 he h
  obtain ⟨st, hs, ec, en, ed, eo⟩ := box2_some h
  have P := sat_some h1 h2 he hs
  rw [ec] at hc
  obtain ⟨cs, f, hf, hd, e⟩ := face_contacts (ang := ang) h1 h2 w1 w2 he P hc
  rw [if_neg (by omega), e] at eo
  obtain ⟨k1, k2, k3, k4⟩ := chosen_spec ang maxc cs
  rw [eo]
  refine ⟨(List.length_filterMap_le _ _).trans (by omega), fun c hc => ?_⟩
  obtain ⟨i, hi, hc⟩ := List.mem_filterMap.1 hc
  obtain ⟨c', hc', rfl⟩ := Option.map_eq_some_iff.1 hc
  have ic := hf c' (List.mem_of_getElem? hc')
  have n' : (f c').normal = o.normal := by rw [(hd c').2, en]
  refine ⟨n', ic, contact_le ic ?_⟩
  rw [n']; exact S.2

/-- C101: Asking for fewer contacts of a face leaves out none that is deeper than all that are reported. -/
theorem C101_deepest (h1 : X1.Rigid) (h2 : X2.Rigid) (w1 : Sides s1) (w2 : Sides s2) (he : 0 ≤ eps) {maxc' : ℕ} {o' : Out}
    (h : boxBox2 eps big ang maxc s1 X1 s2 X2 = some o) (h' : boxBox2 eps big ang maxc' s1 X1 s2 X2 = some o') :
    ∀ c' ∈ o'.contacts, ∃ c ∈ o.contacts, c'.depth ≤ c.depth := by
  obtain ⟨st, hs, ec, en, ed, eo⟩ := box2_some h
  obtain ⟨st', hs', ec', en', ed', eo'⟩ := box2_some h'
  rw [hs] at hs'
  cases hs'
  have P := sat_some h1 h2 he hs
  rw [eo, eo']
  by_cases c6 : st.code > 6
  · simp only [if_pos c6]; exact fun c' hc' => ⟨c', hc', le_rfl⟩
  · simp only [if_neg c6]
    obtain ⟨cs, f, hf, hd, e⟩ := face_contacts (ang := ang) h1 h2 w1 w2 he P (not_lt.1 c6)
    simp only [e]
    intro c' hc'
    obtain ⟨i, hi, hc'⟩ := List.mem_filterMap.1 hc'
    obtain ⟨x, hx, rfl⟩ := Option.map_eq_some_iff.1 hc'
    obtain ⟨i', hi', y, hy, hxy⟩ := (chosen_spec ang maxc cs).2.2.2 x (List.mem_of_getElem? hx)
    refine ⟨f y, List.mem_filterMap.2 ⟨i', hi', by rw [hy]; rfl⟩, ?_⟩
    rw [(hd x).1, (hd y).1]; exact hxy

theorem corner_signs {s n v y : V3 ℝ} {X : Pose ℝ} (hX : X.Rigid) (hy : ∀ i, |y.get i| = s.get i / 2) (hv : v = X.R.mulVec y + X.t)
    (hm : ∀ p ∈ BoxAt s X, n.dot p ≤ n.dot v) (i : Fin 3) : 0 ≤ y.get i * (X.R.col i).dot n := by
  obtain ⟨z, ez⟩ : ∃ z, z = y - (2 * y.get i) • (M3.one : M3 ℝ).col i := ⟨_, rfl⟩
  have hz : ∀ j, |z.get j| = s.get j / 2 := fun j => by
    rw [← hy j, ez]
    fin_cases i <;> fin_cases j <;> simp [M3.one, M3.col, V3.get] <;> (rw [← abs_neg]; congr 1; ring)
  have := hm (X.R.mulVec z + X.t) ⟨z, (mem_box _ _).2 ⟨?_, ?_, ?_⟩, rfl⟩
  · have e : X.R.mulVec z = X.R.mulVec y - (2 * y.get i) • X.R.col i := by rw [ez, M3.mulVec_sub, M3.mulVec_smul, one_col]
    rw [e, hv, dot_add, dot_add, dot_sub, dot_smul, dot_comm n (X.R.col i)] at this
    linarith
  · have := hz 0; simp only [half, V3.get, smul_x] at this ⊢; linarith
  · have := hz 1; simp only [half, V3.get, smul_y] at this ⊢; linarith
  · have := hz 2; simp only [half, V3.get, smul_z] at this ⊢; linarith

theorem half_get (s : V3 ℝ) (i : Fin 3) : (half s).get i = s.get i / 2 := by fin_cases i <;> simp [half, V3.get] <;> ring

/-- No point of a box is further along a side than half the side. -/
theorem box_reach {s p : V3 ℝ} {X : Pose ℝ} (hX : X.Rigid) (hp : p ∈ BoxAt s X) {e : ℝ} (he : e = 1 ∨ e = -1) (i : Fin 3) :
    (e • X.R.col i).dot (p - X.t) ≤ (half s).get i := by
  obtain ⟨x, hx, rfl⟩ := hp
  rw [mem_box] at hx
  have k : (X.R.col i).dot (X.R.mulVec x + X.t - X.t) = x.get i := by
    have e1 : X.R.mulVec x + X.t - X.t = X.R.mulVec x := by v3
    rw [e1, ← one_col X.R, M3.Orthonormal.dot hX]
    fin_cases i <;> simp [M3.one, M3.col, V3.get, dot]
  have ha : |x.get i| ≤ (half s).get i := by fin_cases i; exacts [hx.1, hx.2.1, hx.2.2]
  rw [smul_dot, k]
  rw [abs_le] at ha
  rcases he with rfl | rfl <;> linarith

/-- The depth is at most the depth of a furthest corner. -/
theorem depth_le_corner (h1 : X1.Rigid) (h2 : X2.Rigid) (w1 : Sides s1) (w2 : Sides s2) (he : 0 ≤ eps) {st : Sat} (P : Passed eps s1 X1 s2 X2 st)
    (hc : st.code ≤ 6) : ∃ p ∈ BoxAt s1 X1, ∃ q ∈ BoxAt s2 X2, st.normal.dot p - st.normal.dot q = -st.s := by
  obtain ⟨w, hw, hn, -, hg, -⟩ := normal_axis h1 h2 w1 w2 he P
  obtain ⟨-, p, hp, q, hq, g⟩ := gap_points h1 w1 w2 w
  rw [← hn, ← hg hc, dot_sub] at g
  exact ⟨p, hp, q, hq, by linarith⟩

/-- C101: If a corner of one box that is furthest into the other faces the inside of the face the normal belongs to, then one of the contacts
has the depth that is reported, however few contacts are asked for. -/
theorem C101_corner (h1 : X1.Rigid) (h2 : X2.Rigid) (w1 : Sides s1) (w2 : Sides s2) (he : 0 ≤ eps)
    (h : boxBox2 eps big ang maxc s1 X1 s2 X2 = some o) {k : Fin 3} {v : V3 ℝ}
    (hk : (o.code = k + 1 ∧ FurthestCorner s2 X2 (-o.normal) v ∧ Facing s1 X1 k v) ∨ (o.code = k + 4 ∧ FurthestCorner s1 X1 o.normal v ∧ Facing s2 X2 k v)) :
    ∃ c ∈ o.contacts, c.depth = o.depth := by
  obtain ⟨F1, F2⟩ := C101_face h1 h2 w1 w2 he h (by rcases hk with ⟨e, -⟩ | ⟨e, -⟩ <;> omega)
  obtain ⟨st, hs, ec, en, ed, eo⟩ := box2_some h
  have P := sat_some h1 h2 he hs
  have c6 : st.code ≤ 6 := by rcases hk with ⟨e, -⟩ | ⟨e, -⟩ <;> omega
  rw [if_neg (by omega)] at eo
  obtain ⟨s, hs1, hn⟩ := face_normal h1 h2 he P c6
  obtain ⟨p, hp, q, hq, hpq⟩ := depth_le_corner h1 h2 w1 w2 he P c6
  have P0 := P.nonpos
  suffices H : ∃ (cs : List Cand) (f : Cand → CPoint), (∀ c, (f c).depth = c.dep) ∧
      faceContacts ang maxc X1 (half s1) X2 (half s2) st = ((chosen ang maxc cs).filterMap fun i => cs[i]?.map f) ∧ ∃ x ∈ cs, -st.s ≤ x.dep by
    obtain ⟨cs, f, hd, e, x, hx, hxd⟩ := H
    obtain ⟨i', hi', y, hy, hxy⟩ := (chosen_spec ang maxc cs).2.2.2 x hx
    have hm : f y ∈ o.contacts := by rw [eo, e]; exact List.mem_filterMap.2 ⟨i', hi', by rw [hy]; rfl⟩
    refine ⟨f y, hm, le_antisymm (F2 _ hm).2.2 ?_⟩
    rw [hd, ed]; linarith
  rw [en] at hk
  rcases hk with ⟨e, ⟨⟨y, hy, hv⟩, hm⟩, hf⟩ | ⟨e, ⟨⟨y, hy, hv⟩, hm⟩, hf⟩
  · rw [ec] at e
    have c3 : st.code ≤ 3 := by omega
    have ek : Fin.ofNat 3 (st.code - 1) = k := by rw [e]; fin_cases k <;> rfl
    have hn' : st.normal = s • X1.R.col k := by rw [hn, worldAxis, if_pos c3, ek]
    refine ⟨faceCands X1 (half s1) X2 (half s2) st.normal k, fun c => ⟨st.normal, c.pt + X1.t + (c.dep / 2) • st.normal, c.dep⟩, fun c => rfl,
      by rw [faceContacts, if_pos c3, ek], ?_⟩
    have sg := corner_signs h2 hy hv hm
    have hq' := hm q hq
    have hp' := box_reach h1 hp hs1 k
    rw [← hn', dot_sub] at hp'
    rw [neg_dot, neg_dot] at hq'
    have hd : st.normal.dot (v - X1.t) ≤ (half s1).get k := by rw [dot_sub]; linarith
    obtain ⟨c, hc, -, c2⟩ := faceCands_corner (Xb := X2) (Sb := half s2) (y := y) (v := v - X1.t) h1 h2 hs1 hn' (fun i => by rw [hy, half_get]) (by rw [hv]; v3)
      (fun i => by have := sg i; rw [dot_neg] at this; linarith) (fun i hi => by rw [half_get]; exact hf i hi) hd
    refine ⟨c, hc, ?_⟩
    rw [c2, dot_sub]; linarith
  · rw [ec] at e
    have c3 : ¬ st.code ≤ 3 := by omega
    have ek : Fin.ofNat 3 (st.code - 4) = k := by rw [e]; fin_cases k <;> rfl
    have hn' : -st.normal = (-s) • X2.R.col k := by rw [hn, worldAxis, if_neg c3, ek]; v3
    have hs2 : -s = 1 ∨ -s = -1 := by rcases hs1 with h | h <;> rw [h] <;> simp
    refine ⟨faceCands X2 (half s2) X1 (half s1) (-st.normal) k, fun c => ⟨st.normal, c.pt + X2.t - (c.dep / 2) • st.normal, c.dep⟩, fun c => rfl,
      by rw [faceContacts, if_neg c3, ek], ?_⟩
    have sg := corner_signs h1 hy hv hm
    have hp' := hm p hp
    have hq' := box_reach h2 hq hs2 k
    rw [← hn', dot_sub, neg_dot, neg_dot] at hq'
    have hd : (-st.normal).dot (v - X2.t) ≤ (half s2).get k := by rw [dot_sub, neg_dot, neg_dot]; linarith
    obtain ⟨c, hc, -, c2⟩ := faceCands_corner (Xb := X1) (Sb := half s1) (y := y) (v := v - X2.t) h2 h1 hs2 hn' (fun i => by rw [hy, half_get]) (by rw [hv]; v3)
      (fun i => by have := sg i; rw [dot_neg]; linarith) (fun i hi => by rw [half_get]; exact hf i hi) hd
    refine ⟨c, hc, ?_⟩
    rw [c2, dot_sub, neg_dot, neg_dot]; linarith

/-! ### Contacts of two edges -/

theorem vertex_spec {s : V3 ℝ} {X : Pose ℝ} (w : Sides s) {n v : V3 ℝ} {f0 f1 f2 : ℝ} (a0 : |f0| = 1) (a1 : |f1| = 1) (a2 : |f2| = 1)
    (p0 : f0 * (X.R.col 0).dot n = |(X.R.col 0).dot n|) (p1 : f1 * (X.R.col 1).dot n = |(X.R.col 1).dot n|)
    (p2 : f2 * (X.R.col 2).dot n = |(X.R.col 2).dot n|)
    (ev : v = X.t + ((half s).x * f0) • X.R.col 0 + ((half s).y * f1) • X.R.col 1 + ((half s).z * f2) • X.R.col 2) :
    v ∈ BoxAt s X ∧ (∀ p ∈ BoxAt s X, n.dot p ≤ n.dot v) ∧ ∀ (i : Fin 3) (a : ℝ), OnEdgeLine s X i (v + a • X.R.col i) := by
  have h0 := half_nonneg w
  have ev : v = X.R.mulVec ⟨(half s).x * f0, (half s).y * f1, (half s).z * f2⟩ + X.t := by
    rw [ev, OBB.mulVec_cols]; v3
  have e0 : |(half s).x * f0| = (half s).x := by rw [abs_mul, a0, mul_one, abs_of_nonneg h0.1]
  have e1 : |(half s).y * f1| = (half s).y := by rw [abs_mul, a1, mul_one, abs_of_nonneg h0.2.1]
  have e2 : |(half s).z * f2| = (half s).z := by rw [abs_mul, a2, mul_one, abs_of_nonneg h0.2.2]
  refine ⟨⟨_, (mem_box _ _).2 ⟨e0.le, e1.le, e2.le⟩, ev⟩, ?_, fun i a => ?_⟩
  · rintro _ ⟨x, hx, rfl⟩
    rw [mem_box] at hx
    have key : ∀ y : V3 ℝ, n.dot (X.R.mulVec y + X.t) = y.x * (X.R.col 0).dot n + y.y * (X.R.col 1).dot n + y.z * (X.R.col 2).dot n + n.dot X.t := fun y => by
      simp only [dot, M3.mulVec, M3.col, V3.get, add_x, add_y, add_z]; ring
    rw [ev, key, key]
    dsimp only
    have b : ∀ {z h u f : ℝ}, f * u = |u| → |z| ≤ h → z * u ≤ h * f * u := fun {z h u f} hf hz => by
      rw [mul_assoc, hf]
      exact (le_abs_self _).trans (by rw [abs_mul]; exact mul_le_mul_of_nonneg_right hz (abs_nonneg _))
    have b0 := b p0 hx.1
    have b1 := b p1 hx.2.1
    have b2 := b p2 hx.2.2
    linarith
  · have eh : ∀ j, (half s).get j = s.get j / 2 := fun j => by fin_cases j <;> simp [half, V3.get] <;> ring
    rw [ev]
    refine ⟨⟨(half s).x * f0, (half s).y * f1, (half s).z * f2⟩ + a • (M3.one : M3 ℝ).col i, fun j hj => ?_, ?_⟩
    · rw [← eh]
      have k0 : (⟨(half s).x * f0, (half s).y * f1, (half s).z * f2⟩ + a • (M3.one : M3 ℝ).col i : V3 ℝ).get j =
          (⟨(half s).x * f0, (half s).y * f1, (half s).z * f2⟩ : V3 ℝ).get j := by
        fin_cases i <;> fin_cases j <;> simp [M3.one, M3.col, V3.get] at hj ⊢
      rw [k0]
      fin_cases j
      · exact e0
      · exact e1
      · exact e2
    · rw [M3.mulVec_add, M3.mulVec_smul, one_col]; v3

theorem sign_abs (u : ℝ) : |(if u > 0 then 1 else -1 : ℝ)| = 1 := by split_ifs <;> simp
theorem sign_abs' (u : ℝ) : |(if u > 0 then -1 else 1 : ℝ)| = 1 := by split_ifs <;> simp
theorem sign_mul (u : ℝ) : (if u > 0 then 1 else -1 : ℝ) * u = |u| := by
  split_ifs with h
  · rw [abs_of_pos h, one_mul]
  · rw [abs_of_nonpos (not_lt.1 h), neg_one_mul]
theorem sign_mul' (m n : V3 ℝ) : (if m.dot n > 0 then -1 else 1 : ℝ) * m.dot (-n) = |m.dot (-n)| := by
  rw [dot_neg, abs_neg]
  split_ifs with h
  · rw [abs_of_pos h]; ring
  · rw [abs_of_nonpos (not_lt.1 h), one_mul]

theorem vertexAlong_spec {s : V3 ℝ} {X : Pose ℝ} (w : Sides s) (n : V3 ℝ) :
    vertexAlong X (half s) n ∈ BoxAt s X ∧ (∀ p ∈ BoxAt s X, n.dot p ≤ n.dot (vertexAlong X (half s) n)) ∧
      ∀ (i : Fin 3) (a : ℝ), OnEdgeLine s X i (vertexAlong X (half s) n + a • X.R.col i) :=
  vertex_spec w (sign_abs _) (sign_abs _) (sign_abs _) (sign_mul _) (sign_mul _) (sign_mul _) rfl

theorem vertexAgainst_spec {s : V3 ℝ} {X : Pose ℝ} (w : Sides s) (n : V3 ℝ) :
    vertexAgainst X (half s) n ∈ BoxAt s X ∧ (∀ p ∈ BoxAt s X, n.dot (vertexAgainst X (half s) n) ≤ n.dot p) ∧
      ∀ (i : Fin 3) (a : ℝ), OnEdgeLine s X i (vertexAgainst X (half s) n + a • X.R.col i) := by
  obtain ⟨k1, k2, k3⟩ := vertex_spec (X := X) (n := -n) (v := vertexAgainst X (half s) n) w (sign_abs' _) (sign_abs' _) (sign_abs' _) (sign_mul' _ n) (sign_mul' _ n) (sign_mul' _ n) rfl
  refine ⟨k1, fun p hp => ?_, k3⟩
  have := k2 p hp
  rw [neg_dot, neg_dot] at this
  linarith

/-- The closest points of two lines. -/
theorem lineClosest_spec {pa ua pb ub : V3 ℝ} (h1 : ua.dot ua = 1) (h2 : ub.dot ub = 1) (hd : 1 / 10000 < 1 - ua.dot ub * ua.dot ub) :
    ((pb + (lineClosest pa ua pb ub).2 • ub) - (pa + (lineClosest pa ua pb ub).1 • ua)).dot ua = 0 ∧
      ((pb + (lineClosest pa ua pb ub).2 • ub) - (pa + (lineClosest pa ua pb ub).1 • ua)).dot ub = 0 := by
  rw [lineClosest]
  simp only [if_neg (not_le.2 hd)]
  have d0 : 1 - ua.dot ub * ua.dot ub ≠ 0 := by linarith
  have e : ∀ (a b : ℝ) (u : V3 ℝ), ((pb + b • ub) - (pa + a • ua)).dot u = u.dot (pb - pa) + b * ub.dot u - a * ua.dot u := fun a b u => by
    simp only [dot, sub_x, sub_y, sub_z, add_x, add_y, add_z, smul_x, smul_y, smul_z]; ring
  rw [e, e, h1, h2, dot_comm ub ua]
  have hi : 1 / (1 - ua.dot ub * ua.dot ub) * (1 - ua.dot ub * ua.dot ub) = 1 := one_div_mul_cancel d0
  generalize 1 / (1 - ua.dot ub * ua.dot ub) = i at *
  constructor
  · linear_combination (-ua.dot (pb - pa)) * hi
  · linear_combination (-ub.dot (pb - pa)) * hi

/-- What is perpendicular to two independent vectors is a multiple of any unit vector that is a multiple of their cross product. -/
theorem perp_multiple {v a b n : V3 ℝ} {k : ℝ} (ha : v.dot a = 0) (hb : v.dot b = 0) (hn : n = k • a.cross b) (hu : n.dot n = 1) : v = n.dot v • n := by
  have hx : v.cross n = 0 := by
    have : v.cross n = k • (v.dot b • a - v.dot a • b) := by
      rw [hn]; apply ext' <;> simp only [cross, dot, smul_x, smul_y, smul_z, sub_x, sub_y, sub_z] <;> ring
    rw [this, ha, hb]; v3
  have e : n.dot n • v = n.dot v • n + n.cross (v.cross n) := by
    apply ext' <;> simp only [cross, dot, smul_x, smul_y, smul_z, add_x, add_y, add_z] <;> ring
  rw [hu, hx] at e
  have z : n.cross 0 = 0 := by apply ext' <;> simp [cross]
  rw [z] at e
  calc v = (1 : ℝ) • v := by v3
    _ = n.dot v • n + 0 := e
    _ = _ := by v3

/-- C101: The contact of two edges has the normal and the depth. Its position is half way between a point on the line of an edge of the
first box and a point on the line of an edge of the second; unless the edges are nearly parallel the two points differ by a
multiple of the normal, which without the tolerance is the depth. What is missing: that the points are on the edges. -/
theorem C101_edge_partial (h1 : X1.Rigid) (h2 : X2.Rigid) (w1 : Sides s1) (w2 : Sides s2) (he : 0 ≤ eps)
    (h : boxBox2 eps big ang maxc s1 X1 s2 X2 = some o) (hc : 6 < o.code) :
    ∃ c, o.contacts = [c] ∧ c.normal = o.normal ∧ c.depth = o.depth ∧ ∃ (i j : Fin 3) (p q : V3 ℝ), OnEdgeLine s1 X1 i p ∧ OnEdgeLine s2 X2 j q ∧
      c.pos = (1 / 2 : ℝ) • (p + q) ∧
      (1 / 10000 < 1 - (X1.R.col i).dot (X2.R.col j) * (X1.R.col i).dot (X2.R.col j) →
        ∃ d ≤ o.depth, p - q = d • o.normal ∧ SeparatesAlong (BoxAt s1 X1) (BoxAt s2 X2) o.normal d ∧ (eps = 0 → d = o.depth)) := by
  obtain ⟨st, hs, ec, en, ed, eo⟩ := box2_some h
  have P := sat_some h1 h2 he hs
  rw [ec] at hc
  rw [if_pos hc] at eo
  obtain ⟨v1, v2, v3⟩ := vertexAlong_spec (X := X1) w1 st.normal
  obtain ⟨u1, u2, u3⟩ := vertexAgainst_spec (X := X2) w2 st.normal
  refine ⟨_, eo, en.symm, ed.symm, edge1 st.code, edge2 st.code, _, _, v3 _ _, u3 _ _, rfl, fun hd => ?_⟩
  obtain ⟨w, hw, hn, hg, -, hg0, hdir⟩ := normal_axis h1 h2 w1 w2 he P
  have hu : st.normal.nrm = 1 := by rw [hn]; exact normal_unit h1 hw _
  have hu1 : st.normal.dot st.normal = 1 := by rw [← nrm_mul_self, hu, one_mul]
  obtain ⟨D, -, hD⟩ := world_edgeAxis (X2 := X2) h1
  obtain ⟨k, hk⟩ : ∃ k : ℝ, st.normal = k • (X1.R.col (edge1 st.code)).cross (X2.R.col (edge2 st.code)) := by
    rcases P.best with ⟨-, c6, -⟩ | ⟨-, -, -, -, -, b2, -⟩
    · omega
    · rw [Sat.normal, b2, M3.mulVec_smul, hD]
      split_ifs
      · exact ⟨-(1 / (edgeAxis (rel X1 X2) st.code).nrm * D), by v3⟩
      · exact ⟨1 / (edgeAxis (rel X1 X2) st.code).nrm * D, by v3⟩
  obtain ⟨L1, L2⟩ := lineClosest_spec (pa := vertexAlong X1 (half s1) st.normal) (pb := vertexAgainst X2 (half s2) st.normal)
    (col_dot_one h1 (edge1 st.code)) (col_dot_one h2 (edge2 st.code)) hd
  have M := perp_multiple L1 L2 hk hu1
  obtain ⟨g1, p, hp, q, hq, g2⟩ := gap_points h1 w1 w2 w
  rw [← hn] at g1 g2
  have n1 : st.normal.dot (X1.R.col (edge1 st.code)) = 0 := by rw [hk, smul_dot]; simp only [cross, dot]; ring
  have n2 : st.normal.dot (X2.R.col (edge2 st.code)) = 0 := by rw [hk, smul_dot]; simp only [cross, dot]; ring
  have hgap : ∀ a b : ℝ, st.normal.dot (vertexAgainst X2 (half s2) st.normal + b • X2.R.col (edge2 st.code) -
      (vertexAlong X1 (half s1) st.normal + a • X1.R.col (edge1 st.code))) = gap s1 X1 s2 X2 w := fun a b => by
    rw [dot_sub, dot_add, dot_add, dot_smul, dot_smul, n1, n2]
    have k1 := g1 _ v1 _ u1
    have k2 := v2 p hp
    have k3 := u2 q hq
    rw [dot_sub] at k1 g2
    linarith
  rw [hgap] at M
  refine ⟨-gap s1 X1 s2 X2 w, by rw [ed]; linarith, ?_, ?_, fun h0 => by rw [ed, hg0 h0]⟩
  · rw [en]
    have e : ∀ a b : V3 ℝ, a - b = -(b - a) := fun a b => by v3
    rw [e, M]; v3
  · rw [en]
    refine ⟨by rw [len_eq, hu], fun e he' => ?_⟩
    rintro ⟨p, hp, q, hq, rfl⟩
    have k := g1 _ hp q hq
    have e1 : st.normal.dot (q - (q + ⟨(-gap s1 X1 s2 X2 w + e) * st.normal.x, (-gap s1 X1 s2 X2 w + e) * st.normal.y, (-gap s1 X1 s2 X2 w + e) * st.normal.z⟩)) =
        -(-gap s1 X1 s2 X2 w + e) * st.normal.dot st.normal := by
      simp only [dot, sub_x, sub_y, sub_z, add_x, add_y, add_z]; ring
    rw [e1, hu1] at k
    linarith

/-- C101: At most four contacts are given, none if the answer is no, and none if they are not asked for; what was in the list before is gone. -/
theorem C101_count (h1 : X1.Rigid) (h2 : X2.Rigid) (w1 : Sides s1) (w2 : Sides s2) (he : 0 ≤ eps) (cs0 : Option (List CPoint)) {b : Bool}
    {cs : Option (List CPoint)} (h : boxBoxIntersect eps big ang s1 X1 s2 X2 cs0 = (b, cs)) :
    (cs0 = none → cs = none) ∧ (∀ l, cs0 = some l → ∃ l', cs = some l' ∧ l'.length ≤ 4 ∧ (b = false → l' = [])) ∧
      ∀ l l', boxBoxIntersect eps big ang s1 X1 s2 X2 (some l) = boxBoxIntersect eps big ang s1 X1 s2 X2 (some l') := by
  simp only [boxBoxIntersect] at h ⊢
  rcases ho : boxBox2 eps big ang 4 s1 X1 s2 X2 with _ | o
  · rw [ho] at h
    cases h
    exact ⟨fun h => by rw [h]; rfl, fun l h => ⟨[], by rw [h]; rfl, by simp, fun _ => rfl⟩, fun _ _ => rfl⟩
  · rw [ho] at h
    cases h
    refine ⟨fun h => by rw [h]; rfl, fun l h => ⟨o.contacts, by rw [h]; rfl, ?_, fun hb => ?_⟩, fun _ _ => rfl⟩
    · by_cases c6 : o.code ≤ 6
      · exact (C101_face h1 h2 w1 w2 he ho c6).1
      · obtain ⟨c, e, -⟩ := C101_edge_partial h1 h2 w1 w2 he ho (not_le.1 c6)
        rw [e]; simp
    · obtain ⟨st, hs, ec, -⟩ := box2_some ho
      have c0 : o.code = 0 := by simpa using hb
      have P := sat_some h1 h2 he hs
      rcases P.best with ⟨k, -⟩ | ⟨k, -⟩ <;> omega

/-! ### Boxes that touch, without a contact -/

theorem aligned_move (t : V3 ℝ) : Aligned Pose.id ⟨M3.one, t⟩ := fun j => ⟨j, 1, by show _ = (1 : ℝ) • (M3.one : M3 ℝ).col j; v3⟩
theorem move_rigid (t : V3 ℝ) : (⟨M3.one, t⟩ : Pose ℝ).Rigid := M3.orthonormal_one

theorem one_rel (t : V3 ℝ) : rel Pose.id ⟨M3.one, t⟩ = M3.one := by
  norm_num [rel, Pose.id, M3.tr, M3.mul, M3.one, M3.mulVec, dot, M3.col, V3.get]
theorem one_off (t : V3 ℝ) : off Pose.id ⟨M3.one, t⟩ = t := by
  apply ext' <;> norm_num [off, Pose.id, M3.tr, M3.one, M3.mulVec, dot, M3.col, V3.get]

set_option maxHeartbeats 4000000 in
/-- C101: Two cubes that share an edge: the answer is yes, but there is no contact. -/
theorem C101_violated_none (he : 0 ≤ eps) (hb : 10 ≤ big) (cs : List CPoint) :
    boxBoxIntersect eps big ang ⟨2, 2, 2⟩ Pose.id ⟨2, 2, 2⟩ ⟨M3.one, ⟨2, 2, 0⟩⟩ (some cs) = (true, some []) := by
  have w : Sides ⟨2, 2, 2⟩ := by refine ⟨?_, ?_, ?_⟩ <;> norm_num
  have ht : Touch (BoxAt ⟨2, 2, 2⟩ Pose.id) (BoxAt ⟨2, 2, 2⟩ ⟨M3.one, ⟨2, 2, 0⟩⟩) :=
    ⟨⟨1, 1, 0⟩, ⟨⟨1, 1, 0⟩, by norm_num [mem_box, half], by apply ext' <;> simp [Pose.id, M3.one, M3.mulVec, dot]⟩,
      ⟨⟨-1, -1, 0⟩, by norm_num [mem_box, half], by apply ext' <;> norm_num [M3.mulVec, M3.one, dot]⟩⟩
  obtain ⟨o, h⟩ := some_of_touch (big := big) (ang := ang) Pose.id_rigid (move_rigid _) w w he (by norm_num; linarith) ht 4
  obtain ⟨st, hs, ec, en, ed, eo⟩ := box2_some h
  have P := sat_some Pose.id_rigid (move_rigid _) he hs
  have c6 := aligned_code Pose.id_rigid w w (move_rigid _) he (aligned_move _) P
  rw [if_neg (by omega)] at eo
  have f1 := P.faces 1 (by norm_num) (by norm_num)
  have np := P.nonpos
  rcases P.best with ⟨c1, -, b1, b2, b3⟩ | ⟨c7, -⟩
  swap
  · omega
  have hne : st.code ≠ 0 := by omega
  rw [boxBoxIntersect, h]
  show (decide (o.code ≠ 0), some o.contacts) = _
  rw [ec, eo, decide_eq_true hne]
  suffices hf : faceContacts ang 4 Pose.id (half ⟨2, 2, 2⟩) ⟨M3.one, ⟨2, 2, 0⟩⟩ (half ⟨2, 2, 2⟩) st = [] by rw [hf]
  rw [gap, one_rel, one_off] at b1 f1
  rw [one_rel, one_off] at b3
  obtain ⟨z, dir, inv, code⟩ := st
  dsimp only at *
  have hz : z = 0 := by
    refine le_antisymm np ?_
    norm_num [faceAxis, M3.one, M3.col, V3.get, dot, spread, edges, half] at f1
    exact f1
  clear P f1 hs h eo
  subst hz b2
  have empty : ∀ (Xa : Pose ℝ) (Sa : V3 ℝ) (Xb : Pose ℝ) (Sb n : V3 ℝ) (codeN : Fin 3) (f : Cand → CPoint), faceCands Xa Sa Xb Sb n codeN = [] →
      ((chosen ang 4 (faceCands Xa Sa Xb Sb n codeN)).filterMap fun i => (faceCands Xa Sa Xb Sb n codeN)[i]?.map f) = [] :=
    fun Xa Sa Xb Sb n codeN f e => by rw [e]; simp [chosen]
  have nil : ∀ (h : ℝ × ℝ) (q : List (ℝ × ℝ)) (f : ℝ × ℝ → Cand) (g : Cand → Bool), intersectRectQuad h q = [] →
      ((intersectRectQuad h q).map f).filter g = [] := fun h q f g e => by rw [e]; rfl
  have hi : inv = false := by rw [b3]; interval_cases code <;> norm_num [faceAxis, M3.one, M3.col, V3.get, dot]
  rw [hi]
  interval_cases code
  · refine empty _ _ _ _ _ _ _ ?_
    unfold faceCands
    refine nil _ _ _ _ ?_
    norm_num [faceAxis, worldAxis, Sat.normal, incident, otherAxes, intersectRectQuad, chop, chopLoop, withNext, Inside, crossing, point, co, Pose.id, M3.one, M3.tr, M3.mulVec, M3.col, V3.get, dot, half]
  · refine empty _ _ _ _ _ _ _ ?_
    unfold faceCands
    refine nil _ _ _ _ ?_
    rw [show otherAxes (Fin.ofNat 3 (2 - 1)) = (0, 2) from rfl]
    norm_num [faceAxis, worldAxis, Sat.normal, incident, otherAxes, intersectRectQuad, chop, chopLoop, withNext, Inside, crossing, point, co, Pose.id, M3.one, M3.tr, M3.mulVec, M3.col, V3.get, dot, half]
  · norm_num [faceAxis, M3.one, M3.col, V3.get, dot, spread, edges, half] at b1
  · refine empty _ _ _ _ _ _ _ ?_
    unfold faceCands
    refine nil _ _ _ _ ?_
    norm_num [faceAxis, worldAxis, Sat.normal, incident, otherAxes, intersectRectQuad, chop, chopLoop, withNext, Inside, crossing, point, co, Pose.id, M3.one, M3.tr, M3.mulVec, M3.col, V3.get, dot, half]
  · refine empty _ _ _ _ _ _ _ ?_
    unfold faceCands
    refine nil _ _ _ _ ?_
    rw [show otherAxes (Fin.ofNat 3 (5 - 4)) = (0, 2) from rfl]
    norm_num [faceAxis, worldAxis, Sat.normal, incident, otherAxes, intersectRectQuad, chop, chopLoop, withNext, Inside, crossing, point, co, Pose.id, M3.one, M3.tr, M3.mulVec, M3.col, V3.get, dot, half]
  · norm_num [faceAxis, M3.one, M3.col, V3.get, dot, spread, edges, half] at b1

set_option maxHeartbeats 4000000 in
theorem ex_sat : sat 0 10 ⟨2, 2, 2⟩ Pose.id ⟨1, 1, 1⟩ ⟨M3.one, ⟨5 / 4, 1 / 8, 0⟩⟩ = some ⟨-1 / 4, ⟨1, 0, 0⟩, false, 1⟩ := by
  norm_num [sat, faceTests, edgeTests, face, edge, Pose.id, M3.one, M3.tr, M3.mul, M3.mulVec, M3.col, M3.get, M3.row, V3.get, dot, pad, List.foldlM, abs_of_pos, abs_of_neg, V3.nrm]

/-- A small cube that is a quarter deep in the face of a large one: what `C101_face` and `C101_corner` ask for holds, there is a contact. -/
example : ∃ o, boxBox2 0 10 ang 4 ⟨2, 2, 2⟩ Pose.id ⟨1, 1, 1⟩ ⟨M3.one, ⟨5 / 4, 1 / 8, 0⟩⟩ = some o ∧ ∃ c ∈ o.contacts, c.depth = 1 / 4 := by
  have w1 : Sides ⟨2, 2, 2⟩ := by refine ⟨?_, ?_, ?_⟩ <;> norm_num
  have w2 : Sides ⟨1, 1, 1⟩ := by refine ⟨?_, ?_, ?_⟩ <;> norm_num
  have h : ∃ o, boxBox2 0 10 ang 4 ⟨2, 2, 2⟩ Pose.id ⟨1, 1, 1⟩ ⟨M3.one, ⟨5 / 4, 1 / 8, 0⟩⟩ = some o ∧ o.code = 1 ∧ o.normal = ⟨1, 0, 0⟩ ∧ o.depth = 1 / 4 := by
    refine ⟨_, by rw [boxBox2, ex_sat]; rfl, rfl, rfl, by norm_num⟩
  obtain ⟨o, h, ec, en, ed⟩ := h
  refine ⟨o, h, ?_⟩
  rw [← ed]
  refine C101_corner (v := ⟨3 / 4, 5 / 8, 1 / 2⟩) (k := 0) Pose.id_rigid (move_rigid _) w1 w2 le_rfl h (Or.inl ⟨by rw [ec]; rfl, ⟨⟨⟨-1 / 2, 1 / 2, 1 / 2⟩, fun i => ?_, ?_⟩, ?_⟩, fun i hi => ?_⟩)
  · fin_cases i <;> norm_num [V3.get, abs_of_neg]
  · apply ext' <;> norm_num [M3.mulVec, M3.one, dot]
  · rintro _ ⟨x, hx, rfl⟩
    rw [mem_box] at hx
    norm_num [half] at hx
    have := (abs_le.1 hx.1).1
    rw [en]
    norm_num [dot, M3.mulVec, M3.one]
    linarith
  · fin_cases i <;> first | exact absurd rfl hi | norm_num [V3.get, M3.col, Pose.id, M3.one, dot, abs_of_pos]

end BoxBox
end Fcl
