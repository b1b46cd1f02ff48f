import Verif.Gjk.Gjk
import Verif.Props.Project
import Verif.Props.Support
import Verif.Geom.Convexity

/-!
# Lemmas on GJK
-/

namespace Fcl.Gjk
open V3 Proj

/-- The points are vertices of a simplex that is not degenerate. -/
def Indep : List (V3 ℝ) → Prop
  | [_] => True
  | [a, b] => a ≠ b
  | [a, b, c] => HasArea a b c
  | [a, b, c, d] => HasVolume a b c d
  | _ => False

theorem area_ne {a b c : V3 ℝ} (h : HasArea a b c) : a ≠ b ∧ b ≠ c ∧ a ≠ c := by
  refine ⟨?_, ?_, ?_⟩
  · rintro rfl; exact h (by apply V3.ext' <;> simp [cross])
  · rintro rfl; exact h (by apply V3.ext' <;> simp only [cross] <;> simp <;> ring)
  · rintro rfl; exact h (by apply V3.ext' <;> simp [cross])

theorem volume_area {a b c d : V3 ℝ} (h : HasVolume a b c d) :
    HasArea a b c ∧ HasArea a b d ∧ HasArea a c d ∧ HasArea b c d := by
  refine ⟨?_, ?_, ?_, ?_⟩
  · intro h0
    apply h
    have : (b - a).dot ((c - a).cross (d - a)) = (d - a).dot ((b - a).cross (c - a)) := by
      simp only [dot, cross, sub_x, sub_y, sub_z]; ring
    rw [this, h0]; simp [dot]
  · intro h0
    apply h
    have : (b - a).dot ((c - a).cross (d - a)) = -(c - a).dot ((b - a).cross (d - a)) := by
      simp only [dot, cross, sub_x, sub_y, sub_z]; ring
    rw [this, h0]; simp [dot]
  · intro h0
    apply h
    rw [h0]; simp [dot]
  · intro h0
    apply h
    have : (b - a).dot ((c - a).cross (d - a)) = (b - a).dot ((c - b).cross (d - b)) := by
      simp only [dot, cross, sub_x, sub_y, sub_z]; ring
    rw [this, h0]; simp [dot]

/-- A point off the plane that holds the vertices makes a larger simplex. -/
theorem indep_append {vs : List (V3 ℝ)} {n w : V3 ℝ} {k : ℝ} (h : Indep vs) (hr : vs.length ≤ 3) (hf : ∀ v ∈ vs, n.dot v = k)
    (hw : n.dot w < k) : Indep (vs ++ [w]) := by
  match vs, h, hr with
  | [a], _, _ =>
    show a ≠ w
    rintro rfl
    rw [hf a (by simp)] at hw; exact lt_irrefl _ hw
  | [a, b], hab, _ =>
    intro h0
    have ha := hf a (by simp)
    have hb := hf b (by simp)
    have hl : (b - a).dot (b - a) ≠ 0 := fun h => hab (by
      have := dot_self_eq_zero h
      rw [← V3.sub_add_cancel b a, this]; v3)
    have e : (b - a).dot (b - a) * n.dot (w - a) = (b - a).dot (w - a) * n.dot (b - a) +
        ((b - a).cross (n)).dot ((b - a).cross (w - a)) := by
      simp only [dot, cross, sub_x, sub_y, sub_z]; ring
    rw [h0, dot_sub n b a, ha, hb, dot_sub n w a, ha] at e
    have : (b - a).dot (b - a) * (n.dot w - k) = 0 := by rw [e]; simp [dot]
    rcases mul_eq_zero.1 this with h1 | h1
    · exact hl h1
    · linarith
  | [a, b, c], habc, _ =>
    intro h0
    have ha := hf a (by simp)
    have hb := hf b (by simp)
    have hc := hf c (by simp)
    have hl : ((b - a).cross (c - a)).dot ((b - a).cross (c - a)) ≠ 0 := fun h => habc (dot_self_eq_zero h)
    have e : ((b - a).cross (c - a)).dot ((b - a).cross (c - a)) * n.dot (w - a) =
        n.dot ((b - a).cross (c - a)) * (b - a).dot ((c - a).cross (w - a)) +
        (n.dot (b - a) * ((c - a).cross ((b - a).cross (c - a))).dot (w - a) +
        n.dot (c - a) * (((b - a).cross (c - a)).cross (b - a)).dot (w - a)) := by
      generalize b - a = u
      generalize c - a = v
      generalize w - a = x
      simp only [dot, cross]; ring
    rw [h0, dot_sub n b a, ha, hb, dot_sub n w a, dot_sub n c a, hc, ha] at e
    have : ((b - a).cross (c - a)).dot ((b - a).cross (c - a)) * (n.dot w - k) = 0 := by rw [e]; ring
    rcases mul_eq_zero.1 this with h1 | h1
    · exact hl h1
    · linarith

/-- The projection of the origin on the simplex with a new vertex that is nearer. -/
theorem project_nearest {vs : List (V3 ℝ)} {n w : V3 ℝ} (h : Indep vs) (hr : vs.length ≤ 3) (hf : ∀ v ∈ vs, n.dot v = n.dot n)
    (hw : n.dot w < n.dot n) : Nearest (vs ++ [w]) 0 (project (vs ++ [w])) := by
  have hi := indep_append h hr hf hw
  match vs, h, hr with
  | [a], _, _ => exact C73_line 0 hi
  | [a, b], hab, _ => exact C73_triangle 0 hi
  | [a, b, c], habc, _ =>
    have hv : HasVolume a b c w := hi
    obtain ⟨hs, hp, -, -, -⟩ := coord4_spec a b c w 0 rfl (volume_ne.1 hv)
    have ha := hf a (by simp)
    have hb := hf b (by simp)
    have hc := hf c (by simp)
    have e := congrArg (fun x => n.dot x) hp
    simp only [dot_add, dot_smul, ha, hb, hc] at e
    rw [show n.dot 0 = 0 by simp [dot]] at e
    refine C73_tetrahedron_partial hv ⟨hs, hp.symm⟩ (Or.inl ?_)
    generalize -(triple (a - w) (b - w) (c - w) * (a - 0).dot ((b - c).cross (a - b))) / (triple (a - w) (b - w) (c - w) * triple (a - w) (b - w) (c - w)) = y at *
    have h1 : y * (n.dot n - n.dot w) = n.dot n := by
      have h2 : coord4 (vert a b c w) (triple (a - w) (b - w) (c - w)) 0 0 + coord4 (vert a b c w) (triple (a - w) (b - w) (c - w)) 0 1
        + coord4 (vert a b c w) (triple (a - w) (b - w) (c - w)) 0 2 = 1 - y := by linarith
      have h3 := congrArg (fun x => x * n.dot n) h2
      linarith
    by_contra hy
    have := mul_neg_of_neg_of_pos (not_le.1 hy) (sub_pos.2 hw)
    linarith [dot_self_nonneg n]

theorem keep_mem {l : List (SV × ℝ)} {r : Proj} {e : SV × ℝ} (h : e ∈ keep l r) :
    ∃ (k : ℕ) (hk : k < l.length), r.bit k = true ∧ e = ((l[k]).1, r.par k) := by
  simp only [keep, List.mem_map, List.mem_filter] at h
  obtain ⟨⟨x, k⟩, ⟨hx, hb⟩, rfl⟩ := h
  obtain ⟨h1, h2, h3⟩ := List.mem_zipIdx hx
  simp only [Nat.zero_add, Nat.sub_zero] at h2 h3
  exact ⟨k, h2, hb, by rw [← h3]⟩

theorem weighted_keep_aux (r : Proj) (l : List (SV × ℝ)) (n : ℕ) (h : ∀ k, n ≤ k → k < n + l.length → r.bit k = false → r.par k = 0) :
    weighted (((l.zipIdx n).filter fun x => r.bit x.2).map fun x => (x.1.1, r.par x.2)) = mix r.par (l.map (·.1.w)) n ∧
    ((((l.zipIdx n).filter fun x => r.bit x.2).map fun x => (x.1.1, r.par x.2)).map (·.2)).sum =
      ((List.range' n l.length).map r.par).sum := by
  induction l generalizing n with
  | nil => exact ⟨rfl, rfl⟩
  | cons v l ih =>
    have ih := ih (n + 1) (fun k h1 h2 => h k (by omega) (by simp only [List.length_cons]; omega))
    simp only [List.zipIdx_cons, List.filter_cons, List.map_cons, mix, List.length_cons, List.range'_succ, List.sum_cons]
    by_cases hb : r.bit n = true
    · simp only [if_pos hb, List.map_cons, weighted, List.sum_cons, ih.1, ih.2, and_self]
    · rw [if_neg hb, h n (le_refl _) (by simp) (by simpa using hb), ih.1, ih.2]
      exact ⟨by v3, by simp⟩

theorem weighted_keep {r : Proj} {l : List (SV × ℝ)} (h : ∀ k < l.length, r.bit k = false → r.par k = 0) :
    weighted (keep l r) = mix r.par (l.map (·.1.w)) 0 ∧
    ((keep l r).map (·.2)).sum = ((List.range l.length).map r.par).sum := by
  have := weighted_keep_aux r l 0 (fun k _ h2 => h k (by simpa using h2))
  rw [List.range_eq_range']
  exact this

/-- A part of a simplex that is not degenerate is not degenerate. -/
theorem indep_keep {l : List (SV × ℝ)} (h : Indep (l.map (·.1.w))) {r : Proj} (hne : keep l r ≠ []) :
    Indep ((keep l r).map (·.1.w)) := by
  match l, h with
  | [a], _ =>
    cases h0 : r.bit 0 <;> simp [keep, h0, List.zipIdx, Indep] at hne ⊢
  | [a, b], hab =>
    cases h0 : r.bit 0 <;> cases h1 : r.bit 1 <;> simp [keep, h0, h1, List.zipIdx, Indep] at hne ⊢
    exact hab
  | [a, b, c], habc =>
    have habc : HasArea a.1.w b.1.w c.1.w := habc
    have h := area_ne habc
    cases h0 : r.bit 0 <;> cases h1 : r.bit 1 <;> cases h2 : r.bit 2 <;>
      simp [keep, h0, h1, h2, List.zipIdx, Indep] at hne ⊢
    · exact h.2.1
    · exact h.2.2
    · exact h.1
    · exact habc
  | [a, b, c, d], hv =>
    have hv : HasVolume a.1.w b.1.w c.1.w d.1.w := hv
    obtain ⟨a1, a2, a3, a4⟩ := volume_area hv
    have n1 := area_ne a1
    have n2 := area_ne a2
    have n3 := area_ne a3
    have n4 := area_ne a4
    cases h0 : r.bit 0 <;> cases h1 : r.bit 1 <;> cases h2 : r.bit 2 <;> cases h3 : r.bit 3 <;>
      simp [keep, h0, h1, h2, h3, List.zipIdx, Indep] at hne ⊢ <;> tauto

theorem hull_sub {M : Set (V3 ℝ)} (hM : ConvexSet M) {l : List (V3 ℝ)} (h : ∀ v ∈ l, v ∈ M) {x : V3 ℝ} (hx : HullOf l x) : x ∈ M :=
  HullOf.subset h (fun p q hp hq t h0 h1 => hM p hp q hq t h0 h1) hx

/-- A convex combination of points of a convex set is in it. -/
theorem weighted_mem {M : Set (V3 ℝ)} (hM : ConvexSet M) (f : SV → V3 ℝ) (l : List (SV × ℝ)) (h : ∀ v ∈ l, f v.1 ∈ M)
    (hp : ∀ v ∈ l, 0 ≤ v.2) (s : ℝ) (hs : (l.map (·.2)).sum = s) (h0 : 0 < s) :
    ∃ x ∈ M, l.foldr (fun v a => v.2 • f v.1 + a) 0 = s • x := by
  induction l generalizing s with
  | nil => simp at hs; linarith
  | cons v l ih =>
    simp only [List.map_cons, List.sum_cons] at hs
    have hv := hp v (by simp)
    have hl : 0 ≤ (l.map (·.2)).sum := List.sum_nonneg (by
      intro x hx
      obtain ⟨y, hy, rfl⟩ := List.mem_map.1 hx
      exact hp y (by simp [hy]))
    by_cases hz : 0 < (l.map (·.2)).sum
    · obtain ⟨x, hx, e⟩ := ih (fun u hu => h u (by simp [hu])) (fun u hu => hp u (by simp [hu])) _ rfl hz
      generalize (l.map (·.2)).sum = q at *
      refine ⟨_, hM _ (h v (by simp)) x hx (q / s) (by positivity) (by rw [div_le_one h0]; linarith), ?_⟩
      rw [List.foldr_cons, e]
      have e1 : s * (1 - q / s) = v.2 := by field_simp; linarith
      have e2 : s * (q / s) = q := by field_simp
      apply V3.ext' <;> simp only [add_x, add_y, add_z, smul_x, smul_y, smul_z]
      · linear_combination -(f v.1).x * e1 - x.x * e2
      · linear_combination -(f v.1).y * e1 - x.y * e2
      · linear_combination -(f v.1).z * e1 - x.z * e2
    · replace hz : (l.map (·.2)).sum = 0 := le_antisymm (not_lt.1 hz) hl
      have hall : ∀ u ∈ l, u.2 = 0 := by
        clear ih hs h h0
        induction l with
        | nil => simp
        | cons u l ih =>
          simp only [List.map_cons, List.sum_cons] at hz hl
          have hu := hp u (by simp)
          have hl' : 0 ≤ (l.map (·.2)).sum := List.sum_nonneg (by
            intro x hx
            obtain ⟨y, hy, rfl⟩ := List.mem_map.1 hx
            exact hp y (by simp [hy]))
          intro y hy
          rcases List.mem_cons.1 hy with rfl | hy
          · linarith
          · exact ih (fun z h3 => hp z (by simp at h3 ⊢; tauto)) hl' (by linarith) y hy
      have e : l.foldr (fun v a => v.2 • f v.1 + a) 0 = 0 := by
        clear ih hs h hp hz hl
        induction l with
        | nil => rfl
        | cons u l ih =>
          rw [List.foldr_cons, ih (fun z h3 => hall z (by simp [h3])), hall u (by simp)]; v3
      refine ⟨f v.1, h v (by simp), ?_⟩
      rw [List.foldr_cons, e]
      obtain rfl : v.2 = s := by linarith
      v3

theorem weighted_foldr (l : List (SV × ℝ)) : weighted l = l.foldr (fun v a => v.2 • v.1.w + a) 0 := by
  induction l with
  | nil => rfl
  | cons v l ih => rw [weighted, ih, List.foldr_cons]

/-- What holds at the head of the loop. -/
structure Inv (sup : V3 ℝ → V3 ℝ) (M : Set (V3 ℝ)) (s : St) : Prop where
  made : ∀ v ∈ s.simplex, v.1.w = sup v.1.d ∧ v.1.d.nrm = 1
  indep : Indep (s.simplex.map (·.1.w))
  rank : s.simplex.length ≤ 3
  wts : ∀ v ∈ s.simplex, 0 ≤ v.2
  total : (s.simplex.map (·.2)).sum = 1
  ray : s.ray = weighted s.simplex
  flat : ∀ v ∈ s.simplex, s.ray.dot v.1.w = s.ray.dot s.ray
  alpha : 0 ≤ s.alpha ∧ ∀ x ∈ M, s.alpha ≤ x.nrm

/-- The support point in the direction of the origin bounds the distance from below. -/
theorem lower {sup : V3 ℝ → V3 ℝ} {M : Set (V3 ℝ)} (hsup : ∀ d, d.nrm = 1 → IsSupport M d (sup d)) {ray : V3 ℝ}
    (h : 0 < ray.nrm) {x : V3 ℝ} (hx : x ∈ M) : ray.dot (vertex sup (-ray)).w ≤ ray.dot x ∧ ray.dot x / ray.nrm ≤ x.nrm := by
  have hne : -ray ≠ 0 := by
    intro h0
    rw [← nrm_neg, h0, nrm_zero] at h; exact lt_irrefl _ h
  have hs := (hsup _ (nrm_normalized hne)).2 x hx
  constructor
  · have e : ∀ y, (-ray).dot y = ray.nrm * (-ray).normalized.dot y := by
      intro y
      rw [← smul_dot, ← nrm_neg, nrm_smul_normalized]
    have := mul_le_mul_of_nonneg_left hs h.le
    rw [← e, ← e, neg_dot, neg_dot] at this
    simp only [vertex]; linarith
  · rw [div_le_iff₀ h, mul_comm]; exact dot_le _ _

theorem start_inv {sup : V3 ℝ → V3 ℝ} {M : Set (V3 ℝ)} (guess : V3 ℝ) : Inv sup M (start sup guess) := by
  have hne : (if guess.dot guess > 0 then -guess else (⟨1, 0, 0⟩ : V3 ℝ)) ≠ 0 := by
    split_ifs with h
    · intro h0
      have : guess.dot guess = (-guess).dot (-guess) := by rw [neg_dot, dot_neg, neg_neg]
      rw [this, h0] at h; simp [dot] at h
    · intro h0; have := congrArg V3.x h0; simp at this
  refine ⟨?_, trivial, by simp [start], ?_, by simp [start], ?_, ?_, le_refl _, fun x _ => nrm_nonneg x⟩
  · intro v hv
    simp only [start, List.mem_singleton] at hv
    rw [hv]
    exact ⟨rfl, nrm_normalized hne⟩
  · intro v hv
    simp only [start, List.mem_singleton] at hv
    rw [hv]; exact zero_le_one
  · simp only [start, weighted]; v3
  · intro v hv
    simp only [start, List.mem_singleton] at hv
    rw [hv]; rfl

/-- The set of a simplex whose vertices are support points. -/
theorem Inv.mem {sup : V3 ℝ → V3 ℝ} {M : Set (V3 ℝ)} (hsup : ∀ d, d.nrm = 1 → IsSupport M d (sup d)) {s : St} (h : Inv sup M s) :
    ∀ v ∈ s.simplex, v.1.w ∈ M := by
  intro v hv
  rw [(h.made v hv).1]; exact (hsup _ (h.made v hv).2).1

theorem Inv.ray_mem {sup : V3 ℝ → V3 ℝ} {M : Set (V3 ℝ)} (hsup : ∀ d, d.nrm = 1 → IsSupport M d (sup d)) (hM : ConvexSet M)
    {s : St} (h : Inv sup M s) : s.ray ∈ M := by
  obtain ⟨x, hx, e⟩ := weighted_mem hM SV.w s.simplex (h.mem hsup) h.wts 1 h.total one_pos
  rw [h.ray, weighted_foldr, e]
  rwa [show (1 : ℝ) • x = x by v3]

/-- The vertices kept after a projection. -/
theorem keep_spec {sup : V3 ℝ → V3 ℝ} {l : List (SV × ℝ)} {r : Proj} (hr : r = project (l.map (·.1.w)))
    (hl4 : l.length ≤ 4) (hmade : ∀ v ∈ l, v.1.w = sup v.1.d ∧ v.1.d.nrm = 1) (hN : Nearest (l.map (·.1.w)) 0 r)
    (hI : Indep (l.map (·.1.w))) :
    (∀ v ∈ keep l r, v.1.w = sup v.1.d ∧ v.1.d.nrm = 1) ∧ (∀ v ∈ keep l r, 0 ≤ v.2) ∧
    ((keep l r).map (·.2)).sum = 1 ∧ r.dist = (weighted (keep l r)).dot (weighted (keep l r)) ∧
    (∀ v ∈ keep l r, (weighted (keep l r)).dot v.1.w = (weighted (keep l r)).dot (weighted (keep l r))) ∧
    Indep ((keep l r).map (·.1.w)) ∧
    ((r.bit 0 && r.bit 1 && r.bit 2 && r.bit 3) = true → weighted (keep l r) = 0) ∧
    ((r.bit 0 && r.bit 1 && r.bit 2 && r.bit 3) = false → (keep l r).length ≤ 3) := by
  have hlen : (l.map (·.1.w)).length = l.length := List.length_map ..
  have K := weighted_keep (r := r) (l := l) (fun k hk hb => hN.coded k (by rw [hlen]; exact hk) hb)
  have htot : ((keep l r).map (·.2)).sum = 1 := by
    have := hN.total
    rw [hlen] at this
    rw [K.2, this]
  have hdot : r.dist = (weighted (keep l r)).dot (weighted (keep l r)) := by
    rw [hN.value, K.1]; congr 1 <;> v3
  have hne : keep l r ≠ [] := by
    intro h0
    rw [h0] at htot; simp at htot
  refine ⟨?_, ?_, htot, hdot, ?_, indep_keep hI hne, ?_, ?_⟩
  · intro v hv
    obtain ⟨k, hk, -, rfl⟩ := keep_mem hv
    exact hmade (l[k]) (List.getElem_mem hk)
  · intro v hv
    obtain ⟨k, hk, -, rfl⟩ := keep_mem hv
    exact hN.weights k (by rw [hlen]; exact hk)
  · intro v hv
    obtain ⟨k, hk, hb, rfl⟩ := keep_mem hv
    have := hN.flat k (by rw [hlen]; exact hk) hb
    rw [← K.1, dot_sub] at this
    rw [show weighted (keep l r) - 0 = weighted (keep l r) by v3, List.getElem_map] at this
    show (weighted (keep l r)).dot (l[k]).1.w = (weighted (keep l r)).dot (weighted (keep l r))
    linarith
  · intro henc
    simp only [Bool.and_eq_true] at henc
    obtain ⟨⟨⟨b0, b1⟩, b2⟩, b3⟩ := henc
    have hl4' : l.length = 4 := by
      by_contra hc
      have := hN.bits 3 (by rw [hlen]; omega)
      rw [b3] at this; cases this
    have h0 : HullOf (l.map (·.1.w)) 0 := by
      match l, hl4', hr with
      | [a, b, c, d], _, hr =>
        refine C73_inside (p := 0) ?_
        have e : tetrahedron a.1.w b.1.w c.1.w d.1.w 0 = r := hr.symm
        intro k hk
        rw [e]
        interval_cases k <;> assumption
    have := hN.least 0 h0
    rw [hdot, show ((0 : V3 ℝ) - 0).dot (0 - 0) = 0 by simp [dot]] at this
    exact dot_self_eq_zero (le_antisymm this (dot_self_nonneg _))
  · intro henc
    by_cases h4 : l.length ≤ 3
    · refine le_trans ?_ h4
      rw [keep, List.length_map]
      refine (List.length_filter_le _ _).trans (le_of_eq ?_)
      simp
    · match l, (show l.length = 4 by omega) with
      | [a, b, c, d], _ =>
        cases h0 : r.bit 0 <;> cases h1 : r.bit 1 <;> cases h2 : r.bit 2 <;> cases h3 : r.bit 3 <;>
          simp [keep, h0, h1, h2, h3, List.zipIdx] at henc ⊢

/-- A round that goes on keeps the invariant, shortens the ray and gives the point of the new simplex nearest to the
origin; a round never ends because the simplex is degenerate. -/
theorem round_spec {sup : V3 ℝ → V3 ℝ} {M : Set (V3 ℝ)} (hsup : ∀ d, d.nrm = 1 → IsSupport M d (sup d)) {tol : ℝ} (ht : 0 < tol)
    {s : St} (h : Inv sup M s) :
    (∀ r, round sup tol s = .inl r → r.simplex = s.simplex ∧ r.ray = s.ray ∧
      ((r.status = .inside ∧ r.stop = .near ∧ r.distance = 0 ∧ s.ray.nrm < tol) ∨
       (r.status = .valid ∧ r.distance = s.ray.nrm ∧ tol ≤ s.ray.nrm ∧
         (r.stop = .same ∨ (r.stop = .progress ∧ ∀ x ∈ M, (1 - tol) * s.ray.nrm ≤ x.nrm))))) ∧
    ∀ s' enc, round sup tol s = .inr (s', enc) →
      (∀ v ∈ s'.simplex, v.1.w = sup v.1.d ∧ v.1.d.nrm = 1) ∧ (∀ v ∈ s'.simplex, 0 ≤ v.2) ∧
      (s'.simplex.map (·.2)).sum = 1 ∧ s'.ray = weighted s'.simplex ∧
      s'.ray.nrm < s.ray.nrm ∧ (enc = true → s'.ray = 0) ∧ (enc = false → Inv sup M s') := by
  by_cases h1 : s.ray.nrm < tol
  · constructor
    · intro r hr
      simp only [round, if_pos h1] at hr
      obtain rfl := Sum.inl.inj hr
      exact ⟨rfl, rfl, Or.inl ⟨rfl, rfl, rfl, h1⟩⟩
    · intro s' enc hr
      simp only [round, if_pos h1] at hr
      cases hr
  have hpos : 0 < s.ray.nrm := lt_of_lt_of_le ht (not_lt.1 h1)
  by_cases h2 : ∃ i < 4, ((vertex sup (-s.ray)).w - s.lastw i).dot ((vertex sup (-s.ray)).w - s.lastw i) < tol
  · constructor
    · intro r hr
      simp only [round, if_neg h1, if_pos h2] at hr
      obtain rfl := Sum.inl.inj hr
      exact ⟨rfl, rfl, Or.inr ⟨rfl, rfl, not_lt.1 h1, Or.inl rfl⟩⟩
    · intro s' enc hr
      simp only [round, if_neg h1, if_pos h2] at hr
      cases hr
  have hal : ∀ x ∈ M, max s.alpha (s.ray.dot (vertex sup (-s.ray)).w / s.ray.nrm) ≤ x.nrm := by
    intro x hx
    refine max_le (h.alpha.2 x hx) ?_
    have := lower hsup hpos hx
    exact (div_le_div_of_nonneg_right this.1 hpos.le).trans this.2
  by_cases h3 : (s.ray.nrm - max s.alpha (s.ray.dot (vertex sup (-s.ray)).w / s.ray.nrm)) - tol * s.ray.nrm ≤ 0
  · constructor
    · intro r hr
      simp only [round, if_neg h1, if_neg h2, if_pos h3] at hr
      obtain rfl := Sum.inl.inj hr
      refine ⟨rfl, rfl, Or.inr ⟨rfl, rfl, not_lt.1 h1, Or.inr ⟨rfl, fun x hx => ?_⟩⟩⟩
      have := hal x hx
      linarith
    · intro s' enc hr
      simp only [round, if_neg h1, if_neg h2, if_pos h3] at hr
      cases hr
  have hw : s.ray.dot (vertex sup (-s.ray)).w < s.ray.dot s.ray := by
    have h4 : s.ray.dot (vertex sup (-s.ray)).w / s.ray.nrm < s.ray.nrm := by
      have := le_max_right s.alpha (s.ray.dot (vertex sup (-s.ray)).w / s.ray.nrm)
      have := mul_pos ht hpos
      linarith
    rw [div_lt_iff₀ hpos, nrm_mul_self] at h4
    exact h4
  have hr3 : (s.simplex.map (·.1.w)).length ≤ 3 := by rw [List.length_map]; exact h.rank
  have hfl : ∀ v ∈ s.simplex.map (·.1.w), s.ray.dot v = s.ray.dot s.ray := by
    intro v hv
    obtain ⟨u, hu, rfl⟩ := List.mem_map.1 hv
    exact h.flat u hu
  have hN := project_nearest h.indep hr3 hfl hw
  have hI := indep_append h.indep hr3 hfl hw
  have hmap : (s.simplex ++ [(vertex sup (-s.ray), (0 : ℝ))]).map (·.1.w) = s.simplex.map (·.1.w) ++ [(vertex sup (-s.ray)).w] := by simp
  rw [← hmap] at hN hI
  have hd : (project ((s.simplex ++ [(vertex sup (-s.ray), (0 : ℝ))]).map (·.1.w))).dist ≥ 0 := by
    rw [hN.value]; exact dot_self_nonneg _
  constructor
  · intro r hr
    simp only [round, if_neg h1, if_neg h2, if_neg h3] at hr
    rw [if_pos hd] at hr
    cases hr
  intro s' enc hr
  simp only [round, if_neg h1, if_neg h2, if_neg h3] at hr
  rw [if_pos hd] at hr
  obtain ⟨rfl, rfl⟩ := Prod.mk.inj (Sum.inr.inj hr)
  have hl4 : (s.simplex ++ [(vertex sup (-s.ray), (0 : ℝ))]).length ≤ 4 := by
    have := h.rank
    simp; omega
  have hmade : ∀ v ∈ s.simplex ++ [(vertex sup (-s.ray), (0 : ℝ))], v.1.w = sup v.1.d ∧ v.1.d.nrm = 1 := by
    intro v hv
    rw [List.mem_append, List.mem_singleton] at hv
    rcases hv with hv | rfl
    · exact h.made v hv
    · refine ⟨rfl, nrm_normalized fun h0 => ?_⟩
      rw [← nrm_neg, h0, nrm_zero] at hpos; exact lt_irrefl _ hpos
  obtain ⟨k1, k2, k3, k4, k5, k6, k7, k8⟩ := keep_spec rfl hl4 hmade hN hI
  have hin : ∀ v ∈ s.simplex, v.1.w ∈ (s.simplex ++ [(vertex sup (-s.ray), (0 : ℝ))]).map (·.1.w) := fun v hv =>
    List.mem_map.2 ⟨v, by simp [hv], rfl⟩
  have hin' : (vertex sup (-s.ray)).w ∈ (s.simplex ++ [(vertex sup (-s.ray), (0 : ℝ))]).map (·.1.w) :=
    List.mem_map.2 ⟨(vertex sup (-s.ray), 0), by simp, rfl⟩
  clear hr
  generalize (s.simplex ++ [(vertex sup (-s.ray), (0 : ℝ))]) = l at *
  generalize project (l.map (·.1.w)) = r at *
  have hray : (weighted (keep l r)).nrm < s.ray.nrm := by
    -- a point between the ray and the new vertex is nearer
    have hle : ∀ t : ℝ, 0 ≤ t → t ≤ 1 → r.dist ≤ ((1 - t) • s.ray + t • (vertex sup (-s.ray)).w).dot
        ((1 - t) • s.ray + t • (vertex sup (-s.ray)).w) := by
      intro t t0 t1
      have hx : HullOf (l.map (·.1.w)) s.ray := by
        obtain ⟨x, hx, e⟩ := weighted_mem (M := {x | HullOf (l.map (fun v : SV × ℝ => v.1.w)) x})
          (fun p hp q hq t h0 h1 => HullOf.seg (l := l.map (fun v : SV × ℝ => v.1.w)) t h0 h1 hp hq) SV.w s.simplex
          (fun v hv => HullOf.pt (hin v hv)) h.wts 1 h.total one_pos
        rw [h.ray, weighted_foldr, e, show (1 : ℝ) • x = x by v3]
        exact hx
      have := hN.least _ (HullOf.seg t t0 t1 hx (HullOf.pt hin'))
      refine this.trans (le_of_eq ?_)
      congr 1 <;> v3
    have hlt : r.dist < s.ray.dot s.ray := by
      obtain ⟨w, hww⟩ : ∃ w, w = (vertex sup (-s.ray)).w := ⟨_, rfl⟩
      rw [← hww] at hle hw
      have e : ∀ t : ℝ, ((1 - t) • s.ray + t • w).dot ((1 - t) • s.ray + t • w) =
          s.ray.dot s.ray - 2 * t * (s.ray.dot s.ray - s.ray.dot w) + t * t * (s.ray - w).dot (s.ray - w) := by
        intro t
        simp only [dot, add_x, add_y, add_z, smul_x, smul_y, smul_z, sub_x, sub_y, sub_z]; ring
      have hq := dot_self_nonneg (s.ray - w)
      by_contra hc
      rw [not_lt] at hc
      have hg : 0 < s.ray.dot s.ray - s.ray.dot w := by linarith
      simp only [e] at hle
      generalize s.ray.dot s.ray - s.ray.dot w = g at *
      generalize (s.ray - w).dot (s.ray - w) = q at *
      have hq1 : 0 < q + g := by linarith
      have t1 : g / (q + g) ≤ 1 := by rw [div_le_one hq1]; linarith
      have t0 : 0 < g / (q + g) := by positivity
      have := hle _ t0.le t1
      have e2 : g / (q + g) * q ≤ g := by
        rw [div_mul_eq_mul_div, div_le_iff₀ hq1]; nlinarith
      nlinarith
    rw [k4] at hlt
    by_contra hc
    have := mul_self_le_mul_self (nrm_nonneg _) (not_lt.1 hc)
    rw [nrm_mul_self, nrm_mul_self] at this
    linarith
  refine ⟨k1, k2, k3, rfl, hray, k7, fun henc => ?_⟩
  exact ⟨k1, k6, k8 henc, k2, k3, rfl, k5, le_max_of_le_left h.alpha.1, hal⟩

end Fcl.Gjk
