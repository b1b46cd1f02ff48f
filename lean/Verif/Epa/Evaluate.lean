import Verif.Epa.Loop

/-!
# The whole of the expanding polytope algorithm
-/

namespace Fcl.Epa
open V3
open Gjk (SV vertex)

variable {L : Limits} {s : St}

theorem clear_spec (h : Partition L s) : Partition L (clear s) ∧ (clear s).hull = [] := by
  refine ⟨?_, rfl⟩
  have key : ∀ (l st : List ℕ), (l.foldl (fun l f => f :: l) st).Perm (l ++ st) := by
    intro l
    induction l with
    | nil => intro st; exact List.Perm.refl _
    | cons x l ih => intro st; exact (ih (x :: st)).trans List.perm_middle
  exact (key s.hull s.stock).trans h

/-- The number of faces of the hull tells whether `newFace` gave one. -/
theorem newFace_length (h : Partition L s) (a b c : SV) (forced : Bool) :
    ((newFace L s a b c forced).1 = none ∧ (newFace L s a b c forced).2.hull.length = s.hull.length) ∨
    ∃ k, (newFace L s a b c forced).1 = some k ∧ (newFace L s a b c forced).2.hull = k :: s.hull := by
  obtain ⟨-, -, k3, k4⟩ := newFace_spec h a b c forced
  rcases hn : (newFace L s a b c forced).1 with _ | k
  · exact Or.inl ⟨rfl, by rw [(k3 hn).1]⟩
  · exact Or.inr ⟨k, rfl, (k4 k hn).2.1⟩

/-- The surface of the tetrahedron is closed. -/
theorem tetra_closed {t0 t1 t2 t3 : ℕ} {a b c d : SV} (hh : s.hull = [t3, t2, t1, t0]) (nd : s.hull.Nodup)
    (c0 : (s.faces t0).c = tri a b c) (c1 : (s.faces t1).c = tri b a d) (c2 : (s.faces t2).c = tri c b d)
    (c3 : (s.faces t3).c = tri a c d) : Closed (bindTetra s t0 t1 t2 t3) := by
  rw [hh] at nd
  simp only [List.nodup_cons, List.mem_cons, List.not_mem_nil, or_false, not_or, List.nodup_nil, and_true, not_false_eq_true] at nd
  obtain ⟨⟨n32, n31, n30⟩, ⟨n21, n20⟩, n10⟩ := nd
  have n23 := Ne.symm n32
  have n13 := Ne.symm n31
  have n03 := Ne.symm n30
  have n12 := Ne.symm n21
  have n02 := Ne.symm n20
  have n01 := Ne.symm n10
  have C : ∀ x, ((bindTetra s t0 t1 t2 t3).faces x).c = (s.faces x).c := fun x => by simp only [bindTetra, bind_c]
  have one : (1 : Fin 3) + 1 = 2 := by decide
  have two : (2 : Fin 3) + 1 = 0 := by decide
  have zero : (0 : Fin 3) + 1 = 1 := by decide
  have J : ∀ x i y j, (x, i, y, j) ∈ [(t0, (0 : Fin 3), t1, (0 : Fin 3)), (t0, 1, t2, 0), (t0, 2, t3, 0), (t1, 1, t3, 2), (t1, 2, t2, 1), (t2, 2, t3, 1)] →
      Joined (bindTetra s t0 t1 t2 t3) x i y j ∧ Joined (bindTetra s t0 t1 t2 t3) y j x i := by
    intro x i y j h
    simp only [List.mem_cons, List.not_mem_nil, or_false, Prod.mk.injEq] at h
    have A : ∀ x k, ((bindTetra s t0 t1 t2 t3).faces x).adj k = _ := fun x k => by
      simp only [bindTetra, bind_adj]
      exact rfl
    rcases h with ⟨rfl, rfl, rfl, rfl⟩ | ⟨rfl, rfl, rfl, rfl⟩ | ⟨rfl, rfl, rfl, rfl⟩ | ⟨rfl, rfl, rfl, rfl⟩ | ⟨rfl, rfl, rfl, rfl⟩ |
      ⟨rfl, rfl, rfl, rfl⟩ <;>
    refine ⟨⟨?_, ?_, ?_, ?_⟩, ?_, ?_, ?_, ?_⟩ <;>
    first
      | (rw [A]; simp [*])
      | (simp only [C, c0, c1, c2, c3, one, two, zero]; simp [tri])
  intro x hx i
  have hh' : (bindTetra s t0 t1 t2 t3).hull = [t3, t2, t1, t0] := hh
  rw [hh'] at hx ⊢
  have g0 := J t0 0 t1 0 (by simp)
  have g1 := J t0 1 t2 0 (by simp)
  have g2 := J t0 2 t3 0 (by simp)
  have g3 := J t1 1 t3 2 (by simp)
  have g4 := J t1 2 t2 1 (by simp)
  have g5 := J t2 2 t3 1 (by simp)
  have i3 : i = 0 ∨ i = 1 ∨ i = 2 := by revert i; decide
  simp only [List.mem_cons, List.not_mem_nil, or_false] at hx
  rcases hx with rfl | rfl | rfl | rfl <;> rcases i3 with rfl | rfl | rfl
  · exact ⟨t0, by simp, 2, g2.2⟩
  · exact ⟨t2, by simp, 2, g5.2⟩
  · exact ⟨t1, by simp, 1, g3.2⟩
  · exact ⟨t0, by simp, 1, g1.2⟩
  · exact ⟨t1, by simp, 2, g4.2⟩
  · exact ⟨t3, by simp, 1, g5.1⟩
  · exact ⟨t0, by simp, 0, g0.2⟩
  · exact ⟨t3, by simp, 2, g3.1⟩
  · exact ⟨t2, by simp, 1, g4.1⟩
  · exact ⟨t1, by simp, 0, g0.1⟩
  · exact ⟨t2, by simp, 0, g1.1⟩
  · exact ⟨t3, by simp, 0, g2.1⟩

/-- What `evaluate` gives: the face of a polytope, or nothing but the guess. -/
inductive Outcome (sup : V3 ℝ → V3 ℝ) (V : SV → Prop) (L : Limits) (guess : V3 ℝ) : Out → Prop
  | face {t : St} {o : Face} (h : Ended sup V L t o) : Outcome sup V L guess (report t o)
  | guess {s : St} {c : SV} (h : Partition L s) (hs : s.nextsv ≤ L.maxVertex) (hc : V c) : Outcome sup V L guess (fallBack s guess c)

theorem build_spec (sup : V3 ℝ → V3 ℝ) {V : SV → Prop} (hV : ∀ x, Made V L x → V (vertex sup x.n)) (guess : V3 ℝ)
    (part : Partition L s) (hh : s.hull = []) (hsv : s.nextsv = 0) {a b c d : SV} (ha : V a) (hb : V b) (hc : V c) (hd : V d) :
    ∃ o, build sup L guess s a b c d = some o ∧ Outcome sup V L guess o := by
  have f0 : Fine V L 0 s := by intro x hx; rw [hh] at hx; simp at hx
  have S0 := newFace_spec part a b c true
  have N0 := newFace_length part a b c true
  have F0 := f0.new part ha hb hc true
  rcases e0 : newFace L s a b c true with ⟨r0, s0⟩
  rw [e0] at S0 N0 F0
  have S1 := newFace_spec S0.1 b a d true
  have N1 := newFace_length S0.1 b a d true
  have F1 := F0.new S0.1 hb ha hd true
  rcases e1 : newFace L s0 b a d true with ⟨r1, s1⟩
  rw [e1] at S1 N1 F1
  have S2 := newFace_spec S1.1 c b d true
  have N2 := newFace_length S1.1 c b d true
  have F2 := F1.new S1.1 hc hb hd true
  rcases e2 : newFace L s1 c b d true with ⟨r2, s2⟩
  rw [e2] at S2 N2 F2
  have S3 := newFace_spec S2.1 a c d true
  have N3 := newFace_length S2.1 a c d true
  have F3 := F2.new S2.1 ha hc hd true
  rcases e3 : newFace L s2 a c d true with ⟨r3, s3⟩
  rw [e3] at S3 N3 F3
  have sv : s3.nextsv ≤ L.maxVertex := by
    have := S0.2.1; have := S1.2.1; have := S2.2.1; have := S3.2.1
    dsimp only at *
    omega
  by_cases h4 : s3.hull.length = 4
  · have l0 : s.hull.length = 0 := by rw [hh]; rfl
    dsimp only at N0 N1 N2 N3
    have b0 : s0.hull.length ≤ 1 := by
      rcases N0 with h | ⟨k, -, h⟩
      · omega
      · rw [h, List.length_cons]; omega
    have b1 : s1.hull.length ≤ 2 := by
      rcases N1 with h | ⟨k, -, h⟩
      · omega
      · rw [h, List.length_cons]; omega
    have b2 : s2.hull.length ≤ 3 := by
      rcases N2 with h | ⟨k, -, h⟩
      · omega
      · rw [h, List.length_cons]; omega
    rcases N3 with h | ⟨t3, q3, h3⟩
    · omega
    rcases N2 with h | ⟨t2, q2, h2⟩
    · rw [h3, List.length_cons] at h4; omega
    rcases N1 with h | ⟨t1, q1, h1⟩
    · rw [h3, List.length_cons, h2, List.length_cons] at h4; omega
    rcases N0 with h | ⟨t0, q0, h0⟩
    · rw [h3, List.length_cons, h2, List.length_cons, h1, List.length_cons] at h4; omega
    subst q0 q1 q2 q3
    rw [hh] at h0
    rw [h0] at h1
    rw [h1] at h2
    rw [h2] at h3
    have nd := S3.1.hull_nodup
    have nd' := nd
    dsimp only at nd nd'
    rw [h3] at nd'
    simp only [List.nodup_cons, List.mem_cons, List.not_mem_nil, or_false, not_or, List.nodup_nil, and_true, not_false_eq_true] at nd'
    obtain ⟨⟨n32, n31, n30⟩, ⟨n21, n20⟩, n10⟩ := nd'
    have g0 := S0.2.2.2 t0 rfl
    have g1 := S1.2.2.2 t1 rfl
    have g2 := S2.2.2.2 t2 rfl
    have g3 := S3.2.2.2 t3 rfl
    dsimp only at g0 g1 g2 g3
    have c0 : (s3.faces t0).c = tri a b c := by
      rw [g3.2.2.1 t0 (Ne.symm n30), g2.2.2.1 t0 (Ne.symm n20), g1.2.2.1 t0 (Ne.symm n10)]; exact g0.2.2.2.2.2.1
    have c1 : (s3.faces t1).c = tri b a d := by
      rw [g3.2.2.1 t1 (Ne.symm n31), g2.2.2.1 t1 (Ne.symm n21)]; exact g1.2.2.2.2.2.1
    have c2 : (s3.faces t2).c = tri c b d := by
      rw [g3.2.2.1 t2 (Ne.symm n32)]; exact g2.2.2.2.2.2.1
    have c3 : (s3.faces t3).c = tri a c d := g3.2.2.2.2.2.1
    obtain ⟨best, y1, y2, y3⟩ := findBest_spec (s := s3) (by rw [h3]; simp)
    have cl := tetra_closed h3 nd c0 c1 c2 c3
    have E : ∀ x, ((bindTetra s3 t0 t1 t2 t3).faces x).n = (s3.faces x).n ∧ ((bindTetra s3 t0 t1 t2 t3).faces x).d = (s3.faces x).d ∧
        ((bindTetra s3 t0 t1 t2 t3).faces x).c = (s3.faces x).c := fun x => by
      simp only [bindTetra, bind_c, bind_n, bind_d]; exact ⟨trivial, trivial, trivial⟩
    have F4 : Fine V L 0 (bindTetra s3 t0 t1 t2 t3) := by
      unfold bindTetra
      exact (((((F3.bind _ _ _ _).bind _ _ _ _).bind _ _ _ _).bind _ _ _ _).bind _ _ _ _).bind _ _ _ _
    obtain ⟨t, o, z1, z2⟩ := loop_spec sup hV L.maxIter { bindTetra s3 t0 t1 t2 t3 with status := .valid } best (s3.faces best) 0
      S3.1 cl F4 y2 sv rfl (E best).1.symm (E best).2.1.symm (E best).2.2.symm
      (by
        intro x hx
        show ((bindTetra s3 t0 t1 t2 t3).faces best).d * ((bindTetra s3 t0 t1 t2 t3).faces best).d ≤
          ((bindTetra s3 t0 t1 t2 t3).faces x).d * ((bindTetra s3 t0 t1 t2 t3).faces x).d
        rw [(E best).2.1, (E x).2.1]; exact y3 x hx)
    refine ⟨report t o, ?_, .face z2⟩
    simp only [build, e0, e1, e2, e3, if_pos h4, y1]
    rw [z1]; rfl
  · refine ⟨fallBack s3 guess a, ?_, .guess S3.1 sv ha⟩
    simp only [build, e0, e1, e2, e3, if_neg h4]

/-- `encloseOrigin` gives four vertices, each one of the simplex or a support point for a direction that is not zero. -/
theorem enclose_spec (sup : V3 ℝ → V3 ℝ) {V : SV → Prop} (hV : ∀ n : V3 ℝ, n ≠ 0 → V (vertex sup n)) {l m : List SV} (hl : ∀ v ∈ l, V v)
    (h : enclose sup l = some m) : ∃ a b c d, m = [a, b, c, d] ∧ V a ∧ V b ∧ V c ∧ V d ∧
      (a.w - d.w).dot ((b.w - d.w).cross (c.w - d.w)) ≠ 0 := by
  have pos : ∀ n : V3 ℝ, n.dot n > 0 → n ≠ 0 ∧ -n ≠ 0 := by
    intro n hn
    constructor
    · rintro rfl; simp [dot] at hn
    · intro c
      have e : n.dot n = (-n).dot (-n) := by rw [neg_dot, dot_neg, neg_neg]
      rw [e, c] at hn
      simp [dot] at hn
  have g4 : ∀ {a b c d : SV} {m : List SV}, V a → V b → V c → V d → enclose4 a b c d = some m → ∃ a b c d, m = [a, b, c, d] ∧
      V a ∧ V b ∧ V c ∧ V d ∧ (a.w - d.w).dot ((b.w - d.w).cross (c.w - d.w)) ≠ 0 := by
    intro a b c d m ha hb hc hd h
    unfold enclose4 at h
    by_cases k : |(a.w - d.w).dot ((b.w - d.w).cross (c.w - d.w))| > 0
    · rw [if_pos k] at h
      cases h
      exact ⟨a, b, c, d, rfl, ha, hb, hc, hd, abs_pos.1 k⟩
    · rw [if_neg k] at h; cases h
  have g3 : ∀ {a b c : SV} {m : List SV}, V a → V b → V c → enclose3 sup a b c = some m → ∃ a b c d, m = [a, b, c, d] ∧
      V a ∧ V b ∧ V c ∧ V d ∧ (a.w - d.w).dot ((b.w - d.w).cross (c.w - d.w)) ≠ 0 := by
    intro a b c m ha hb hc h
    unfold enclose3 at h
    dsimp only at h
    by_cases k : ((b.w - a.w).cross (c.w - a.w)).dot ((b.w - a.w).cross (c.w - a.w)) > 0
    · rw [if_pos k, Option.or_eq_some_iff] at h
      rcases h with h | h
      · exact g4 ha hb hc (hV _ (pos _ k).1) h
      · exact g4 ha hb hc (hV _ (pos _ k).2) h.2
    · rw [if_neg k] at h; cases h
  have gx : ∀ {a b : SV} {x : V3 ℝ} {m : List SV}, V a → V b → encloseAxis sup a b x = some m → ∃ a b c d, m = [a, b, c, d] ∧
      V a ∧ V b ∧ V c ∧ V d ∧ (a.w - d.w).dot ((b.w - d.w).cross (c.w - d.w)) ≠ 0 := by
    intro a b x m ha hb h
    unfold encloseAxis at h
    dsimp only at h
    by_cases k : ((b.w - a.w).cross x).dot ((b.w - a.w).cross x) > 0
    · rw [if_pos k, Option.or_eq_some_iff] at h
      rcases h with h | h
      · exact g3 ha hb (hV _ (pos _ k).1) h
      · exact g3 ha hb (hV _ (pos _ k).2) h.2
    · rw [if_neg k] at h; cases h
  rcases l with _ | ⟨a, _ | ⟨b, _ | ⟨c, _ | ⟨d, _ | ⟨e, l⟩⟩⟩⟩⟩
  · cases h
  · cases h
  · have ha := hl a (by simp)
    have hb := hl b (by simp)
    simp only [enclose, enclose2, Option.or_eq_some_iff] at h
    rcases h with (h | h) | h
    · exact gx ha hb h
    · exact gx ha hb h.2
    · exact gx ha hb h.2
  · exact g3 (hl a (by simp)) (hl b (by simp)) (hl c (by simp)) h
  · exact g4 (hl a (by simp)) (hl b (by simp)) (hl c (by simp)) (hl d (by simp)) h
  · cases h

theorem evaluate_spec (sup : V3 ℝ → V3 ℝ) {V : SV → Prop} (hV : ∀ x, Made V L x → V (vertex sup x.n))
    (hV' : ∀ n : V3 ℝ, n ≠ 0 → V (vertex sup n)) (guess : V3 ℝ) (part : Partition L s) (hs : s.nextsv ≤ L.maxVertex)
    {l : List SV} (hl : ∀ v ∈ l, V v) (hne : l ≠ []) : ∃ o, evaluate sup L s l guess = some o ∧ Outcome sup V L guess o := by
  obtain ⟨p1, p2⟩ := clear_spec part
  rcases he : enclose sup l with _ | m
  · rcases l with _ | ⟨c, l⟩
    · exact absurd rfl hne
    · refine ⟨fallBack s guess c, ?_, .guess part hs (hl c List.mem_cons_self)⟩
      simp only [evaluate, he]
  · obtain ⟨a, b, c, d, rfl, ha, hb, hc, hd, -⟩ := enclose_spec sup hV' hl he
    simp only [evaluate, he]
    by_cases k : (a.w - d.w).dot ((b.w - d.w).cross (c.w - d.w)) < 0
    · rw [if_pos k]; exact build_spec sup hV guess p1 p2 rfl hb ha hc hd
    · rw [if_neg k]; exact build_spec sup hV guess p1 p2 rfl ha hb hc hd

theorem init_partition (faces : ℕ → Face) (L : Limits) : Partition L (init faces L) := List.Perm.refl _

end Fcl.Epa
