import Verif.Epa.Expand

/-!
# The loop of the expanding polytope algorithm
-/

namespace Fcl.Epa
open V3
open Gjk (SV vertex)

variable {L : Limits} {s : St}

theorem findBest_spec (hne : s.hull ≠ []) :
    ∃ b, findBest s = some b ∧ b ∈ s.hull ∧ ∀ a ∈ s.hull, (s.faces b).d * (s.faces b).d ≤ (s.faces a).d * (s.faces a).d := by
  rcases hh : s.hull with _ | ⟨r, l⟩
  · exact absurd hh hne
  · have key : ∀ (l : List ℕ) (r : ℕ), l.foldl (fun m f => if (s.faces f).d * (s.faces f).d < (s.faces m).d * (s.faces m).d
        then f else m) r ∈ r :: l ∧ ∀ a ∈ r :: l, (s.faces (l.foldl (fun m f => if (s.faces f).d * (s.faces f).d <
        (s.faces m).d * (s.faces m).d then f else m) r)).d * (s.faces (l.foldl (fun m f => if (s.faces f).d * (s.faces f).d <
        (s.faces m).d * (s.faces m).d then f else m) r)).d ≤ (s.faces a).d * (s.faces a).d := by
      intro l
      induction l with
      | nil => intro r; exact ⟨List.mem_cons_self, fun a ha => by rw [List.mem_singleton.1 ha]; exact le_refl _⟩
      | cons x l ih =>
        intro r
        rw [List.foldl_cons]
        by_cases hx : (s.faces x).d * (s.faces x).d < (s.faces r).d * (s.faces r).d
        · rw [if_pos hx]
          obtain ⟨h1, h2⟩ := ih x
          refine ⟨List.mem_cons_of_mem _ h1, fun a ha => ?_⟩
          rcases List.mem_cons.1 ha with rfl | ha
          · exact (h2 x List.mem_cons_self).trans hx.le
          · exact h2 a ha
        · rw [if_neg hx]
          obtain ⟨h1, h2⟩ := ih r
          refine ⟨?_, fun a ha => ?_⟩
          · rcases List.mem_cons.1 h1 with h | h
            · rw [h]; exact List.mem_cons_self
            · exact List.mem_cons_of_mem _ (List.mem_cons_of_mem _ h)
          · rcases List.mem_cons.1 ha with rfl | ha
            · exact h2 a List.mem_cons_self
            · rcases List.mem_cons.1 ha with rfl | ha
              · exact (h2 r List.mem_cons_self).trans (not_lt.1 hx)
              · exact h2 a (List.mem_cons_of_mem _ ha)
    refine ⟨_, ?_, (key l r).1, (key l r).2⟩
    rw [findBest, hh]

/-- What `expand` does over some edges of the marked face `best`. -/
theorem expandAll_spec {p : ℕ} (hp0 : p ≠ 0) {V : SV → Prop} {w : SV} (hw : V w) {best : ℕ} :
    ∀ (js : List (Fin 3)) (s : St) (h : Horizon) (N : List ℕ) (M : ℕ → Fin 3 → Prop) (u : SV) (j : Fin 3), Fine V L p s →
    Mid L p w M N s → Hor h N → js.Nodup → (∀ i ∈ js, ¬ M best i) → best ∈ s.hull → (s.faces best).pass = p →
    (∀ i (l : List (Fin 3)), js = i :: l → i = j) → (∀ i, js.getLast? = some i → i = 2) → List.IsChain (fun a b => b = a + 1) js →
    Tip s N u ((s.faces best).c j) → (js = [] → j = 0) →
    ∃ r t h', expandAll L p w (L.maxFace + 1) best js s h = some (r, t, h') ∧ Partition L t ∧ t.nextsv = s.nextsv ∧ Fine V L p t ∧
      (r = true → ∃ N' M', Mid L p w M' N' t ∧ (∀ a i, M' a i ↔ M a i ∨ (a = best ∧ i ∈ js)) ∧ Hor h' N' ∧
        Tip t N' u ((s.faces best).c 0) ∧ N.length + js.length ≤ N'.length ∧ best ∈ t.hull ∧ t.status = s.status) := by
  intro js
  induction js with
  | nil =>
    intro s h N M u j fine mid hor _ _ hb hbp _ _ _ tip hj
    refine ⟨true, s, h, rfl, mid.part, rfl, fine, fun _ => ⟨N, M, mid, fun a i => ?_, hor, ?_, le_refl _, hb, rfl⟩⟩
    · simp
    · rw [hj rfl] at tip; exact tip
  | cons i js ih =>
    intro s h N M u j fine mid hor nd hM hb hbp hij hlast hch tip _
    have e := hij i js rfl
    subst e
    have hnN : best ∉ N := fun c => (mid.sub best c).2.1 hbp
    have ho : ¬ Open M N best i := by
      rintro (c | c | c)
      · exact hM i List.mem_cons_self c
      · exact hnN (head_mem c.2)
      · exact hnN (List.mem_of_getLast? c.2)
    obtain ⟨g, k, hg, -, J⟩ := mid.good best hb i ho
    obtain ⟨r, t, h', x1, x2, x3, x4, x5⟩ := expand_spec hp0 hw (L.maxFace + 1) s g k h N M best i u fine mid hor
      (hM i List.mem_cons_self) hb hbp J.1 (by rw [← J.2.2.1]; exact tip) (Nat.le_add_right _ _)
    rcases r with _ | _
    · refine ⟨false, t, h', ?_, x2, x3, x4, by intro c; cases c⟩
      simp only [expandAll, J.1, x1]
    · obtain ⟨N', m', hor', tip', len', st', fr'⟩ := x5 rfl
      obtain ⟨hb', ef⟩ := fr' best hb hbp
      rw [← J.2.2.2] at tip'
      obtain ⟨r2, t2, h2, y1, y2, y3, y4, y5⟩ := ih t h' N' (Plus M best i) u (i + 1) x4 m' hor' (List.nodup_cons.1 nd).2
        (by
          rintro k hk (c | c)
          · exact hM k (List.mem_cons_of_mem _ hk) c
          · exact (List.nodup_cons.1 nd).1 (c.2 ▸ hk))
        hb' (by rw [ef]; exact hbp)
        (by
          intro k l hl
          rw [hl] at hch
          exact (List.isChain_cons_cons.1 hch).1)
        (by
          intro k hk
          apply hlast k
          rcases js with _ | ⟨c, js⟩
          · simp at hk
          · simpa using hk)
        (by
          rcases js with _ | ⟨c, js⟩
          · exact List.IsChain.nil
          · exact (List.isChain_cons_cons.1 hch).2)
        (by rw [ef]; exact tip')
        (by
          intro hn
          have := hlast i (by rw [hn]; rfl)
          rw [this]; decide)
      refine ⟨r2, t2, h2, ?_, y2, y3.trans x3, y4, fun hr => ?_⟩
      · simp only [expandAll, J.1, x1, y1]
      · obtain ⟨N2, M2, z1, z2, z3, z4, z5, z6, z7⟩ := y5 hr
        refine ⟨N2, M2, z1, fun a k => ?_, z3, by rw [ef] at z4; exact z4, by simp only [List.length_cons]; omega, z6,
          z7.trans st'⟩
        rw [z2]
        simp only [Plus, List.mem_cons]
        constructor
        · rintro ((c | c) | c)
          · exact Or.inl c
          · exact Or.inr ⟨c.1, Or.inl c.2⟩
          · exact Or.inr ⟨c.1, Or.inr c.2⟩
        · rintro (c | ⟨c1, c2 | c2⟩)
          · exact Or.inl (Or.inl c)
          · exact Or.inl (Or.inr ⟨c1, c2⟩)
          · exact Or.inr ⟨c1, c2⟩

/-- A closed hull is the state between the calls, with no new face. -/
theorem Closed.mid {p : ℕ} {w : SV} (h : Closed s) (hp : Partition L s) : Mid L p w (fun _ _ => False) [] s := by
  have no : ∀ a i, ¬ Open (fun _ _ => False) [] a i := by
    intro a i
    rintro (c | c | c)
    · exact c
    · have := c.2; simp at this
    · have := c.2; simp at this
  refine ⟨hp, by simp, List.nodup_nil, by intro a i c; exact c.elim, ?_, by simp⟩
  intro a ha i _
  obtain ⟨b, hb, j, J⟩ := h a ha i
  exact ⟨b, j, hb, no _ _, J⟩

/-- The end of a round: the row of new faces is closed and `best` goes. -/
theorem Mid.close {p : ℕ} {w : SV} {M : ℕ → Fin 3 → Prop} {N : List ℕ} (h : Mid L p w M N s) {best ff cf : ℕ}
    (hM : ∀ a i, M a i ↔ a = best) (hff : N.getLast? = some ff) (hcf : N.head? = some cf) (hlen : 2 ≤ N.length) {u : SV}
    (tip : Tip s N u u) (hbm : (s.faces best).pass = p) {t : St} (ef : t.faces = (bind s ff 2 cf 1).faces)
    (eh : t.hull = s.hull.erase best) : Closed t ∧ t.hull ≠ [] := by
  have nd := h.part.hull_nodup
  have mem : ∀ a, a ∈ t.hull ↔ a ≠ best ∧ a ∈ s.hull := fun a => by rw [eh]; exact nd.mem_erase_iff
  have hfN := List.mem_of_getLast? hff
  have hcN := head_mem hcf
  have hbN : best ∉ N := fun c => (h.sub best c).2.1 hbm
  have hne : ff ≠ cf := by
    rcases N with _ | ⟨x, _ | ⟨y, N⟩⟩
    · simp at hcf
    · simp at hlen
    · simp only [List.head?_cons, Option.some.injEq] at hcf
      subst hcf
      rintro rfl
      have : (y :: N).getLast? = some ff := by simpa using hff
      exact (List.nodup_cons.1 h.nodup).1 (List.mem_of_getLast? this)
  have hc : ∀ x, (t.faces x).c = (s.faces x).c := fun x => by rw [ef, bind_c]
  have ha : ∀ x k, (t.faces x).adj k = if x = cf ∧ k = 1 then some (ff, 2) else if x = ff ∧ k = 2 then some (cf, 1) else
      (s.faces x).adj k := fun x k => by rw [ef, bind_adj]
  have cw : ∀ x ∈ N, (s.faces x).c 2 = w := fun x hx => (h.sub x hx).2.2
  have cend : (s.faces ff).c 0 = (s.faces cf).c 1 := by
    rcases tip with ⟨d, -⟩ | ⟨x, y, hx, hy, d1, d2⟩
    · rw [d] at hcf; simp at hcf
    · rw [hcf] at hx; rw [hff] at hy; cases hx; cases hy; rw [d1, d2]
  have J : Joined t ff 2 cf 1 := by
    refine ⟨?_, ?_, ?_, ?_⟩
    · rw [ha, if_neg (fun d => hne d.1), if_pos ⟨rfl, rfl⟩]
    · rw [ha, if_pos ⟨rfl, rfl⟩]
    · rw [hc, hc, show (1 : Fin 3) + 1 = 2 by decide, cw ff hfN, cw cf hcN]
    · rw [hc, hc, show (2 : Fin 3) + 1 = 0 by decide, cend]
  have inH : ∀ x ∈ N, x ∈ t.hull := fun x hx => (mem x).2 ⟨fun d => hbN (d ▸ hx), (h.sub x hx).1⟩
  refine ⟨?_, fun d => by have := inH ff hfN; rw [d] at this; simp at this⟩
  intro a ha' i
  obtain ⟨hab, hah⟩ := (mem a).1 ha'
  by_cases c1 : a = ff ∧ i = 2
  · obtain ⟨rfl, rfl⟩ := c1
    exact ⟨cf, inH cf hcN, 1, J⟩
  · by_cases c2 : a = cf ∧ i = 1
    · obtain ⟨rfl, rfl⟩ := c2
      exact ⟨ff, inH ff hfN, 2, J.2.1, J.1, J.2.2.2.symm, J.2.2.1.symm⟩
    · have ho : ¬ Open M N a i := by
        rintro (c | c | c)
        · exact hab ((hM a i).1 c)
        · rw [hcf] at c; exact c2 ⟨(Option.some.inj c.2).symm, c.1⟩
        · rw [hff] at c; exact c1 ⟨(Option.some.inj c.2).symm, c.1⟩
      obtain ⟨b, j, hb, hob, K⟩ := h.good a hah i ho
      have hbb : b ≠ best := fun d => hob (Or.inl ((hM b j).2 d))
      refine ⟨b, (mem b).2 ⟨hbb, hb⟩, j, ?_, ?_, ?_, ?_⟩
      · rw [ha, if_neg c2, if_neg c1]; exact K.1
      · rw [ha, if_neg, if_neg]
        · exact K.2.1
        · rintro ⟨rfl, rfl⟩; exact hob (Or.inr (Or.inr ⟨rfl, hff⟩))
        · rintro ⟨rfl, rfl⟩; exact hob (Or.inr (Or.inl ⟨rfl, hcf⟩))
      · rw [hc, hc]; exact K.2.2.1
      · rw [hc, hc]; exact K.2.2.2

/-- How the loop can end: the status, and what is known then. -/
structure Ended (sup : V3 ℝ → V3 ℝ) (V : SV → Prop) (L : Limits) (t : St) (o : Face) : Prop where
  part : Partition L t
  slots : t.nextsv ≤ L.maxVertex
  made : Made V L o
  status : t.status = .valid ∨ t.status = .invalidHull ∨ t.status = .accuracyReached ∨ t.status = .outOfVertices
  closed : t.status ≠ .invalidHull → Closed t ∧ ∀ a ∈ t.hull, Made V L (t.faces a) ∧ o.d * o.d ≤ (t.faces a).d * (t.faces a).d
  near : t.status = .accuracyReached → o.n.dot (sup o.n.normalized) ≤ o.d + L.tol

theorem loop_spec (sup : V3 ℝ → V3 ℝ) {V : SV → Prop} (hV : ∀ x, Made V L x → V (vertex sup x.n)) :
    ∀ (k : ℕ) (s : St) (best : ℕ) (outer : Face) (pass : ℕ),
    Partition L s → Closed s → Fine V L pass s → best ∈ s.hull → s.nextsv ≤ L.maxVertex → s.status = .valid →
    outer.n = (s.faces best).n → outer.d = (s.faces best).d → outer.c = (s.faces best).c →
    (∀ a ∈ s.hull, (s.faces best).d * (s.faces best).d ≤ (s.faces a).d * (s.faces a).d) →
    ∃ t o, loop sup L k s best outer pass = some (t, o) ∧ Ended sup V L t o := by
  intro k
  induction k with
  | zero =>
    intro s best outer pass part closed fine hb hsv hst e1 e2 e3 hmin
    refine ⟨s, outer, rfl, part, hsv, (fine best hb).1.congr e3 e1 e2, Or.inl hst, fun _ => ⟨closed, fun a ha => ⟨(fine a ha).1, ?_⟩⟩,
      fun c => by rw [hst] at c; cases c⟩
    rw [e2]; exact hmin a ha
  | succ k ih =>
    intro s best outer pass part closed fine hb hsv hst e1 e2 e3 hmin
    by_cases hlt : s.nextsv < L.maxVertex
    · set s1 : St := { s.put best { s.faces best with pass := pass + 1 } with nextsv := s.nextsv + 1 } with hs1
      have c1 : ∀ x, (s1.faces x).c = (s.faces x).c ∧ (s1.faces x).adj = (s.faces x).adj ∧ (s1.faces x).n = (s.faces x).n ∧
          (s1.faces x).d = (s.faces x).d := by
        intro x
        by_cases hx : x = best
        · subst hx; simp [hs1, St.put]
        · simp [hs1, St.put, hx]
      have p1 : ∀ x ∈ s.hull, (s1.faces x).pass ≤ pass + 1 := by
        intro x hx
        by_cases hxb : x = best
        · subst hxb; simp [hs1, St.put]
        · simp only [hs1, St.put, if_neg hxb]; exact (fine x hx).2.trans (Nat.le_succ _)
      have pb : (s1.faces best).pass = pass + 1 := by simp [hs1, St.put]
      have part1 : Partition L s1 := part
      have closed1 : Closed s1 := by
        intro a ha i
        obtain ⟨b, hb', j, J⟩ := closed a ha i
        refine ⟨b, hb', j, ?_⟩
        unfold Joined at J ⊢
        rw [(c1 a).1, (c1 a).2.1, (c1 b).1, (c1 b).2.1]; exact J
      have fine1 : Fine V L (pass + 1) s1 := fun x hx => ⟨(fine x hx).1.congr (c1 x).1 (c1 x).2.2.1 (c1 x).2.2.2, p1 x hx⟩
      have hb1 : best ∈ s1.hull := hb
      have made : Made V L outer := (fine best hb).1.congr e3 e1 e2
      set w := vertex sup (s1.faces best).n with hw
      have Vw : V w := hV _ (fine1 best hb1).1
      by_cases hd : (s1.faces best).n.dot w.w - (s1.faces best).d > L.tol
      · obtain ⟨r, t, h', x1, x2, x3, x4, x5⟩ := expandAll_spec (L := L) (Nat.succ_ne_zero pass) Vw (best := best) [0, 1, 2] s1
          ⟨none, none, 0⟩ [] (fun _ _ => False) ((s1.faces best).c 0) 0 fine1 (closed1.mid part1) ⟨rfl, rfl, rfl⟩ (by decide)
          (fun _ _ c => c) hb1 pb (by intro i l hl; simpa using (List.cons.inj hl).1.symm) (by intro i hi; simpa using hi.symm)
          (by simp) (Or.inl ⟨rfl, rfl⟩) (by intro c; simp at c)
        have e4 : t.nextsv ≤ L.maxVertex := by rw [x3]; exact hlt
        rcases hv : (r && decide (3 ≤ h'.nf)) with _ | _
        · refine ⟨{ t with status := .invalidHull }, outer, ?_, x2, e4, made, Or.inr (Or.inl rfl), fun c => absurd rfl c,
            fun c => by cases c⟩
          rw [loop, if_pos hlt]
          rw [if_pos (show (s1.faces best).n.dot (vertex sup (s1.faces best).n).w - (s1.faces best).d > L.tol from hd)]
          erw [x1]
          simp only [hv]
          rfl
        · rw [Bool.and_eq_true, decide_eq_true_eq] at hv
          obtain ⟨hr, hnf⟩ := hv
          obtain ⟨N, M, m, hM, hor, tip, len, hbt, hst3⟩ := x5 hr
          have hM' : ∀ a i, M a i ↔ a = best := by
            intro a i
            rw [hM]
            refine ⟨fun c => c.elim False.elim (fun c => c.1), fun c => Or.inr ⟨c, ?_⟩⟩
            revert i; decide
          have len3 : 3 ≤ N.length := by simpa using len
          obtain ⟨ff, hff⟩ : ∃ ff, N.getLast? = some ff := by
            rcases hh : N.getLast? with _ | ff
            · rw [List.getLast?_eq_none_iff] at hh; rw [hh] at len3; simp at len3
            · exact ⟨ff, rfl⟩
          obtain ⟨cf, hcf⟩ : ∃ cf, N.head? = some cf := by
            rcases hh : N.head? with _ | cf
            · rw [List.head?_eq_none_iff] at hh; rw [hh] at len3; simp at len3
            · exact ⟨cf, rfl⟩
          have pbind : Partition L (bind t ff 2 cf 1) := x2
          obtain ⟨s3, z1, z2, z3, z4, z5, z6⟩ := drop_spec pbind (f := best) hbt
          have hbm : (t.faces best).pass = pass + 1 := (m.marked best 0 ((hM' best 0).2 rfl)).2
          obtain ⟨cl, hne⟩ := m.close hM' hff hcf (by omega) tip hbm (t := s3) z3 z4
          obtain ⟨b', y1, y2, y3⟩ := findBest_spec hne
          have fine3 : Fine V L (pass + 1) s3 := by
            intro a ha
            rw [z4] at ha
            have := (x4.bind ff 2 cf 1) a (List.mem_of_mem_erase ha)
            rw [z3]; exact this
          have hs3 : s3.status = .valid := by rw [z6]; exact hst3.trans hst
          obtain ⟨t', o', q1, q2⟩ := ih s3 b' (s3.faces b') (pass + 1) z2 cl fine3 y2 (by rw [z5]; exact e4) hs3 rfl rfl rfl y3
          refine ⟨t', o', ?_, q2⟩
          rw [loop, if_pos hlt]
          rw [if_pos (show (s1.faces best).n.dot (vertex sup (s1.faces best).n).w - (s1.faces best).d > L.tol from hd)]
          erw [x1]
          simp only [hr, hnf, decide_true, Bool.and_self, if_true]
          rw [show h'.ff = some ff from hor.2.1.trans hff, show h'.cf = some cf from hor.1.trans hcf]
          simp only [z1, y1, q1]
      · refine ⟨{ s1 with status := .accuracyReached }, outer, ?_, part1, hlt, made, Or.inr (Or.inr (Or.inl rfl)), fun _ => ⟨closed1,
          fun a ha => ⟨(fine1 a ha).1, ?_⟩⟩, fun _ => ?_⟩
        · rw [loop, if_pos hlt]
          simp only [← hs1]
          rw [if_neg (show ¬ (s1.faces best).n.dot (vertex sup (s1.faces best).n).w - (s1.faces best).d > L.tol from hd)]
        · show outer.d * outer.d ≤ (s1.faces a).d * (s1.faces a).d
          rw [e2, (c1 a).2.2.2]; exact hmin a ha
        · rw [hw, (c1 best).2.2.1, (c1 best).2.2.2, ← e1, ← e2] at hd
          have : outer.n.dot (sup outer.n.normalized) - outer.d ≤ L.tol := not_lt.1 hd
          linarith
    · refine ⟨{ s with status := .outOfVertices }, outer, ?_, part, hsv, (fine best hb).1.congr e3 e1 e2, Or.inr (Or.inr (Or.inr rfl)),
        fun _ => ⟨closed, fun a ha => ⟨(fine a ha).1, ?_⟩⟩, fun c => by cases c⟩
      · rw [loop, if_neg hlt]
      · rw [e2]; exact hmin a ha

end Fcl.Epa
