import Verif.Epa.Lists

/-!
# `expand` keeps the hull closed
-/

namespace Fcl.Epa
open V3
open Gjk (SV vertex)

variable {L : Limits} {s : St}

/-- `M` and one more edge. -/
def Plus (M : ℕ → Fin 3 → Prop) (a : ℕ) (i : Fin 3) (b : ℕ) (j : Fin 3) : Prop := M b j ∨ (b = a ∧ j = i)

theorem head_mem {N : List ℕ} {a : ℕ} (h : N.head? = some a) : a ∈ N := List.mem_of_mem_head? (by rw [h]; rfl)

theorem fin3_cases (e k : Fin 3) : k = e ∨ k = e + 1 ∨ k = e + 2 := by
  revert e k; decide

theorem fin3_ne (e : Fin 3) : e + 2 ≠ e + 1 ∧ e + 1 ≠ e ∧ e + 2 ≠ e ∧ e + 1 + 1 = e + 2 ∧ e + 2 + 1 = e := by
  revert e; decide

/-- A new face on the horizon. -/
theorem Mid.add {p : ℕ} {w : SV} {M : ℕ → Fin 3 → Prop} {N : List ℕ} (h : Mid L p w M N s) (hp0 : p ≠ 0) {pa : ℕ} {j : Fin 3} {f : ℕ}
    {e : Fin 3} (hM : ¬ M pa j) (hp : pa ∈ s.hull) (hm : (s.faces pa).pass = p) (ha : (s.faces pa).adj j = some (f, e))
    (hf : (s.faces f).pass ≠ p) (hb : Below L w (s.faces f)) {u : SV} (ht : Tip s N u ((s.faces f).c (e + 1))) {k : ℕ} {s1 t : St}
    (hk : k ∈ s.stock) (p1 : Partition L s1) (e1 : s1.hull = k :: s.hull) (e2 : ∀ x, x ≠ k → s1.faces x = s.faces x)
    (e3 : (s1.faces k).pass = 0) (e4 : (s1.faces k).c = tri ((s.faces f).c (e + 1)) ((s.faces f).c e) w)
    (hh : t.hull = s1.hull) (hst : t.stock = s1.stock)
    (hc : ∀ x, (t.faces x).c = (s1.faces x).c ∧ (t.faces x).n = (s1.faces x).n ∧ (t.faces x).d = (s1.faces x).d ∧
      (t.faces x).pass = (s1.faces x).pass)
    (hadj : ∀ x i, (t.faces x).adj i = if N.head? = some x ∧ i = 1 then some (k, 2) else
      if x = f ∧ i = e then some (k, 0) else if x = k ∧ i = 0 then some (f, e) else
      if x = k ∧ i = 2 then (N.head?.map fun c => (c, (1 : Fin 3))).or ((s1.faces x).adj i) else (s1.faces x).adj i) :
    Mid L p w (Plus M pa j) (k :: N) t ∧ Tip t (k :: N) u ((s.faces f).c e) := by
  obtain ⟨hfh, hof, hj, hop⟩ := h.reach hM hp hm ha
  have hfN : f ∉ N := h.notNew hM hp hm ha
  have hkh : k ∉ s.hull := h.part.disj hk
  have hkN : k ∉ N := fun c => hkh (h.sub k c).1
  have hkf : k ≠ f := fun c => hkh (c ▸ hfh)
  have hfp : f ≠ pa := fun c => hf (c ▸ hm)
  have hkp : k ≠ pa := fun c => hkh (c ▸ hp)
  have cne : ∀ x, x ≠ k → (t.faces x).c = (s.faces x).c := fun x hx => by rw [(hc x).1, e2 x hx]
  have nne : ∀ x, x ≠ k → (t.faces x).pass = (s.faces x).pass := fun x hx => by rw [(hc x).2.2.2, e2 x hx]
  have bne : ∀ x, x ≠ k → Below L w (s.faces x) → Below L w (t.faces x) := fun x hx hb => by
    unfold Below at hb ⊢
    rw [(hc x).2.1, (hc x).2.2.1, e2 x hx]; exact hb
  have ck : (t.faces k).c = tri ((s.faces f).c (e + 1)) ((s.faces f).c e) w := by rw [(hc k).1, e4]
  have pk : (t.faces k).pass = 0 := by rw [(hc k).2.2.2, e3]
  have hNk : N.head? ≠ some k := fun c => hkN (head_mem c)
  have hlast : ∀ x, (k :: N).getLast? = some x → (N = [] ∧ x = k) ∨ N.getLast? = some x := by
    intro x hx
    rcases N with _ | ⟨c, N⟩
    · simp at hx; exact Or.inl ⟨rfl, hx.symm⟩
    · right; simpa using hx
  have hlast' : ∀ x, N.getLast? = some x → (k :: N).getLast? = some x := by
    intro x hx
    rcases N with _ | ⟨c, N⟩
    · simp at hx
    · simpa using hx
  -- old edges that are not rewritten
  have keep : ∀ a, a ∈ s.hull → ∀ i, ¬ (N.head? = some a ∧ i = 1) → ¬ (a = f ∧ i = e) → (t.faces a).adj i = (s.faces a).adj i := by
    intro a ha' i h1 h2
    have hak : a ≠ k := fun c => hkh (c ▸ ha')
    rw [hadj, if_neg h1, if_neg h2, if_neg (fun c => hak c.1), if_neg (fun c => hak c.1), e2 a hak]
  have openk0 : ¬ Open (Plus M pa j) (k :: N) k 0 := by
    rintro ((c | c) | c | c)
    · exact hkh (h.marked _ _ c).1
    · exact hkp c.1
    · exact absurd c.1 (by decide)
    · exact absurd c.1 (by decide)
  have openfe : ¬ Open (Plus M pa j) (k :: N) f e := by
    rintro ((c | c) | c | c)
    · exact hof (Or.inl c)
    · exact hfp c.1
    · have := c.2; simp at this; exact hkf this
    · rcases hlast _ c.2 with d | d
      · exact hkf d.2.symm
      · exact hfN (List.mem_of_getLast? d)
  have aF : (t.faces f).adj e = some (k, 0) := by
    rw [hadj, if_neg (fun c => hfN (head_mem c.1)), if_pos ⟨rfl, rfl⟩]
  have aK : (t.faces k).adj 0 = some (f, e) := by
    rw [hadj, if_neg (fun c => hNk c.1), if_neg (fun c => hkf c.1), if_pos ⟨rfl, rfl⟩]
  have joinKF : Joined t k 0 f e := by
    refine ⟨aK, aF, ?_, ?_⟩
    · rw [ck, cne f hkf.symm]; simp [tri]
    · rw [ck, cne f hkf.symm]; simp [tri]
  -- the last new face
  have openC : ∀ c, N.head? = some c → ¬ Open (Plus M pa j) (k :: N) c 1 := by
    intro c hc'
    have hcN := head_mem hc'
    rintro ((d | d) | d | d)
    · exact (h.sub c hcN).2.1 (h.marked _ _ d).2
    · exact (h.sub c hcN).2.1 (d.1 ▸ hm)
    · have := d.2; simp at this; exact hkN (this ▸ hcN)
    · exact absurd d.1 (by decide)
  have openK2 : ∀ c, N.head? = some c → ¬ Open (Plus M pa j) (k :: N) k 2 := by
    intro c hc'
    rintro ((d | d) | d | d)
    · exact hkh (h.marked _ _ d).1
    · exact hkp d.1
    · exact absurd d.1 (by decide)
    · rcases hlast _ d.2 with d | d
      · rw [d.1] at hc'; simp at hc'
      · exact hkN (List.mem_of_getLast? d)
  have joinKC : ∀ c, N.head? = some c → Joined t k 2 c 1 := by
    intro c hc'
    have hcN := head_mem hc'
    have hck : c ≠ k := fun d => hkN (d ▸ hcN)
    refine ⟨?_, ?_, ?_, ?_⟩
    · rw [hadj, if_neg (fun d => hNk d.1), if_neg (fun d => hkf d.1), if_neg (fun d => absurd d.2 (by decide)),
        if_pos ⟨rfl, rfl⟩, hc']
      rfl
    · rw [hadj, if_pos ⟨hc', rfl⟩]
    · rw [ck, cne c hck]
      have : (1 : Fin 3) + 1 = 2 := by decide
      rw [this, (h.sub c hcN).2.2]; simp [tri]
    · rw [ck, cne c hck]
      have : (2 : Fin 3) + 1 = 0 := by decide
      rw [this]
      rcases ht with ⟨d, -⟩ | ⟨x, y, hx, hy, -, d⟩
      · rw [d] at hc'; simp at hc'
      · rw [hc'] at hx; cases hx
        rw [d]; simp [tri]
  refine ⟨⟨?_, ?_, ?_, ?_, ?_, ?_⟩, ?_⟩
  · unfold Partition at p1 ⊢; rw [hh, hst]; exact p1
  · intro a ha'
    rcases List.mem_cons.1 ha' with rfl | ha'
    · refine ⟨by rw [hh, e1]; exact List.mem_cons_self, by rw [pk]; exact hp0.symm, by rw [ck]; simp [tri]⟩
    · obtain ⟨d1, d2, d3⟩ := h.sub a ha'
      have hak : a ≠ k := fun d => hkh (d ▸ d1)
      exact ⟨by rw [hh, e1]; exact List.mem_cons_of_mem _ d1, by rw [nne a hak]; exact d2, by rw [cne a hak]; exact d3⟩
  · exact List.nodup_cons.2 ⟨hkN, h.nodup⟩
  · rintro a i (c | ⟨rfl, rfl⟩)
    · obtain ⟨d1, d2⟩ := h.marked a i c
      have hak : a ≠ k := fun d => hkh (d ▸ d1)
      exact ⟨by rw [hh, e1]; exact List.mem_cons_of_mem _ d1, by rw [nne a hak]; exact d2⟩
    · exact ⟨by rw [hh, e1]; exact List.mem_cons_of_mem _ hp, by rw [nne a hkp.symm]; exact hm⟩
  · intro a ha' i ho
    rw [hh, e1] at ha' ⊢
    rcases List.mem_cons.1 ha' with rfl | ha'
    · rcases fin3_cases 0 i with rfl | rfl | rfl
      · exact ⟨f, e, List.mem_cons_of_mem _ hfh, openfe, joinKF⟩
      · exact absurd (Or.inr (Or.inl ⟨by decide, rfl⟩)) ho
      · rcases hc' : N.head? with _ | c
        · have hN : N = [] := by simpa using hc'
          exact absurd (Or.inr (Or.inr ⟨by decide, by rw [hN]; rfl⟩)) ho
        · have hcN := head_mem hc'
          exact ⟨c, 1, List.mem_cons_of_mem _ (h.sub c hcN).1, openC c hc', by simpa using joinKC c hc'⟩
    · have hak : a ≠ k := fun d => hkh (d ▸ ha')
      by_cases h2 : a = f ∧ i = e
      · obtain ⟨rfl, rfl⟩ := h2
        refine ⟨k, 0, List.mem_cons_self, openk0, aF, aK, ?_, ?_⟩
        · have := joinKF.2.2.2; rw [← this]
        · have := joinKF.2.2.1; rw [← this]
      · by_cases h1 : N.head? = some a ∧ i = 1
        · obtain ⟨h1, rfl⟩ := h1
          have J := joinKC a h1
          exact ⟨k, 2, List.mem_cons_self, openK2 a h1, J.2.1, J.1, J.2.2.2.symm, J.2.2.1.symm⟩
        · have ho' : ¬ Open M N a i := by
            rintro (c | c | c)
            · exact ho (Or.inl (Or.inl c))
            · exact h1 ⟨c.2, c.1⟩
            · exact ho (Or.inr (Or.inr ⟨c.1, hlast' _ c.2⟩))
          obtain ⟨b, j', hb', hob, J⟩ := h.good a ha' i ho'
          have hbk : b ≠ k := fun d => hkh (d ▸ hb')
          refine ⟨b, j', List.mem_cons_of_mem _ hb', ?_, ?_, ?_, ?_, ?_⟩
          · rintro ((c | ⟨rfl, rfl⟩) | c | c)
            · exact hob (Or.inl c)
            · have := J.2.1; rw [ha] at this; cases this; exact h2 ⟨rfl, rfl⟩
            · have := c.2; simp at this; exact hbk this.symm
            · rcases hlast _ c.2 with d | d
              · exact hbk d.2
              · exact hob (Or.inr (Or.inr ⟨c.1, d⟩))
          · rw [keep a ha' i h1 h2]; exact J.1
          · rw [keep b hb' j' ?_ ?_]
            · exact J.2.1
            · rintro ⟨c, rfl⟩; exact hob (Or.inr (Or.inl ⟨rfl, c⟩))
            · rintro ⟨rfl, rfl⟩
              have := J.2.1; rw [hj.2.1] at this; cases this
              exact ho (Or.inl (Or.inr ⟨rfl, rfl⟩))
          · rw [cne a hak, cne b hbk]; exact J.2.2.1
          · rw [cne a hak, cne b hbk]; exact J.2.2.2
  · intro a ha' i ho
    rcases List.mem_cons.1 ha' with rfl | ha'
    · rcases fin3_cases 0 i with rfl | rfl | rfl
      · exact ⟨f, e, aK, by rw [nne f hkf.symm]; exact hf, Or.inr (bne f hkf.symm hb)⟩
      · exact absurd (Or.inr (Or.inl ⟨by decide, rfl⟩)) ho
      · rcases hc' : N.head? with _ | c
        · have hN : N = [] := by simpa using hc'
          exact absurd (Or.inr (Or.inr ⟨by decide, by rw [hN]; rfl⟩)) ho
        · have hcN := head_mem hc'
          have hck : c ≠ a := fun d => hkN (d ▸ hcN)
          exact ⟨c, 1, by simpa using (joinKC c hc').1, by rw [nne c hck]; exact (h.sub c hcN).2.1,
            Or.inl (List.mem_cons_of_mem _ hcN)⟩
    · have hah := (h.sub a ha').1
      have hak : a ≠ k := fun d => hkN (d ▸ ha')
      have h2 : ¬ (a = f ∧ i = e) := fun c => hfN (c.1 ▸ ha')
      by_cases h1 : N.head? = some a ∧ i = 1
      · obtain ⟨h1, rfl⟩ := h1
        exact ⟨k, 2, (joinKC a h1).2.1, by rw [pk]; exact hp0.symm, Or.inl List.mem_cons_self⟩
      · have ho' : ¬ Open M N a i := by
          rintro (c | c | c)
          · exact ho (Or.inl (Or.inl c))
          · exact h1 ⟨c.2, c.1⟩
          · exact ho (Or.inr (Or.inr ⟨c.1, hlast' _ c.2⟩))
        obtain ⟨b, j', d1, d2, d3⟩ := h.nbr a ha' i ho'
        obtain ⟨b', j'', hb', -, J⟩ := h.good a hah i ho'
        have := J.1; rw [d1] at this; cases this
        have hbk : b ≠ k := fun d => hkh (d ▸ hb')
        refine ⟨b, j', by rw [keep a hah i h1 h2]; exact d1, by rw [nne b hbk]; exact d2, ?_⟩
        rcases d3 with d | d
        · exact Or.inl (List.mem_cons_of_mem _ d)
        · exact Or.inr (bne b hbk d)
  · right
    rcases ht with ⟨d1, d2⟩ | ⟨x, y, hx, hy, d1, d2⟩
    · refine ⟨k, k, rfl, by rw [d1]; rfl, ?_, ?_⟩
      · rw [ck, d2]; simp [tri]
      · rw [ck]; simp [tri]
    · have hyN := List.mem_of_getLast? hy
      refine ⟨k, y, rfl, hlast' _ hy, ?_, ?_⟩
      · rw [cne y (fun d => hkN (d ▸ hyN))]; exact d1
      · rw [ck]; simp [tri]

/-- The two visible neighbours of a visible face are done: the face goes. -/
theorem Mid.remove {p : ℕ} {w : SV} {M : ℕ → Fin 3 → Prop} {N : List ℕ} {pa : ℕ} {j : Fin 3} {f : ℕ} {e : Fin 3}
    (h : Mid L p w (Plus (Plus M f (e + 1)) f (e + 2)) N s) (hM : ∀ a i, M a i → a ≠ f) (hpa : pa ≠ f) (hp : pa ∈ s.hull)
    (hm : (s.faces pa).pass = p) (hfm : (s.faces f).pass = p) (ha : (s.faces pa).adj j = some (f, e))
    (hb : (s.faces f).adj e = some (pa, j)) {t : St} (pt : Partition L t) (ef : t.faces = s.faces) (eh : t.hull = s.hull.erase f) :
    Mid L p w (Plus M pa j) N t := by
  have nd := h.part.hull_nodup
  have mem : ∀ a, a ∈ t.hull ↔ a ≠ f ∧ a ∈ s.hull := fun a => by rw [eh]; exact nd.mem_erase_iff
  have opn : ∀ a i, a ≠ f → ¬ Open (Plus M pa j) N a i → ¬ Open (Plus (Plus M f (e + 1)) f (e + 2)) N a i := by
    intro a i haf ho
    rintro (((c | c) | c) | c)
    · exact ho (Or.inl (Or.inl c))
    · exact haf c.1
    · exact haf c.1
    · exact ho (Or.inr c)
  have hfN : f ∉ N := fun c => (h.sub f c).2.1 hfm
  refine ⟨pt, ?_, h.nodup, ?_, ?_, ?_⟩
  · intro a ha'
    obtain ⟨d1, d2, d3⟩ := h.sub a ha'
    exact ⟨(mem a).2 ⟨fun c => hfN (c ▸ ha'), d1⟩, by rw [ef]; exact d2, by rw [ef]; exact d3⟩
  · rintro a i (c | ⟨rfl, rfl⟩)
    · obtain ⟨d1, d2⟩ := h.marked a i (Or.inl (Or.inl c))
      exact ⟨(mem a).2 ⟨hM a i c, d1⟩, by rw [ef]; exact d2⟩
    · exact ⟨(mem a).2 ⟨hpa, hp⟩, by rw [ef]; exact hm⟩
  · intro a ha' i ho
    obtain ⟨haf, hah⟩ := (mem a).1 ha'
    obtain ⟨b, j', hb', hob, J⟩ := h.good a hah i (opn a i haf ho)
    have hbf : b ≠ f := by
      rintro rfl
      rcases fin3_cases e j' with rfl | rfl | rfl
      · have := J.2.1; rw [hb] at this; cases this
        exact ho (Or.inl (Or.inr ⟨rfl, rfl⟩))
      · exact hob (Or.inl (Or.inl (Or.inr ⟨rfl, rfl⟩)))
      · exact hob (Or.inl (Or.inr ⟨rfl, rfl⟩))
    refine ⟨b, j', (mem b).2 ⟨hbf, hb'⟩, ?_, ?_⟩
    · rintro ((c | ⟨rfl, rfl⟩) | c)
      · exact hob (Or.inl (Or.inl (Or.inl c)))
      · have := J.2.1; rw [ha] at this; cases this; exact haf rfl
      · exact hob (Or.inr c)
    · unfold Joined at J ⊢; rw [ef]; exact J
  · intro a ha' i ho
    have haf : a ≠ f := fun c => hfN (c ▸ ha')
    rw [ef]
    exact h.nbr a ha' i (opn a i haf ho)

/-- A visible face gets its mark. -/
theorem Mid.mark {p : ℕ} {w : SV} {M : ℕ → Fin 3 → Prop} {N : List ℕ} (h : Mid L p w M N s) {f : ℕ} (hfN : f ∉ N)
    (hb : ¬ Below L w (s.faces f)) : Mid L p w M N (s.put f { s.faces f with pass := p }) := by
  have c : ∀ x, ((s.put f { s.faces f with pass := p }).faces x).c = (s.faces x).c ∧
      ((s.put f { s.faces f with pass := p }).faces x).adj = (s.faces x).adj ∧
      ((s.put f { s.faces f with pass := p }).faces x).n = (s.faces x).n ∧
      ((s.put f { s.faces f with pass := p }).faces x).d = (s.faces x).d := by
    intro x
    by_cases hx : x = f
    · subst hx; simp [St.put]
    · simp [St.put, hx]
  have q : ∀ x, x ≠ f → (s.put f { s.faces f with pass := p }).faces x = s.faces x := fun x hx => by simp [St.put, hx]
  have qf : ((s.put f { s.faces f with pass := p }).faces f).pass = p := by simp [St.put]
  refine ⟨h.part, ?_, h.nodup, ?_, ?_, ?_⟩
  · intro a ha
    obtain ⟨d1, d2, d3⟩ := h.sub a ha
    have haf : a ≠ f := fun d => hfN (d ▸ ha)
    exact ⟨d1, by rw [q a haf]; exact d2, by rw [q a haf]; exact d3⟩
  · intro a i hM
    obtain ⟨d1, d2⟩ := h.marked a i hM
    refine ⟨d1, ?_⟩
    by_cases haf : a = f
    · subst haf; exact qf
    · rw [q a haf]; exact d2
  · intro a ha i ho
    obtain ⟨b, j, d1, d2, d3⟩ := h.good a ha i ho
    refine ⟨b, j, d1, d2, ?_⟩
    unfold Joined at d3 ⊢
    rw [(c a).1, (c a).2.1, (c b).1, (c b).2.1]; exact d3
  · intro a ha i ho
    obtain ⟨b, j, d1, d2, d3⟩ := h.nbr a ha i ho
    have hbf : b ≠ f := by
      rintro rfl
      rcases d3 with d | d
      · exact hfN d
      · exact hb d
    refine ⟨b, j, by rw [(c a).2.1]; exact d1, by rw [q b hbf]; exact d2, by rw [q b hbf]; exact d3⟩

/-- A face as `newFace` makes it, of vertices with the property `V`. -/
structure Made (V : SV → Prop) (L : Limits) (x : Face) : Prop where
  vert : ∀ i, V (x.c i)
  area : L.tol < (((x.c 1).w - (x.c 0).w).cross ((x.c 2).w - (x.c 0).w)).nrm
  normal : x.n = (1 / (((x.c 1).w - (x.c 0).w).cross ((x.c 2).w - (x.c 0).w)).nrm) •
    (((x.c 1).w - (x.c 0).w).cross ((x.c 2).w - (x.c 0).w))
  dist : x.d = faceDist (x.c 0).w (x.c 1).w (x.c 2).w

theorem Made.congr {V : SV → Prop} {x y : Face} (h : Made V L x) (e1 : y.c = x.c) (e2 : y.n = x.n) (e3 : y.d = x.d) : Made V L y :=
  ⟨by rw [e1]; exact h.vert, by rw [e1]; exact h.area, by rw [e1, e2]; exact h.normal, by rw [e1, e3]; exact h.dist⟩

/-- All faces of the hull are as `newFace` makes them, and their marks are at most `p`. -/
def Fine (V : SV → Prop) (L : Limits) (p : ℕ) (s : St) : Prop := ∀ a ∈ s.hull, Made V L (s.faces a) ∧ (s.faces a).pass ≤ p

theorem Fine.bind {V : SV → Prop} {p : ℕ} (h : Fine V L p s) (a : ℕ) (i : Fin 3) (b : ℕ) (j : Fin 3) :
    Fine V L p (bind s a i b j) := fun x hx =>
  ⟨(h x hx).1.congr (bind_c s a i b j x) (bind_n s a i b j x) (bind_d s a i b j x), by rw [bind_pass]; exact (h x hx).2⟩

theorem Fine.new {V : SV → Prop} {p : ℕ} (h : Fine V L p s) (hp : Partition L s) {a b c : SV} (ha : V a) (hb : V b) (hc : V c)
    (forced : Bool) : Fine V L p (newFace L s a b c forced).2 := by
  obtain ⟨-, -, k3, k4⟩ := newFace_spec hp a b c forced
  rcases hn : (newFace L s a b c forced).1 with _ | k
  · obtain ⟨e1, e2⟩ := k3 hn
    intro x hx
    rw [e1] at hx
    rw [e2 x hx]; exact h x hx
  · obtain ⟨l1, l2, l3, l4, l5, l6, l7, l8, -⟩ := k4 k hn
    have hk : k ∉ s.hull := hp.disj l1
    intro x hx
    rw [l2] at hx
    rcases List.mem_cons.1 hx with rfl | hx
    · refine ⟨⟨?_, ?_, ?_, ?_⟩, by rw [l5]; exact Nat.zero_le _⟩
      · intro i
        rw [l6, tri]
        split
        · exact ha
        · split
          · exact hb
          · exact hc
      · rw [l6]; simpa [tri] using l4
      · rw [l6, l7]; simp [tri]
      · rw [l6, l8]; simp [tri]
    · rw [l3 x (fun d => hk (d ▸ hx))]; exact h x hx

/-- What one call of `expand` does, over the edge `j` of the marked face `pa`. -/
theorem expand_spec {p : ℕ} (hp0 : p ≠ 0) {V : SV → Prop} {w : SV} (hw : V w) : ∀ (fuel : ℕ) (s : St) (f : ℕ) (e : Fin 3) (h : Horizon) (N : List ℕ)
    (M : ℕ → Fin 3 → Prop) (pa : ℕ) (j : Fin 3) (u : SV), Fine V L p s → Mid L p w M N s → Hor h N → ¬ M pa j → pa ∈ s.hull →
    (s.faces pa).pass = p → (s.faces pa).adj j = some (f, e) → Tip s N u ((s.faces f).c (e + 1)) →
    L.maxFace + 1 ≤ fuel + (markedSet L p s).card →
    ∃ r t h', expand L p w fuel s f e h = some (r, t, h') ∧ Partition L t ∧ t.nextsv = s.nextsv ∧ Fine V L p t ∧
      (r = true → ∃ N', Mid L p w (Plus M pa j) N' t ∧ Hor h' N' ∧ Tip t N' u ((s.faces f).c e) ∧ N.length < N'.length ∧
        t.status = s.status ∧
        ∀ a ∈ s.hull, (s.faces a).pass = p → a ∈ t.hull ∧ t.faces a = s.faces a) := by
  intro fuel
  induction fuel with
  | zero =>
    intro s f e h N M pa j u fine hmid _ _ _ _ _ _ hcard
    have := markedSet_card (L := L) (s := s) p
    omega
  | succ fuel ih =>
    intro s f e h N M pa j u fine hmid hh hM hp hm ha ht hcard
    obtain ⟨hfh, hof, hj, hop⟩ := hmid.reach hM hp hm ha
    have hfN : f ∉ N := hmid.notNew hM hp hm ha
    by_cases hpass : (s.faces f).pass = p
    · refine ⟨false, s, h, ?_, hmid.part, rfl, fine, by intro c; cases c⟩
      rw [expand, if_neg (by rw [hpass]; exact fun c => c rfl)]
    · have hfp : f ≠ pa := fun c => hpass (c ▸ hm)
      by_cases hb : (s.faces f).n.dot w.w - (s.faces f).d < -L.tol
      · -- on the horizon
        obtain ⟨k1, k2, k3, k4⟩ := newFace_spec hmid.part ((s.faces f).c (e + 1)) ((s.faces f).c e) w false
        have nfine := fine.new hmid.part ((fine f hfh).1.vert (e + 1)) ((fine f hfh).1.vert e) hw false
        rcases hnf : newFace L s ((s.faces f).c (e + 1)) ((s.faces f).c e) w false with ⟨_ | nf, s1⟩
        · rw [hnf] at k1 k2 nfine
          refine ⟨false, s1, h, ?_, k1, k2, nfine, by intro c; cases c⟩
          rw [expand, if_pos hpass, if_pos hb]
          simp only [hnf]
        · rw [hnf] at k1 k2 k4 nfine
          obtain ⟨l1, l2, l3, -, l5, l6, -, -, -, l9⟩ := k4 nf rfl
          have hkh : nf ∉ s.hull := hmid.part.disj l1
          have hkf : nf ≠ f := fun c => hkh (c ▸ hfh)
          have hkN : nf ∉ N := fun c => hkh (hmid.sub nf c).1
          rcases hcf : h.cf with _ | cf
          · have hN : N = [] := by
              have := hh.1; rw [hcf] at this; simpa using this.symm
            have A := hmid.add hp0 hM hp hm ha hpass hb ht (k := nf) (s1 := s1) (t := bind s1 nf 0 f e) l1 k1 l2 l3 l5 l6 rfl rfl
              (bind_other s1 nf 0 f e) (by
                intro x i
                rw [bind_adj, hN]
                simp only [List.head?_nil, Option.map_none, Option.none_or, reduceCtorEq, false_and, if_false, ite_self])
            refine ⟨true, bind s1 nf 0 f e, ⟨some nf, some nf, h.nf + 1⟩, ?_, A.1.part, k2, nfine.bind _ _ _ _, fun _ => ⟨nf :: N, A.1, ?_, A.2, ?_, l9, ?_⟩⟩
            · rw [expand, if_pos hpass, if_pos hb]
              simp only [hnf, hcf]
            · refine ⟨rfl, ?_, ?_⟩
              · rw [hN]; rfl
              · show h.nf + 1 = _
                rw [hh.2.2]; rfl
            · simp
            · intro a ha' hpa'
              refine ⟨by rw [bind_hull, l2]; exact List.mem_cons_of_mem _ ha', ?_⟩
              have hak : a ≠ nf := fun c => hkh (c ▸ ha')
              rw [bind_face _ _ _ _ _ hak (show a ≠ f from fun c => hpass (c ▸ hpa')), l3 a hak]
          · have hNh : N.head? = some cf := by rw [← hh.1, hcf]
            have hcN := head_mem hNh
            have hck : cf ≠ nf := fun c => hkN (c ▸ hcN)
            have hcff : cf ≠ f := fun c => hfN (c ▸ hcN)
            have A := hmid.add hp0 hM hp hm ha hpass hb ht (k := nf) (s1 := s1) (t := bind (bind s1 nf 0 f e) nf 2 cf 1) l1 k1 l2
              l3 l5 l6 rfl rfl
              (fun x => ⟨by rw [bind_c, bind_c], by rw [bind_n, bind_n], by rw [bind_d, bind_d], by rw [bind_pass, bind_pass]⟩) (by
                intro x i
                rw [bind_adj, bind_adj, hNh]
                by_cases c1 : x = cf
                · subst c1
                  by_cases c2 : i = 1
                  · simp [c2]
                  · simp [c2, hck, hcff]
                · have c1' : ¬ cf = x := fun c => c1 c.symm
                  by_cases c2 : x = nf
                  · subst c2
                    rcases fin3_cases 0 i with rfl | rfl | rfl
                    · simp [c1, c1', hkf]
                    · simp [c1, c1', hkf]
                    · simp [c1, c1', hkf]
                  · simp [c1, c1', c2])
            refine ⟨true, bind (bind s1 nf 0 f e) nf 2 cf 1, ⟨some nf, h.ff, h.nf + 1⟩, ?_, A.1.part, k2, (nfine.bind _ _ _ _).bind _ _ _ _,
              fun _ => ⟨nf :: N, A.1, ?_, A.2, ?_, l9, ?_⟩⟩
            · rw [expand, if_pos hpass, if_pos hb]
              simp only [hnf, hcf]
            · refine ⟨rfl, ?_, ?_⟩
              · show h.ff = _
                rw [hh.2.1]
                rcases N with _ | ⟨c, N⟩
                · simp at hNh
                · simp
              · show h.nf + 1 = _
                rw [hh.2.2]; rfl
            · simp
            · intro a ha' hpa'
              refine ⟨by rw [bind_hull, bind_hull, l2]; exact List.mem_cons_of_mem _ ha', ?_⟩
              have hak : a ≠ nf := fun c => hkh (c ▸ ha')
              have hac : a ≠ cf := fun c => (hmid.sub cf hcN).2.1 (c ▸ hpa')
              rw [bind_face _ _ _ _ _ hak hac, bind_face _ _ _ _ _ hak (show a ≠ f from fun c => hpass (c ▸ hpa')), l3 a hak]
      · -- visible
        obtain ⟨q1, q2, q3, q4, q5⟩ := fin3_ne e
        set s1 := s.put f { s.faces f with pass := p } with hs1
        have m1 : Mid L p w M N s1 := hmid.mark hfN hb
        have f1 : s1.faces f = { s.faces f with pass := p } := by simp [hs1, St.put]
        have o1 : ∀ x, x ≠ f → s1.faces x = s.faces x := fun x hx => by simp [hs1, St.put, hx]
        have fm1 : (s1.faces f).pass = p := by rw [f1]
        have fh1 : f ∈ s1.hull := hfh
        have c1 : ∀ x, (s1.faces x).c = (s.faces x).c := by
          intro x
          by_cases hx : x = f
          · subst hx; rw [f1]
          · rw [o1 x hx]
        have hMf : ∀ i, ¬ M f i := fun i c => hpass (hmid.marked f i c).2
        have ofi : ∀ i, ¬ Open M N f i := by
          intro i
          rintro (c | c | c)
          · exact hMf i c
          · exact hfN (head_mem c.2)
          · exact hfN (List.mem_of_getLast? c.2)
        obtain ⟨g1, i1, hg1, og1, J1⟩ := m1.good f fh1 (e + 1) (ofi _)
        have tip1 : Tip s1 N u ((s1.faces g1).c (i1 + 1)) := by
          rw [← J1.2.2.1, c1 f]
          rcases ht with d | ⟨x, y, d1, d2, d3, d4⟩
          · exact Or.inl d
          · exact Or.inr ⟨x, y, d1, d2, by rw [c1]; exact d3, by rw [c1]; exact d4⟩
        have cd1 : (markedSet L p s).card + 1 ≤ (markedSet L p s1).card := by
          refine Finset.card_lt_card (Finset.ssubset_iff_of_subset ?_ |>.2 ⟨f, ?_, ?_⟩)
          · intro a ha'
            rw [mem_markedSet hmid.part] at ha'
            rw [mem_markedSet m1.part]
            refine ⟨ha'.1, ?_⟩
            rw [o1 a (fun c => hpass (c ▸ ha'.2))]; exact ha'.2
          · rw [mem_markedSet m1.part]; exact ⟨fh1, fm1⟩
          · rw [mem_markedSet hmid.part]; exact fun c => hpass c.2
        have fine1 : Fine V L p s1 := by
          intro a ha'
          obtain ⟨d1, d2⟩ := fine a ha'
          by_cases haf : a = f
          · subst haf; rw [f1]; exact ⟨d1.congr rfl rfl rfl, le_refl _⟩
          · rw [o1 a haf]; exact ⟨d1, d2⟩
        obtain ⟨r2, s2, h2, x1, x2, x3, x5, x4⟩ := ih s1 g1 i1 h N M f (e + 1) u fine1 m1 hh (hMf _) fh1 fm1 J1.1 tip1 (by omega)
        have start : expand L p w (fuel + 1) s f e h = (match (s1.faces f).adj (e + 1) with
            | none => none
            | some (g1, i1) =>
              match expand L p w fuel s1 g1 i1 h with
              | none => none
              | some (false, s2, h2) => some (false, s2, h2)
              | some (true, s2, h2) =>
                match (s2.faces f).adj (e + 2) with
                | none => none
                | some (g2, i2) =>
                  match expand L p w fuel s2 g2 i2 h2 with
                  | none => none
                  | some (false, s3, h3) => some (false, s3, h3)
                  | some (true, s3, h3) => (drop s3 f).map fun s4 => (true, s4, h3)) := by
          rw [expand, if_pos hpass, if_neg hb]; rfl
        rcases r2 with _ | _
        · refine ⟨false, s2, h2, ?_, x2, x3, x5, by intro c; cases c⟩
          rw [start]; simp only [J1.1, x1]
        · obtain ⟨N2, m2, hh2, t2, len2, st2, fr2⟩ := x4 rfl
          obtain ⟨fh2, ff2⟩ := fr2 f fh1 fm1
          have fm2 : (s2.faces f).pass = p := by rw [ff2]; exact fm1
          have hfN2 : f ∉ N2 := fun c => (m2.sub f c).2.1 fm2
          have of2 : ¬ Open (Plus M f (e + 1)) N2 f (e + 2) := by
            rintro ((c | c) | c | c)
            · exact hMf _ c
            · exact q1 c.2
            · exact hfN2 (head_mem c.2)
            · exact hfN2 (List.mem_of_getLast? c.2)
          obtain ⟨g2, i2, hg2, og2, J2⟩ := m2.good f fh2 (e + 2) of2
          have tip2 : Tip s2 N2 u ((s2.faces g2).c (i2 + 1)) := by
            rw [← J2.2.2.1, ff2, ← q4, J1.2.2.2]; exact t2
          have cd2 : (markedSet L p s1).card ≤ (markedSet L p s2).card := by
            refine Finset.card_le_card ?_
            intro a ha'
            rw [mem_markedSet m1.part] at ha'
            rw [mem_markedSet m2.part]
            obtain ⟨d1, d2⟩ := fr2 a ha'.1 ha'.2
            exact ⟨d1, by rw [d2]; exact ha'.2⟩
          obtain ⟨r3, s3, h3, y1, y2, y3, y5, y4⟩ := ih s2 g2 i2 h2 N2 (Plus M f (e + 1)) f (e + 2) u x5 m2 hh2
            (by rintro (c | c); exacts [hMf _ c, q1 c.2]) fh2 fm2 J2.1 tip2 (by omega)
          rcases r3 with _ | _
          · refine ⟨false, s3, h3, ?_, y2, y3.trans x3, y5, by intro c; cases c⟩
            rw [start]; simp only [J1.1, x1, J2.1, y1]
          · obtain ⟨N3, m3, hh3, t3, len3, st3, fr3⟩ := y4 rfl
            obtain ⟨fh3, ff3⟩ := fr3 f fh2 fm2
            have fr : ∀ a ∈ s.hull, (s.faces a).pass = p → a ∈ s3.hull ∧ s3.faces a = s.faces a := by
              intro a ha' hpa'
              have haf : a ≠ f := fun c => hpass (c ▸ hpa')
              obtain ⟨d1, d2⟩ := fr2 a ha' (by rw [o1 a haf]; exact hpa')
              obtain ⟨d3, d4⟩ := fr3 a d1 (by rw [d2, o1 a haf]; exact hpa')
              exact ⟨d3, by rw [d4, d2, o1 a haf]⟩
            obtain ⟨t4, z1, z2, z3, z4, z5, z6⟩ := drop_spec m3.part fh3
            obtain ⟨w1, w2⟩ := fr pa hp hm
            have af : (s3.faces f).adj e = some (pa, j) := by
              rw [ff3, ff2, f1]; exact hj.2.1
            have R := m3.remove (fun a i c => fun d => hMf i (d ▸ c)) hfp.symm w1 (by rw [w2]; exact hm)
              (by rw [ff3, ff2]; exact fm1) (by rw [w2]; exact ha) af z2 z3 z4
            refine ⟨true, t4, h3, ?_, z2, ?_, ?_, fun _ => ⟨N3, R, hh3, ?_, len2.trans len3, z6.trans (st3.trans st2), ?_⟩⟩
            · rw [start]; simp only [J1.1, x1, J2.1, y1, z1, Option.map_some]
            · rw [z5, y3, x3]; rfl
            · intro a ha'
              rw [z4] at ha'
              rw [z3]; exact y5 a (List.mem_of_mem_erase ha')
            · have : (s2.faces g2).c i2 = (s.faces f).c e := by
                rw [← J2.2.2.2, ff2, q5, c1]
              rw [this] at t3
              unfold Tip at t3 ⊢
              rw [z3]; exact t3
            · intro a ha' hpa'
              obtain ⟨d1, d2⟩ := fr a ha' hpa'
              refine ⟨?_, by rw [z3]; exact d2⟩
              rw [z4, m3.part.hull_nodup.mem_erase_iff]
              exact ⟨fun c => hpass (c ▸ hpa'), d1⟩

end Fcl.Epa
