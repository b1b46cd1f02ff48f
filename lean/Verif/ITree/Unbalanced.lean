import Verif.ITree.Lemmas

/-!
Inserting intervals in decreasing order of `low` makes the tree a left spine: lines 220-221 of
`insert` colour the parent and the uncle red where the red-black algorithm colours them black, so
the case "red uncle" never takes anything off the spine.
-/

set_option linter.unusedSectionVars false
set_option linter.unusedSimpArgs false

namespace Fcl.ITree

variable {K I : Type*} [LinearOrder K]

/-- Longest chain of nodes from the top to a leaf. -/
def T.height : T K I → ℕ
  | .nil => 0
  | .node l _ r => max l.height r.height + 1

/-- A red node without children. -/
def RedLeaf (t : T K I) : Prop := ∃ d : Nd K I, t = .node .nil d .nil ∧ d.red = true

/-- A path that goes left all the way and has red leaves as right children. -/
def Spine (p : Path K I) : Prop := ∀ f ∈ p, f.dir = .L ∧ RedLeaf f.sib

theorem Spine.tail {f : Frame K I} {p : Path K I} (h : Spine (f :: p)) : Spine p :=
  fun g hg => h g (by simp [hg])

theorem Spine.cons {f : Frame K I} {p : Path K I} (hd : f.dir = .L) (hs : RedLeaf f.sib)
    (h : Spine p) : Spine (f :: p) := by
  intro g hg
  rcases List.mem_cons.1 hg with rfl | hg
  · exact ⟨hd, hs⟩
  · exact h g hg

theorem RedLeaf.isRed {t : T K I} (h : RedLeaf t) (nr : Bool) : isRed nr t = true := by
  obtain ⟨d, rfl, hd⟩ := h; exact hd

theorem RedLeaf.setRed {t : T K I} (h : RedLeaf t) (nr : Bool) :
    RedLeaf (setRed true nr t).1 ∧ (ITree.setRed true nr t).2 = nr := by
  obtain ⟨d, rfl, hd⟩ := h; exact ⟨⟨_, rfl, rfl⟩, rfl⟩

theorem height_plug (t : T K I) (p : Path K I) : t.height + p.length ≤ (plug t p).height := by
  induction p generalizing t with
  | nil => simp [plug]
  | cons f p ih =>
    rw [plug_cons]
    refine le_trans ?_ (ih _)
    obtain ⟨dir, d, s⟩ := f
    cases dir <;> simp only [plug, T.height, List.length_cons] <;> omega

theorem climb (bot : K) (nr : Bool) : ∀ (n : ℕ) (x : T K I) (p : Path K I), p.length ≤ n →
    Spine p → LastBlack p →
    ∃ p', insFix bot nr x p = some (plug x p', nr) ∧ Spine p' ∧ p'.length = p.length := by
  intro n
  induction n with
  | zero =>
    intro x p hn _ _
    obtain rfl : p = [] := by simpa using hn
    exact ⟨[], rfl, by simp [Spine], rfl⟩
  | succ n ih =>
    intro x p hn hs hl
    match p, hn, hs, hl with
    | [], _, hs, _ => exact ⟨[], rfl, hs, rfl⟩
    | [f], _, hs, hl =>
      rw [lastBlack_single] at hl
      exact ⟨[f], by simp [insFix, hl], hs, rfl⟩
    | f :: g :: p, hn, hs, hl =>
      by_cases hf : f.d.red
      · obtain ⟨fd, f, fs⟩ := f
        obtain ⟨gd, g, gs⟩ := g
        obtain ⟨e1, h1⟩ := hs _ List.mem_cons_self
        obtain ⟨e2, h2⟩ := hs.tail _ List.mem_cons_self
        simp only at e1 e2 hf h1 h2
        subst e1 e2
        obtain ⟨hr, hnr⟩ := h2.setRed nr
        obtain ⟨p', hp', hs', hl'⟩ := ih (.node (.node x (f.col true) fs) (g.col true)
          (setRed true nr gs).1) p (by simp at hn; omega) hs.tail.tail hl.tail.tail
        refine ⟨⟨.L, f.col true, fs⟩ :: ⟨.L, g.col true, (setRed true nr gs).1⟩ :: p', ?_,
          (hs'.cons rfl hr).cons rfl h1, by simp [hl']⟩
        simp only [insFix, hf, Bool.not_true, Bool.false_eq_true, if_false, h2.isRed, if_true, hnr]
        exact hp'
      · refine ⟨f :: g :: p, ?_, hs, rfl⟩
        simp [insFix, hf]

theorem setRed_plug (nr : Bool) (x : T K I) (p : Path K I) (hp : p ≠ []) (hs : Spine p) :
    ∃ p', setRed false nr (plug x p) = (plug x p', nr) ∧ Spine p' ∧ p'.length = p.length := by
  induction p generalizing x with
  | nil => exact absurd rfl hp
  | cons f p ih =>
    obtain ⟨fd, f, fs⟩ := f
    obtain ⟨e1, h1⟩ := hs _ List.mem_cons_self
    simp only at e1 h1
    subst e1
    cases p with
    | nil =>
      exact ⟨[⟨.L, f.col false, fs⟩], rfl, Spine.cons rfl h1 (by simp [Spine]), rfl⟩
    | cons g p =>
      obtain ⟨p', e, hs', hl⟩ := ih (.node x f fs) (by simp) hs.tail
      exact ⟨⟨.L, f, fs⟩ :: p', e, hs'.cons rfl h1, by simp [hl]⟩

theorem descend_spine (key : K) (t : T K I) (p q : Path K I) (hs : ∀ f ∈ p, f.dir = .L)
    (hk : ∀ a ∈ toList (plug t p), key < a.low) :
    descend key (plug t p) q = descend key t (p ++ q) := by
  induction p generalizing t with
  | nil => rfl
  | cons f p ih =>
    obtain ⟨fd, f, fs⟩ := f
    have e := hs _ List.mem_cons_self
    simp only at e
    subst e
    rw [plug, ih _ (fun g hg => hs g (by simp [hg])) hk, descend, List.cons_append]
    have : key < f.ivl.low := by
      refine hk f.ivl ?_
      rw [plug, toList_plug]
      simp [toList]
    simp [this]

theorem fixPath_spine (bot m : K) (p : Path K I) (h : Spine p) : Spine (fixPath bot m p) := by
  induction p generalizing m with
  | nil => simp [fixPath, Spine]
  | cons f p ih =>
    obtain ⟨h1, h2⟩ := h f (by simp)
    exact Spine.cons h1 h2 (ih _ h.tail)

theorem fixPath_length (bot m : K) (p : Path K I) : (fixPath bot m p).length = p.length := by
  induction p generalizing m with
  | nil => rfl
  | cons f p ih => simp [fixPath, ih]

/-- After an odd number of insertions. -/
def OddShape (k : ℕ) (st : St K I) : Prop :=
  st.nilRed = false ∧ ∃ (x b : Nd K I) (s : T K I) (p : Path K I), x.red = true ∧ RedLeaf s ∧
    Spine p ∧ p.length = k ∧ st.t = plug (.node (.node .nil x .nil) b s) p

/-- After an even number of insertions. -/
def EvenShape (k : ℕ) (st : St K I) : Prop :=
  st.nilRed = false ∧ ∃ (x a b : Nd K I) (s : T K I) (p : Path K I), x.red = true ∧ a.red = true ∧
    RedLeaf s ∧ Spine p ∧ p.length = k ∧
    st.t = plug (.node (.node (.node .nil x .nil) a .nil) b s) p

theorem odd_insert {bot : K} {k : ℕ} {st : St K I} {iv : Ivl K I} (h : OddShape k st)
    (hi : Inv bot st) (hk : ∀ a ∈ toList st.t, iv.low < a.low) :
    ∃ st', insert bot st iv = some st' ∧ EvenShape k st' := by
  obtain ⟨hnr, x, b, s, p, hx, hs, hp, hlen, ht⟩ := h
  have hlast : LastBlack p := topBlack_last (ht ▸ hi.top)
  rw [ht] at hk
  have hd : descend iv.low st.t [] = ⟨.L, x, .nil⟩ :: ⟨.L, b, s⟩ :: p := by
    have hbl : iv.low < b.ivl.low := hk b.ivl (by rw [toList_plug]; simp [toList])
    have hxl : iv.low < x.ivl.low := hk x.ivl (by rw [toList_plug]; simp [toList])
    rw [ht, descend_spine _ _ _ _ (fun f hf => (hp f hf).1) hk, List.append_nil, descend,
      if_pos hbl, descend, if_pos hxl, descend]
  simp only [insert, hd, fixPath, hnr]
  generalize hm1 : max x.ivl.high (max iv.high (mh bot T.nil)) = m1
  generalize hm2 : max b.ivl.high (max m1 (mh bot s)) = m2
  obtain ⟨hr, hnr'⟩ := hs.setRed false
  obtain ⟨xi, xm, xr⟩ := x
  simp only at hx
  subst hx
  obtain ⟨p', hp', hs', hl'⟩ := climb bot false _ (.node (.node (.node .nil ⟨iv, iv.high, true⟩ .nil)
    ((⟨xi, m1, true⟩ : Nd K I).col true) .nil) (({ b with mh := m2 } : Nd K I).col true)
    (setRed true false s).1) (fixPath bot m2 p) le_rfl
    (fixPath_spine _ _ _ hp) ((fixPath_lastBlack ..).2 hlast)
  simp only [insFix, Bool.not_true, Bool.false_eq_true, if_false, hs.isRed, if_true, hnr']
  rw [plug, plug, hp']
  rw [fixPath_length] at hl'
  by_cases hpn : p' = []
  · subst hpn
    refine ⟨_, rfl, rfl, ⟨iv, iv.high, true⟩, (⟨xi, m1, true⟩ : Nd K I).col true, _, _, [],
      rfl, rfl, hr, by simp [Spine], by rw [hl', hlen], rfl⟩
  · obtain ⟨p'', e, hs'', hl''⟩ := setRed_plug false (.node (.node (.node .nil ⟨iv, iv.high, true⟩ .nil)
      ((⟨xi, m1, true⟩ : Nd K I).col true) .nil) (({ b with mh := m2 } : Nd K I).col true)
      (setRed true false s).1) p' hpn hs'
    simp only [e]
    exact ⟨_, rfl, rfl, ⟨iv, iv.high, true⟩, (⟨xi, m1, true⟩ : Nd K I).col true, _, _, p'',
      rfl, rfl, hr, hs'', by rw [hl'', hl', hlen], rfl⟩

theorem even_insert {bot : K} {k : ℕ} {st : St K I} {iv : Ivl K I} (h : EvenShape k st)
    (hk : ∀ a ∈ toList st.t, iv.low < a.low) :
    ∃ st', insert bot st iv = some st' ∧ OddShape (k + 1) st' := by
  obtain ⟨hnr, x, a, b, s, p, hx, ha, hs, hp, hlen, ht⟩ := h
  rw [ht] at hk
  have hd : descend iv.low st.t [] = ⟨.L, x, .nil⟩ :: ⟨.L, a, .nil⟩ :: ⟨.L, b, s⟩ :: p := by
    have hbl : iv.low < b.ivl.low := hk b.ivl (by rw [toList_plug]; simp [toList])
    have hal : iv.low < a.ivl.low := hk a.ivl (by rw [toList_plug]; simp [toList])
    have hxl : iv.low < x.ivl.low := hk x.ivl (by rw [toList_plug]; simp [toList])
    rw [ht, descend_spine _ _ _ _ (fun f hf => (hp f hf).1) hk, List.append_nil, descend,
      if_pos hbl, descend, if_pos hal, descend, if_pos hxl, descend]
  simp only [insert, hd, fixPath, hnr]
  generalize hm1 : max x.ivl.high (max iv.high (mh bot T.nil)) = m1
  generalize hm2 : max a.ivl.high (max m1 (mh bot T.nil)) = m2
  generalize hm3 : max b.ivl.high (max m2 (mh bot s)) = m3
  simp only [insFix, hx, Bool.not_true, Bool.false_eq_true, if_false, isRed, rightRotate, mk]
  generalize hD1 : Nd.upd bot _ (Nd.col _ true) _ = D1
  generalize hD2 : Nd.upd bot _ (Nd.col _ false) _ = D2
  have hsp : Spine (⟨.L, { b with mh := m3 }, s⟩ :: fixPath bot m3 p) :=
    (fixPath_spine _ _ _ hp).cons rfl hs
  have hD1r : D1.red = true := by rw [← hD1]; rfl
  obtain ⟨p', e, hs', hl'⟩ := setRed_plug false (.node (.node .nil ⟨iv, iv.high, true⟩ .nil) D2
    (.node .nil D1 .nil)) _ (by simp) hsp
  rw [plug, e]
  exact ⟨_, rfl, rfl, _, _, _, p', rfl, ⟨_, rfl, hD1r⟩, hs', by simp [hl', fixPath_length, hlen], rfl⟩

end Fcl.ITree
