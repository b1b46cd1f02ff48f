import Verif.ITree.Model
import Mathlib.Order.Lattice
import Mathlib.Order.MinMax
import Mathlib.Data.List.Perm.Basic
import Mathlib.Tactic.Common

set_option linter.unusedSectionVars false
set_option linter.unusedSimpArgs false

namespace Fcl.ITree

variable {K I : Type*} [LinearOrder K]

/-- The stored intervals from left to right. -/
def toList : T K I → List (Ivl K I)
  | .nil => []
  | .node l d r => toList l ++ d.ivl :: toList r

/-- Every `max_high` is the maximum of the `high` values of its subtree. -/
def MHok (bot : K) : T K I → Prop
  | .nil => True
  | .node l d r => d.mh = max (mh bot l) (max (mh bot r) d.ivl.high) ∧ MHok bot l ∧ MHok bot r

/-- The same for the ancestors of a node whose `max_high` is `m`. -/
def PathOk (bot : K) : K → Path K I → Prop
  | _, [] => True
  | m, f :: p => f.d.mh = max m (max (mh bot f.sib) f.d.ivl.high) ∧ MHok bot f.sib ∧
      PathOk bot f.d.mh p

/-- Intervals left of the current node. -/
def pre : Path K I → List (Ivl K I)
  | [] => []
  | ⟨.L, _, _⟩ :: p => pre p
  | ⟨.R, d, s⟩ :: p => pre p ++ (toList s ++ [d.ivl])

/-- Intervals right of the current node. -/
def post : Path K I → List (Ivl K I)
  | [] => []
  | ⟨.L, d, s⟩ :: p => (d.ivl :: toList s) ++ post p
  | ⟨.R, _, _⟩ :: p => post p

theorem toList_plug (t : T K I) (p : Path K I) :
    toList (plug t p) = pre p ++ (toList t ++ post p) := by
  induction p generalizing t with
  | nil => simp [plug, pre, post]
  | cons f p ih =>
    obtain ⟨dir, d, s⟩ := f
    cases dir <;> simp [plug, pre, post, ih, toList]

theorem MHok_plug (bot : K) (t : T K I) (p : Path K I) :
    MHok bot (plug t p) ↔ MHok bot t ∧ PathOk bot (mh bot t) p := by
  induction p generalizing t with
  | nil => simp [plug, PathOk]
  | cons f p ih =>
    obtain ⟨dir, d, s⟩ := f
    cases dir
    · simp only [plug, ih, MHok, PathOk, mh]; tauto
    · simp only [plug, ih, MHok, PathOk, mh]
      rw [max_left_comm]; tauto

theorem mh_plug_congr (bot : K) {t t' : T K I} (h : mh bot t = mh bot t') (p : Path K I) :
    mh bot (plug t p) = mh bot (plug t' p) := by
  induction p generalizing t t' with
  | nil => simpa [plug]
  | cons f p ih =>
    obtain ⟨dir, d, s⟩ := f
    cases dir
    · exact ih rfl
    · exact ih rfl

/-- `t'` stores the same intervals in the same order, and is as well augmented as `t`. -/
def Same (bot : K) (t t' : T K I) : Prop :=
  toList t' = toList t ∧ (MHok bot t → MHok bot t' ∧ mh bot t' = mh bot t)

theorem Same.rfl {bot : K} {t : T K I} : Same bot t t := ⟨Eq.refl _, fun h => ⟨h, Eq.refl _⟩⟩

theorem Same.trans {bot : K} {a b c : T K I} (h : Same bot a b) (h' : Same bot b c) :
    Same bot a c := by
  refine ⟨h'.1.trans h.1, fun ha => ?_⟩
  obtain ⟨hb, e⟩ := h.2 ha
  obtain ⟨hc, e'⟩ := h'.2 hb
  exact ⟨hc, e'.trans e⟩

theorem Same.plug {bot : K} {t t' : T K I} (h : Same bot t t') (p : Path K I) :
    Same bot (plug t p) (plug t' p) := by
  refine ⟨by simp [toList_plug, h.1], fun hm => ?_⟩
  rw [MHok_plug] at hm
  obtain ⟨h1, h2⟩ := h.2 hm.1
  refine ⟨(MHok_plug ..).2 ⟨h1, by rw [h2]; exact hm.2⟩, mh_plug_congr bot h2 p⟩

theorem Same.node {bot : K} {l l' r r' : T K I} {d d' : Nd K I} (hl : Same bot l l')
    (hr : Same bot r r') (hi : d'.ivl = d.ivl) (hm : d'.mh = d.mh) :
    Same bot (.node l d r) (.node l' d' r') := by
  refine ⟨by simp [toList, hl.1, hr.1, hi], fun h => ?_⟩
  obtain ⟨h1, h2, h3⟩ := h
  obtain ⟨a, b⟩ := hl.2 h2
  obtain ⟨c, e⟩ := hr.2 h3
  exact ⟨⟨by rw [hm, hi, h1, b, e], a, c⟩, hm⟩

theorem Same.col {bot : K} {l l' r r' : T K I} {d : Nd K I} (c : Bool) (hl : Same bot l l')
    (hr : Same bot r r') : Same bot (.node l d r) (.node l' (d.col c) r') :=
  Same.node hl hr (Eq.refl _) (Eq.refl _)

theorem Same.setRed (bot : K) (c nr : Bool) (t : T K I) : Same bot t (setRed c nr t).1 := by
  cases t with
  | nil => exact Same.rfl
  | node l d r => exact Same.node Same.rfl Same.rfl (Eq.refl _) (Eq.refl _)

theorem Same.leftRotate {bot : K} {t t' : T K I} (h : leftRotate bot t = some t') :
    Same bot t t' := by
  unfold ITree.leftRotate at h
  split at h
  · rename_i a d b e c
    cases h
    refine ⟨by simp [mk, toList, Nd.upd], fun hm => ?_⟩
    obtain ⟨h1, h2, h3, h4, h5⟩ := hm
    refine ⟨⟨?_, ⟨?_, h2, h4⟩, h5⟩, ?_⟩
    · simp [mk, mh, Nd.upd]
    · simp [Nd.upd]
    · simp only [mk, mh, Nd.upd] at *
      rw [h1, h3]
      ac_rfl
  · cases h

theorem Same.rightRotate {bot : K} {t t' : T K I} (h : rightRotate bot t = some t') :
    Same bot t t' := by
  unfold ITree.rightRotate at h
  split at h
  · rename_i a e b d c
    cases h
    refine ⟨by simp [mk, toList, Nd.upd], fun hm => ?_⟩
    obtain ⟨h1, ⟨h3, h2, h4⟩, h5⟩ := hm
    refine ⟨⟨?_, h2, ?_, h4, h5⟩, ?_⟩
    · simp [mk, mh, Nd.upd]
    · simp [Nd.upd]
    · simp only [mk, mh, Nd.upd] at *
      rw [h1, h3]
      ac_rfl
  · cases h

theorem col_ivl (d : Nd K I) (c : Bool) : (d.col c).ivl = d.ivl := rfl

theorem col_mh (d : Nd K I) (c : Bool) : (d.col c).mh = d.mh := rfl

theorem plug_cons (x : T K I) (f : Frame K I) (p : Path K I) :
    plug x (f :: p) = plug (plug x [f]) p := by
  obtain ⟨dir, d, s⟩ := f
  cases dir <;> rfl

/-- The new tree of `insert`'s loop. -/
theorem insFix_same (bot : K) : ∀ (n : ℕ) (nr : Bool) (x : T K I) (p : Path K I) (t : T K I)
    (nr' : Bool), p.length ≤ n → insFix bot nr x p = some (t, nr') → Same bot (plug x p) t := by
  intro n
  induction n with
  | zero =>
    intro nr x p t nr' hn h
    obtain rfl : p = [] := by simpa using hn
    simp only [insFix, Option.some.injEq, Prod.mk.injEq] at h
    obtain ⟨rfl, rfl⟩ := h
    exact Same.rfl
  | succ n ih =>
    intro nr x p t nr' hn h
    match p, hn, h with
    | [], _, h =>
      simp only [insFix, Option.some.injEq, Prod.mk.injEq] at h
      obtain ⟨rfl, rfl⟩ := h
      exact Same.rfl
    | [f], _, h =>
      simp only [insFix] at h
      split at h
      · cases h
      · cases h; exact Same.rfl
    | f :: g :: p, hn, h =>
      obtain ⟨fd, f, fs⟩ := f
      obtain ⟨gd, g, gs⟩ := g
      simp only [insFix] at h
      split at h
      · cases h; exact Same.rfl
      cases gd with
      | L =>
        simp only at h
        split at h
        · refine Same.trans ?_ (ih _ _ _ _ _ (by simp at hn; omega) h)
          rw [plug_cons, plug_cons]
          refine Same.plug (Same.col true ?_ (Same.setRed _ _ _ _)) p
          cases fd
          · exact Same.col _ Same.rfl Same.rfl
          · exact Same.col _ Same.rfl Same.rfl
        · cases fd with
          | R =>
            simp only at h
            split at h
            · rename_i x1 e1 b1 h1
              split at h
              · rename_i x2 e2 b2 h2
                cases h
                rw [plug_cons, plug_cons, plug_cons x2]
                refine Same.plug ?_ p
                refine Same.trans (Same.node (Same.leftRotate h1) Same.rfl rfl rfl) ?_
                refine Same.trans (Same.col true (Same.col false Same.rfl Same.rfl) Same.rfl)
                  (Same.rightRotate h2)
              · cases h
            · cases h
          | L =>
            simp only at h
            split at h
            · rename_i x2 e2 b2 h2
              cases h
              rw [plug_cons, plug_cons, plug_cons x2]
              refine Same.plug ?_ p
              refine Same.trans (Same.col true (Same.col false Same.rfl Same.rfl) Same.rfl)
                  (Same.rightRotate h2)
            · cases h
      | R =>
        simp only at h
        split at h
        · refine Same.trans ?_ (ih _ _ _ _ _ (by simp at hn; omega) h)
          rw [plug_cons, plug_cons]
          refine Same.plug (Same.col true (Same.setRed _ _ _ _) ?_) p
          cases fd
          · exact Same.col _ Same.rfl Same.rfl
          · exact Same.col _ Same.rfl Same.rfl
        · cases fd with
          | L =>
            simp only at h
            split at h
            · rename_i x1 e1 b1 h1
              split at h
              · rename_i x2 e2 b2 h2
                cases h
                rw [plug_cons, plug_cons, plug_cons b2]
                refine Same.plug ?_ p
                refine Same.trans (Same.node Same.rfl (Same.rightRotate h1) rfl rfl) ?_
                refine Same.trans (Same.col true Same.rfl (Same.col false Same.rfl Same.rfl))
                  (Same.leftRotate h2)
              · cases h
            · cases h
          | R =>
            simp only at h
            split at h
            · rename_i x2 e2 b2 h2
              cases h
              rw [plug_cons, plug_cons, plug_cons b2]
              refine Same.plug ?_ p
              refine Same.trans (Same.col true Same.rfl (Same.col false Same.rfl Same.rfl))
                  (Same.leftRotate h2)
            · cases h

/-! ### Colour of the top node -/

/-- The top node is black (`root->left->red == false`); nothing is said about `nil`. -/
def TopBlack (t : T K I) : Prop := isRed false t = false

/-- The last ancestor before the sentinel `root` is black. -/
def LastBlack (p : Path K I) : Prop := ∀ f, p.getLast? = some f → f.d.red = false

theorem lastBlack_nil : LastBlack ([] : Path K I) := by intro f h; simp at h

theorem lastBlack_cons_cons (f g : Frame K I) (p : Path K I) :
    LastBlack (f :: g :: p) ↔ LastBlack (g :: p) := by
  simp [LastBlack, List.getLast?_cons_cons]

theorem lastBlack_single (f : Frame K I) : LastBlack [f] ↔ f.d.red = false := by
  simp [LastBlack]

theorem LastBlack.tail {f : Frame K I} {p : Path K I} (h : LastBlack (f :: p)) : LastBlack p := by
  cases p with
  | nil => exact lastBlack_nil
  | cons g p => exact (lastBlack_cons_cons ..).1 h

theorem LastBlack.cons {f f' : Frame K I} {p : Path K I} (h : LastBlack (f :: p))
    (hc : f'.d.red = f.d.red) : LastBlack (f' :: p) := by
  cases p with
  | nil => rw [lastBlack_single] at *; rw [hc, h]
  | cons g p => rw [lastBlack_cons_cons] at *; exact h

theorem LastBlack.cons_black {f : Frame K I} {p : Path K I} (h : LastBlack p)
    (hc : f.d.red = false) : LastBlack (f :: p) := by
  cases p with
  | nil => rwa [lastBlack_single]
  | cons g p => rwa [lastBlack_cons_cons]

theorem topBlack_plug (x : T K I) (p : Path K I) (hx : p = [] → TopBlack x) (hp : LastBlack p) :
    TopBlack (plug x p) := by
  induction p generalizing x with
  | nil => exact hx rfl
  | cons f p ih =>
    rw [plug_cons]
    refine ih _ ?_ hp.tail
    rintro rfl
    rw [lastBlack_single] at hp
    obtain ⟨dir, d, s⟩ := f
    cases dir <;> exact hp

theorem topBlack_setRed (nr : Bool) (t : T K I) : TopBlack (setRed false nr t).1 := by
  cases t <;> rfl

theorem fixPath_lastBlack (bot m : K) (p : Path K I) :
    LastBlack (fixPath bot m p) ↔ LastBlack p := by
  induction p generalizing m with
  | nil => rfl
  | cons f p ih =>
    cases p with
    | nil => simp [fixPath, lastBlack_single]
    | cons g p =>
      rw [lastBlack_cons_cons, ← ih (max f.d.ivl.high (max m (mh bot f.sib)))]
      rw [fixPath, fixPath, lastBlack_cons_cons]

theorem insFix_some (bot : K) : ∀ (n : ℕ) (nr : Bool) (x : T K I) (p : Path K I),
    p.length ≤ n → x ≠ .nil → LastBlack p → ∃ r, insFix bot nr x p = some r := by
  intro n
  induction n with
  | zero =>
    intro nr x p hn hx hp
    obtain rfl : p = [] := by simpa using hn
    exact ⟨_, rfl⟩
  | succ n ih =>
    intro nr x p hn hx hp
    match p, hn, hp with
    | [], _, _ => exact ⟨_, rfl⟩
    | [f], _, hp =>
      rw [lastBlack_single] at hp
      exact ⟨(plug x [f], nr), by simp [insFix, hp]⟩
    | f :: g :: p, hn, hp =>
      obtain ⟨fd, f, fs⟩ := f
      obtain ⟨gd, g, gs⟩ := g
      have hp' := hp.tail.tail
      simp only [insFix]
      split
      · exact ⟨_, rfl⟩
      obtain ⟨xl, xd, xr, rfl⟩ : ∃ l d r, x = .node l d r := by
        cases x with
        | nil => exact absurd rfl hx
        | node l d r => exact ⟨_, _, _, rfl⟩
      cases gd
      · simp only
        split
        · exact ih _ _ _ (by simp at hn; omega) (by simp) hp'
        · cases fd
          · exact ⟨_, rfl⟩
          · exact ⟨_, rfl⟩
      · simp only
        split
        · exact ih _ _ _ (by simp at hn; omega) (by simp) hp'
        · cases fd
          · exact ⟨_, rfl⟩
          · exact ⟨_, rfl⟩

/-! ### The descent and the repair of `max_high` -/

theorem plug_descend (key : K) (t : T K I) (p : Path K I) :
    plug .nil (descend key t p) = plug t p := by
  induction t generalizing p with
  | nil => rfl
  | node l d r ihl ihr =>
    rw [descend]
    split
    · rw [ihl]; rfl
    · rw [ihr]; rfl

/-- Keys increase from left to right. -/
def Sorted (l : List (Ivl K I)) : Prop := l.Pairwise fun a b => a.low ≤ b.low

theorem descend_sides (key : K) (t : T K I) (p : Path K I) (hs : Sorted (toList t))
    (h1 : ∀ a ∈ pre p, a.low ≤ key) (h2 : ∀ a ∈ post p, key ≤ a.low) :
    (∀ a ∈ pre (descend key t p), a.low ≤ key) ∧ ∀ a ∈ post (descend key t p), key ≤ a.low := by
  induction t generalizing p with
  | nil => exact ⟨h1, h2⟩
  | node l d r ihl ihr =>
    simp only [toList, Sorted, List.pairwise_append, List.pairwise_cons, List.mem_cons] at hs
    obtain ⟨hl, ⟨hd, hr⟩, hlr⟩ := hs
    rw [descend]
    split
    · rename_i hk
      refine ihl _ hl (by simpa [pre] using h1) ?_
      intro a ha
      simp only [post, List.cons_append, List.mem_cons, List.mem_append] at ha
      rcases ha with rfl | ha | ha
      · exact hk.le
      · exact hk.le.trans (hd a ha)
      · exact h2 a ha
    · rename_i hk
      have hk := not_lt.1 hk
      refine ihr _ hr ?_ (by simpa [post] using h2)
      intro a ha
      simp only [pre, List.mem_append, List.mem_singleton] at ha
      rcases ha with ha | ha | rfl
      · exact h1 a ha
      · exact (hlr a ha _ (Or.inl rfl)).trans hk
      · exact hk

theorem descend_lastBlack (key : K) (t : T K I) (p : Path K I) (hp : LastBlack p)
    (ht : p = [] → TopBlack t) : LastBlack (descend key t p) := by
  induction t generalizing p with
  | nil => exact hp
  | node l d r ihl ihr =>
    have hd : p = [] → d.red = false := fun h => ht h
    rw [descend]
    split
    · refine ihl _ ?_ (by simp)
      cases p with
      | nil => rw [lastBlack_single]; exact hd rfl
      | cons g p => rwa [lastBlack_cons_cons]
    · refine ihr _ ?_ (by simp)
      cases p with
      | nil => rw [lastBlack_single]; exact hd rfl
      | cons g p => rwa [lastBlack_cons_cons]

/-- All siblings along the path are well augmented. -/
def SibsOk (bot : K) (p : Path K I) : Prop := ∀ f ∈ p, MHok bot f.sib

theorem PathOk.sibs {bot m : K} {p : Path K I} (h : PathOk bot m p) : SibsOk bot p := by
  induction p generalizing m with
  | nil => intro f hf; simp at hf
  | cons f p ih =>
    intro g hg
    rcases List.mem_cons.1 hg with rfl | hg
    · exact h.2.1
    · exact ih h.2.2 g hg

theorem pathOk_fixPath (bot m : K) (p : Path K I) (h : SibsOk bot p) :
    PathOk bot m (fixPath bot m p) := by
  induction p generalizing m with
  | nil => trivial
  | cons f p ih =>
    refine ⟨?_, h f (by simp), ih _ fun g hg => h g (by simp [hg])⟩
    simp only
    rw [max_comm, max_assoc]

theorem pre_fixPath (bot m : K) (p : Path K I) : pre (fixPath bot m p) = pre p := by
  induction p generalizing m with
  | nil => rfl
  | cons f p ih =>
    obtain ⟨dir, d, s⟩ := f
    cases dir <;> simp [fixPath, pre, ih]

theorem post_fixPath (bot m : K) (p : Path K I) : post (fixPath bot m p) = post p := by
  induction p generalizing m with
  | nil => rfl
  | cons f p ih =>
    obtain ⟨dir, d, s⟩ := f
    cases dir <;> simp [fixPath, post, ih]

theorem fixPath_ne_nil {bot m : K} {p : Path K I} : fixPath bot m p = [] ↔ p = [] := by
  cases p <;> simp [fixPath]

/-- What is known of the tree between calls. -/
structure Inv (bot : K) (st : St K I) : Prop where
  sorted : Sorted (toList st.t)
  aug : MHok bot st.t
  top : TopBlack st.t

theorem Inv.empty (bot : K) : Inv bot (St.empty : St K I) := by
  refine ⟨?_, trivial, rfl⟩
  simp [St.empty, toList, Sorted]

theorem insert_spec (bot : K) (st : St K I) (iv : Ivl K I) (h : Inv bot st) (hb : bot ≤ iv.high) :
    ∃ st', insert bot st iv = some st' ∧ Inv bot st' ∧ (toList st'.t).Perm (iv :: toList st.t) := by
  have hside := descend_sides iv.low st.t [] h.sorted (by simp [pre]) (by simp [post])
  have hplug := plug_descend iv.low st.t []
  have hlast := descend_lastBlack iv.low st.t [] lastBlack_nil fun _ => h.top
  have haug : SibsOk bot (descend iv.low st.t []) := by
    have := h.aug
    rw [show st.t = plug st.t [] from rfl, ← hplug, MHok_plug] at this
    exact this.2.sibs
  have hlist : toList st.t = pre (descend iv.low st.t []) ++ post (descend iv.low st.t []) := by
    have := congrArg toList hplug
    rw [toList_plug] at this
    simpa [toList, plug] using this.symm
  generalize hpd : descend iv.low st.t [] = p at *
  obtain ⟨⟨t, nr⟩, hr⟩ := insFix_some bot _ st.nilRed (.node .nil ⟨iv, iv.high, true⟩ .nil)
    (fixPath bot iv.high p) le_rfl (by simp) ((fixPath_lastBlack ..).2 hlast)
  have hs := (insFix_same bot _ _ _ _ _ _ le_rfl hr).trans (Same.setRed bot false nr t)
  have hm : MHok bot (plug (.node .nil ⟨iv, iv.high, true⟩ .nil) (fixPath bot iv.high p)) := by
    rw [MHok_plug]
    refine ⟨⟨?_, trivial, trivial⟩, pathOk_fixPath _ _ _ haug⟩
    simp [mh, hb]
  have hl : toList (setRed false nr t).1 = pre p ++ iv :: post p := by
    rw [hs.1, toList_plug, pre_fixPath, post_fixPath]; simp [toList]
  refine ⟨⟨(setRed false nr t).1, (setRed false nr t).2⟩, ?_, ⟨?_, ?_, ?_⟩, ?_⟩
  · simp only [insert, hpd, hr]
  · simp only [hl]
    have hs0 := h.sorted
    rw [hlist, Sorted, List.pairwise_append] at hs0
    refine List.pairwise_append.2 ⟨hs0.1, List.pairwise_cons.2 ⟨hside.2, hs0.2.1⟩, ?_⟩
    intro a ha b hb'
    rcases List.mem_cons.1 hb' with rfl | hb'
    · exact hside.1 a ha
    · exact hs0.2.2 a ha b hb'
  · exact (hs.2 hm).1
  · exact topBlack_setRed nr t
  · simp only [hl, hlist]
    exact List.perm_middle

/-! ### Deletion -/

theorem blacken_same (bot : K) (nr : Bool) (x : T K I) (p : Path K I) :
    Same bot (plug x p) (blacken nr x p).1 := (Same.setRed bot false nr x).plug p

theorem blacken_top (nr : Bool) (x : T K I) (p : Path K I) (hp : LastBlack p) :
    TopBlack (blacken nr x p).1 :=
  topBlack_plug _ _ (fun _ => topBlack_setRed nr x) hp

theorem leftRotate_red {bot : K} {a b : T K I} {d e : Nd K I} {c t : T K I}
    (h : leftRotate bot (.node a d (.node b e c)) = some t) (nr : Bool) : isRed nr t = e.red := by
  cases h; rfl

theorem rightRotate_red {bot : K} {a b : T K I} {d e : Nd K I} {c t : T K I}
    (h : rightRotate bot (.node (.node a e b) d c) = some t) (nr : Bool) : isRed nr t = e.red := by
  cases h; rfl

theorem delCase34L_spec {bot : K} {nr : Bool} {x : T K I} {d : Nd K I} {w : T K I} {p : Path K I}
    {t : T K I} {nr' : Bool} (h : delCase34L bot nr x d w p = some (t, nr')) :
    Same bot (plug (.node x d w) p) t ∧
      (LastBlack p → (p = [] → d.red = false) → TopBlack t) := by
  unfold delCase34L at h
  split at h
  · cases h
  rename_i wl wd wr
  split at h
  · split at h
    · cases h
    rename_i a e b
    split at h
    · rename_i wl' wd' wr' hrr
      simp only at h
      split at h
      · rename_i t' hlr
        cases h
        refine ⟨Same.plug ?_ p, fun hp hd => topBlack_plug _ _ (fun e => ?_) hp⟩
        · refine Same.trans (Same.col false Same.rfl ?_) (Same.leftRotate hlr)
          refine Same.trans ?_ (Same.col _ Same.rfl (Same.setRed _ _ _ _))
          exact Same.trans (Same.col true (Same.col false Same.rfl Same.rfl) Same.rfl)
            (Same.rightRotate hrr)
        · rw [TopBlack, leftRotate_red hlr]; exact hd e
      · cases h
    · cases h
  · simp only at h
    split at h
    · rename_i t' hlr
      cases h
      refine ⟨Same.plug ?_ p, fun hp hd => topBlack_plug _ _ (fun e => ?_) hp⟩
      · refine Same.trans (Same.col false Same.rfl ?_) (Same.leftRotate hlr)
        exact Same.col _ Same.rfl (Same.setRed _ _ _ _)
      · rw [TopBlack, leftRotate_red hlr]; exact hd e
    · cases h

theorem delCase34R_spec {bot : K} {nr : Bool} {x : T K I} {d : Nd K I} {w : T K I} {p : Path K I}
    {t : T K I} {nr' : Bool} (h : delCase34R bot nr x d w p = some (t, nr')) :
    Same bot (plug (.node w d x) p) t ∧
      (LastBlack p → (p = [] → d.red = false) → TopBlack t) := by
  unfold delCase34R at h
  split at h
  · cases h
  rename_i wl wd wr
  split at h
  · split at h
    · cases h
    rename_i a e b
    split at h
    · rename_i wl' wd' wr' hrr
      simp only at h
      split at h
      · rename_i t' hlr
        cases h
        refine ⟨Same.plug ?_ p, fun hp hd => topBlack_plug _ _ (fun e => ?_) hp⟩
        · refine Same.trans (Same.col false ?_ Same.rfl) (Same.rightRotate hlr)
          refine Same.trans ?_ (Same.col _ (Same.setRed _ _ _ _) Same.rfl)
          exact Same.trans (Same.col true Same.rfl (Same.col false Same.rfl Same.rfl))
            (Same.leftRotate hrr)
        · rw [TopBlack, rightRotate_red hlr]; exact hd e
      · cases h
    · cases h
  · simp only at h
    split at h
    · rename_i t' hlr
      cases h
      refine ⟨Same.plug ?_ p, fun hp hd => topBlack_plug _ _ (fun e => ?_) hp⟩
      · refine Same.trans (Same.col false ?_ Same.rfl) (Same.rightRotate hlr)
        exact Same.col _ (Same.setRed _ _ _ _) Same.rfl
      · rw [TopBlack, rightRotate_red hlr]; exact hd e
    · cases h

theorem delFixL_spec (bot : K) (nr : Bool) (x : T K I) (d : Nd K I) (w : T K I) (p : Path K I)
    (t : T K I) (nr' : Bool)
    (ih : ∀ nr x t nr', delFix bot nr x p = some (t, nr') →
      Same bot (plug x p) t ∧ (LastBlack p → TopBlack t))
    (h : (if isRed nr w then
          match w with
          | .nil => none
          | .node wl wd wr =>
            match leftRotate bot (.node x (d.col true) (.node wl (wd.col false) wr)) with
            | some (.node (.node x' d' w') e b) =>
              if bothBlack nr w' then
                some (blacken (setRed true nr w').2 (.node x' d' (setRed true nr w').1)
                  (⟨.L, e, b⟩ :: p))
              else delCase34L bot nr x' d' w' (⟨.L, e, b⟩ :: p)
            | _ => none
        else if bothBlack nr w then
          delFix bot (setRed true nr w).2 (.node x d (setRed true nr w).1) p
        else delCase34L bot nr x d w p) = some (t, nr')) :
    Same bot (plug (.node x d w) p) t ∧ (LastBlack (⟨.L, d, w⟩ :: p) → TopBlack t) := by
  have hdp : LastBlack (⟨.L, d, w⟩ :: p) → p = [] → d.red = false := by
    rintro hd rfl; rwa [lastBlack_single] at hd
  cases hw : isRed nr w with
  | true =>
    simp only [hw, if_true] at h
    cases w with
    | nil => cases h
    | node wl wd wr =>
    simp only at h
    split at h
    · rename_i x' d' w' e b hlr
      have he : e.red = false := by
        have := leftRotate_red hlr false
        exact this
      have hp' : LastBlack (⟨.L, d, .node wl wd wr⟩ :: p) →
          LastBlack (⟨.L, e, b⟩ :: p) :=
        fun hd => LastBlack.cons_black hd.tail he
      have hs : Same bot (plug (.node x d (.node wl wd wr)) p)
          (plug (.node x' d' w') (⟨.L, e, b⟩ :: p)) := by
        refine Same.plug ?_ p
        exact Same.trans (Same.col true Same.rfl (Same.col false Same.rfl Same.rfl))
          (Same.leftRotate hlr)
      split at h
      · rw [Option.some.injEq] at h
        rw [show t = (blacken (setRed true nr w').2 (.node x' d' (setRed true nr w').1)
          (⟨.L, e, b⟩ :: p)).1 by rw [h]]
        refine ⟨hs.trans (Same.trans ?_ (blacken_same ..)), fun hd => blacken_top _ _ _ (hp' hd)⟩
        exact Same.plug (Same.node Same.rfl (Same.setRed _ _ _ _) rfl rfl) _
      · obtain ⟨h1, h2⟩ := delCase34L_spec h
        exact ⟨hs.trans h1, fun hd => h2 (hp' hd) (by simp)⟩
    · cases h
  | false =>
    simp only [hw, Bool.false_eq_true, if_false] at h
    split at h
    · obtain ⟨h1, h2⟩ := ih _ _ _ _ h
      refine ⟨Same.trans (Same.plug (Same.node Same.rfl (Same.setRed _ _ _ _) rfl rfl) p) h1,
        fun hd => h2 hd.tail⟩
    · obtain ⟨h1, h2⟩ := delCase34L_spec h
      exact ⟨h1, fun hd => h2 hd.tail (hdp hd)⟩

theorem delFixR_spec (bot : K) (nr : Bool) (x : T K I) (d : Nd K I) (w : T K I) (p : Path K I)
    (t : T K I) (nr' : Bool)
    (ih : ∀ nr x t nr', delFix bot nr x p = some (t, nr') →
      Same bot (plug x p) t ∧ (LastBlack p → TopBlack t))
    (h : (if isRed nr w then
          match w with
          | .nil => none
          | .node wl wd wr =>
            match rightRotate bot (.node (.node wl (wd.col false) wr) (d.col true) x) with
            | some (.node b e (.node w' d' x')) =>
              if bothBlack nr w' then
                some (blacken (setRed true nr w').2 (.node (setRed true nr w').1 d' x')
                  (⟨.R, e, b⟩ :: p))
              else delCase34R bot nr x' d' w' (⟨.R, e, b⟩ :: p)
            | _ => none
        else if bothBlack nr w then
          delFix bot (setRed true nr w).2 (.node (setRed true nr w).1 d x) p
        else delCase34R bot nr x d w p) = some (t, nr')) :
    Same bot (plug (.node w d x) p) t ∧ (LastBlack (⟨.R, d, w⟩ :: p) → TopBlack t) := by
  have hdp : LastBlack (⟨.R, d, w⟩ :: p) → p = [] → d.red = false := by
    rintro hd rfl; rwa [lastBlack_single] at hd
  cases hw : isRed nr w with
  | true =>
    simp only [hw, if_true] at h
    cases w with
    | nil => cases h
    | node wl wd wr =>
    simp only at h
    split at h
    · rename_i b e w' d' x' hlr
      have he : e.red = false := by
        have := rightRotate_red hlr false
        exact this
      have hp' : LastBlack (⟨.R, d, .node wl wd wr⟩ :: p) →
          LastBlack (⟨.R, e, b⟩ :: p) :=
        fun hd => LastBlack.cons_black hd.tail he
      have hs : Same bot (plug (.node (.node wl wd wr) d x) p)
          (plug (.node w' d' x') (⟨.R, e, b⟩ :: p)) := by
        refine Same.plug ?_ p
        exact Same.trans (Same.col true (Same.col false Same.rfl Same.rfl) Same.rfl)
          (Same.rightRotate hlr)
      split at h
      · rw [Option.some.injEq] at h
        rw [show t = (blacken (setRed true nr w').2 (.node (setRed true nr w').1 d' x')
          (⟨.R, e, b⟩ :: p)).1 by rw [h]]
        refine ⟨hs.trans (Same.trans ?_ (blacken_same ..)), fun hd => blacken_top _ _ _ (hp' hd)⟩
        exact Same.plug (Same.node (Same.setRed _ _ _ _) Same.rfl rfl rfl) _
      · obtain ⟨h1, h2⟩ := delCase34R_spec h
        exact ⟨hs.trans h1, fun hd => h2 (hp' hd) (by simp)⟩
    · cases h
  | false =>
    simp only [hw, Bool.false_eq_true, if_false] at h
    split at h
    · obtain ⟨h1, h2⟩ := ih _ _ _ _ h
      refine ⟨Same.trans (Same.plug (Same.node (Same.setRed _ _ _ _) Same.rfl rfl rfl) p) h1,
        fun hd => h2 hd.tail⟩
    · obtain ⟨h1, h2⟩ := delCase34R_spec h
      exact ⟨h1, fun hd => h2 hd.tail (hdp hd)⟩

theorem delFix_spec (bot : K) (p : Path K I) : ∀ (nr : Bool) (x : T K I) (t : T K I) (nr' : Bool),
    delFix bot nr x p = some (t, nr') → Same bot (plug x p) t ∧ (LastBlack p → TopBlack t) := by
  induction p with
  | nil =>
    intro nr x t nr' h
    cases h
    exact ⟨blacken_same .., fun hp => blacken_top _ _ _ hp⟩
  | cons f p ih =>
    intro nr x t nr' h
    obtain ⟨dir, d, w⟩ := f
    simp only [delFix] at h
    split at h
    · cases h
      exact ⟨blacken_same .., fun hp => blacken_top _ _ _ hp⟩
    split at h
    · rename_i hL
      have hpl : plug x (⟨dir, d, w⟩ :: p) = plug (.node x d w) p := by
        cases dir with
        | L => rfl
        | R =>
          cases x with
          | nil =>
            cases w with
            | nil => rfl
            | node => simp [isNil] at hL
          | node => simp [isNil] at hL
      rw [hpl]
      obtain ⟨h1, h2⟩ := delFixL_spec bot nr x d w p t nr' ih h
      exact ⟨h1, fun hp => h2 (hp.cons rfl)⟩
    · rename_i hL
      have hpl : plug x (⟨dir, d, w⟩ :: p) = plug (.node w d x) p := by
        cases dir with
        | L => simp at hL
        | R => rfl
      rw [hpl]
      obtain ⟨h1, h2⟩ := delFixR_spec bot nr x d w p t nr' ih h
      exact ⟨h1, fun hp => h2 (hp.cons rfl)⟩

theorem find_some [DecidableEq I] {i : I} {t : T K I} {p q : Path K I} {z : T K I}
    (h : find i t p = some (z, q)) :
    plug z q = plug t p ∧ ∃ l d r, z = .node l d r ∧ d.ivl.id = i := by
  induction t generalizing p with
  | nil => cases h
  | node l d r ihl ihr =>
    rw [find] at h
    split at h
    · rename_i hi
      cases h
      exact ⟨rfl, _, _, _, rfl, hi⟩
    · cases hl : find i l (⟨.L, d, r⟩ :: p) with
      | some z' =>
        simp only [hl] at h
        cases h
        exact ihl hl
      | none =>
        simp only [hl] at h
        exact ihr h

theorem find_none [DecidableEq I] {i : I} {t : T K I} {p : Path K I}
    (h : find i t p = none) : ∀ a ∈ toList t, a.id ≠ i := by
  induction t generalizing p with
  | nil => simp [toList]
  | node l d r ihl ihr =>
    rw [find] at h
    split at h
    · cases h
    · rename_i hi
      cases hl : find i l (⟨.L, d, r⟩ :: p) with
      | some z' => simp [hl] at h
      | none =>
        simp only [hl] at h
        intro a ha
        simp only [toList, List.mem_append, List.mem_cons] at ha
        rcases ha with ha | rfl | ha
        · exact ihl hl a ha
        · exact hi
        · exact ihr h a ha

theorem leftmost_spec (l : T K I) (d : Nd K I) (r : T K I) (p : Path K I) :
    plug (.node .nil (leftmost l d r p).1 (leftmost l d r p).2.1) (leftmost l d r p).2.2 =
      plug (.node l d r) p ∧ ((pre p = []) → pre (leftmost l d r p).2.2 = []) := by
  induction l generalizing d r p with
  | nil => exact ⟨rfl, id⟩
  | node l' d' r' ihl _ =>
    rw [leftmost]
    obtain ⟨h1, h2⟩ := ihl d' r' (⟨.L, d, r⟩ :: p)
    exact ⟨h1, fun h => h2 (by simpa [pre] using h)⟩

theorem plug_append (t : T K I) (p q : Path K I) : plug t (p ++ q) = plug (plug t p) q := by
  induction p generalizing t with
  | nil => rfl
  | cons f p ih =>
    rw [List.cons_append, plug_cons, ih, ← plug_cons]

theorem pre_append (p q : Path K I) : pre (p ++ q) = pre q ++ pre p := by
  induction p with
  | nil => simp [pre]
  | cons f p ih =>
    obtain ⟨dir, d, s⟩ := f
    cases dir <;> simp [pre, ih]

theorem post_append (p q : Path K I) : post (p ++ q) = post p ++ post q := by
  induction p with
  | nil => simp [post]
  | cons f p ih =>
    obtain ⟨dir, d, s⟩ := f
    cases dir <;> simp [post, ih]

theorem lastBlack_append (p q : Path K I) (f : Frame K I) (h : LastBlack (f :: q)) :
    LastBlack (p ++ f :: q) := by
  induction p with
  | nil => exact h
  | cons g p ih =>
    cases p with
    | nil => exact (lastBlack_cons_cons ..).2 ih
    | cons g' p => exact (lastBlack_cons_cons ..).2 ih

theorem topBlack_last {x : T K I} {p : Path K I} (h : TopBlack (plug x p)) : LastBlack p := by
  induction p generalizing x with
  | nil => exact lastBlack_nil
  | cons f p ih =>
    rw [plug_cons] at h
    cases p with
    | nil =>
      rw [lastBlack_single]
      obtain ⟨dir, d, s⟩ := f
      cases dir <;> exact h
    | cons g p => exact (lastBlack_cons_cons ..).2 (ih h)

/-- Splicing out a node and repairing. -/
theorem splice_spec {bot : K} {nr : Bool} {x : T K I} {p : Path K I} {c : Bool} {t : T K I}
    {nr' : Bool} (hx : MHok bot x) (hp : SibsOk bot p) (hl : LastBlack p) (hc : p = [] → c = false)
    (h : (if !c then delFix bot nr x (fixPath bot (mh bot x) p)
      else some (plug x (fixPath bot (mh bot x) p), nr)) = some (t, nr')) :
    toList t = pre p ++ (toList x ++ post p) ∧ MHok bot t ∧ TopBlack t := by
  have hl' := (fixPath_lastBlack bot (mh bot x) p).2 hl
  have hm : MHok bot (plug x (fixPath bot (mh bot x) p)) :=
    (MHok_plug ..).2 ⟨hx, pathOk_fixPath _ _ _ hp⟩
  have ht : toList (plug x (fixPath bot (mh bot x) p)) = pre p ++ (toList x ++ post p) := by
    rw [toList_plug, pre_fixPath, post_fixPath]
  cases c with
  | false =>
    obtain ⟨h1, h2⟩ := delFix_spec _ _ _ _ _ _ (by simpa using h)
    exact ⟨h1.1.trans ht, (h1.2 hm).1, h2 hl'⟩
  | true =>
    simp only [Bool.not_true, Bool.false_eq_true, if_false] at h
    cases h
    refine ⟨ht, hm, topBlack_plug _ _ (fun e => ?_) hl'⟩
    rw [fixPath_ne_nil] at e
    simpa using hc e

theorem deleteAt_spec {bot : K} {nr : Bool} {l r : T K I} {z : Nd K I} {p : Path K I} {t : T K I}
    {nr' : Bool} (hm : MHok bot (plug (.node l z r) p)) (htop : TopBlack (plug (.node l z r) p))
    (h : deleteAt bot nr l z r p = some (t, nr')) :
    toList t = pre p ++ (toList l ++ (toList r ++ post p)) ∧ MHok bot t ∧ TopBlack t := by
  rw [MHok_plug] at hm
  obtain ⟨⟨_, hml, hmr⟩, hmp⟩ := hm
  have hlast := topBlack_last htop
  have hz : p = [] → z.red = false := by rintro rfl; exact htop
  cases l with
  | nil =>
    have h' : (if !z.red then delFix bot nr r (fixPath bot (mh bot r) p)
        else some (plug r (fixPath bot (mh bot r) p), nr)) = some (t, nr') := by
      cases r <;> exact h
    obtain ⟨h1, h2, h3⟩ := splice_spec hmr hmp.sibs hlast hz h'
    exact ⟨by rw [h1]; simp [toList], h2, h3⟩
  | node ll ld lr =>
    cases r with
    | nil =>
      obtain ⟨h1, h2, h3⟩ := splice_spec hml hmp.sibs hlast hz h
      exact ⟨by rw [h1]; simp [toList], h2, h3⟩
    | node rl rd rr =>
      simp only [deleteAt] at h
      obtain ⟨e1, e2⟩ := leftmost_spec rl rd rr []
      have e2 := e2 rfl
      generalize leftmost rl rd rr [] = yy at h e1 e2
      obtain ⟨y, x, q⟩ := yy
      simp only [plug] at h e1 e2
      have hmr' := hmr
      rw [← e1, MHok_plug] at hmr'
      obtain ⟨⟨_, _, hx⟩, hq⟩ := hmr'
      have hsib : SibsOk bot (q ++ ⟨.R, { y with red := z.red, mh := bot }, .node ll ld lr⟩ :: p) := by
        intro f hf
        rcases List.mem_append.1 hf with hf | hf
        · exact hq.sibs f hf
        · rcases List.mem_cons.1 hf with rfl | hf
          · exact hml
          · exact hmp.sibs f hf
      have hlast' : LastBlack (q ++ ⟨.R, { y with red := z.red, mh := bot }, .node ll ld lr⟩ :: p) := by
        refine lastBlack_append _ _ _ ?_
        cases p with
        | nil => rw [lastBlack_single]; exact hz rfl
        | cons g p => rw [lastBlack_cons_cons]; exact hlast
      obtain ⟨h1, h2, h3⟩ := splice_spec hx hsib hlast' (by simp) h
      refine ⟨?_, h2, h3⟩
      have hr : toList (T.node rl rd rr) = y.ivl :: (toList x ++ post q) := by
        rw [← e1, toList_plug, e2]; simp [toList]
      rw [h1, hr]
      simp [pre_append, post_append, pre, post, e2]

theorem delete_spec [DecidableEq I] {bot : K} {st st' : St K I} {i : I} (h : Inv bot st)
    (hd : delete bot st i = some st') :
    Inv bot st' ∧ ∃ a, a.id = i ∧ (a :: toList st'.t).Perm (toList st.t) := by
  simp only [delete] at hd
  split at hd
  · rename_i l z r p hf
    obtain ⟨hp, l', d', r', e, hi⟩ := find_some hf
    cases e
    split at hd
    · rename_i t nr hdel
      cases hd
      simp only [plug] at hp
      obtain ⟨h1, h2, h3⟩ := deleteAt_spec (hp ▸ h.aug) (hp ▸ h.top) hdel
      have hl : toList st.t = pre p ++ (toList l ++ (z.ivl :: toList r ++ post p)) := by
        rw [← hp, toList_plug]; simp [toList]
      refine ⟨⟨?_, h2, h3⟩, z.ivl, hi, ?_⟩
      · simp only [h1]
        have := h.sorted
        rw [hl] at this
        refine List.Pairwise.sublist ?_ this
        exact (List.Sublist.refl _).append ((List.Sublist.refl _).append
          (by simp))
      · simp only [h1, hl]
        rw [← List.append_assoc, ← List.append_assoc]
        simpa using (List.perm_middle (a := z.ivl) (l₁ := pre p ++ toList l)
          (l₂ := toList r ++ post p)).symm
    · cases hd
  · cases hd

end Fcl.ITree
