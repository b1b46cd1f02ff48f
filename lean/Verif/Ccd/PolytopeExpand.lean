import Verif.Ccd.PolytopePatch
import Mathlib.Data.List.Basic
import Mathlib.Data.List.Nodup
import Mathlib.Tactic.Common

/-!
# The expansion keeps the surface closed
-/

namespace Fcl
namespace Pt

variable {V : Type*}

/-! ### Deletion -/

theorem onEdge_fold (h : Edge → Edge) : ∀ (l : List ℕ) (P : Poly V), l.Nodup →
    l.foldl (fun P e => P.onEdge h e) P = { P with edges := fun e => if e ∈ l then (P.edges e).map h else P.edges e }
  | [], P, _ => by simp
  | x :: l, P, hn => by
    rw [List.foldl_cons, onEdge_fold h l _ (List.nodup_cons.1 hn).2]
    have hx := (List.nodup_cons.1 hn).1
    simp only [Poly.onEdge]
    congr 1
    funext e
    by_cases he : e = x
    · subst he
      simp [hx, put]
    · simp [put, he]

/-- Whether a face is among those of the list. -/
def hit (L : List ℕ) (o : Option ℕ) : Bool := o.any (fun x => decide (x ∈ L))

/-- An edge without those of its faces that are in the list. -/
def trim (L : List ℕ) (ed : Edge) : Edge :=
  { ed with
    f := if hit L ed.f then (if hit L ed.g then none else ed.g) else ed.f
    g := if hit L ed.f || hit L ed.g then none else ed.g }

theorem delFaces {P : Poly V} (hc : Closed P) (L : List ℕ) (hn : L.Nodup) (hl : ∀ x ∈ L, P.faces x ≠ none) :
    L.foldl Poly.delFace P = { P with
      edges := fun e => (P.edges e).map (trim L)
      faces := fun h => if h ∈ L then none else P.faces h } := by
  induction L using List.reverseRecOn with
  | nil =>
    simp only [List.foldl_nil]
    have : ∀ ed, trim [] ed = ed := fun ed => by
      have : ∀ o, hit [] o = false := fun o => by cases o <;> simp [hit]
      simp [trim, this]
    have h2 : trim ([] : List ℕ) = id := funext this
    simp [h2]
  | append_singleton L x ih =>
    have hnL := (List.nodup_append.1 hn).1
    have hxL : x ∉ L := fun h => by
      have := (List.nodup_append.1 hn).2.2 x h x (by simp)
      exact this rfl
    rw [List.foldl_append, ih hnL fun y hy => hl y (by simp [hy])]
    obtain ⟨fc, hfc⟩ := Option.ne_none_iff_exists'.1 (hl x (by simp))
    simp only [List.foldl_cons, List.foldl_nil, Poly.delFace, hxL, if_false, hfc]
    rw [onEdge_fold _ _ _ (hc.tri x fc hfc).1]
    simp only
    congr 1
    · funext e
      rcases he : P.edges e with _ | ed
      · simp
      obtain ⟨p, q, hp, hq, hpq, hs⟩ := hc.two e ed he
      have hside : e ∈ fc.edges ↔ x = p ∨ x = q := by
        rw [← hs x]
        exact ⟨fun h => ⟨fc, hfc, h⟩, fun ⟨fc', h1, h2⟩ => by rw [hfc] at h1; cases h1; exact h2⟩
      simp only [Option.map_some, trim, Edge.drop, hit, hp, hq, Option.any_some, List.mem_append, List.mem_singleton, hside]
      by_cases h1 : p ∈ L <;> by_cases h2 : q ∈ L <;> by_cases h3 : x = p <;> by_cases h4 : x = q <;>
        simp_all [eq_comm]
    · funext h
      by_cases hx : h = x
      · subst hx; simp [put]
      · simp [put, hx]

theorem delEdges (I : List ℕ) : ∀ (P : Poly V), I.Nodup → (∀ e ∈ I, ∃ ed, P.edges e = some ed ∧ ed.f = none) →
    I.foldl Poly.delEdge P = { P with edges := fun e => if e ∈ I then none else P.edges e } := by
  induction I with
  | nil => intro P _ _; simp
  | cons x I ih =>
    intro P hn h
    obtain ⟨ed, h1, h2⟩ := h x (by simp)
    obtain ⟨hx, hn'⟩ := List.nodup_cons.1 hn
    have hd : P.delEdge x = { P with edges := put P.edges x none } := by simp [Poly.delEdge, h1, h2]
    rw [List.foldl_cons, hd, ih _ hn' ?_]
    · simp only
      congr 1
      funext e
      by_cases he : e = x
      · subst he; simp [put]
      · simp [put, he]
    · intro e he
      obtain ⟨ed', k1, k2⟩ := h e (by simp [he])
      refine ⟨ed', ?_, k2⟩
      have : e ≠ x := fun h => hx (h ▸ he)
      simp [put, this, k1]

/-! ### The new faces -/

/-- Whether the vertex is an end of the edge. -/
def touch (Q : Poly V) (v e : ℕ) : Bool :=
  match Q.edges e with
  | none => false
  | some ed => ed.a == v || ed.b == v

/-- The number of the new face on a border edge. -/
def num (Q : Poly V) (d : List ℕ) (e : ℕ) : ℕ := Q.nextF + d.idxOf e

/-- The numbers of the new faces that have the vertex. -/
def fan (Q : Poly V) (d : List ℕ) (v : ℕ) : List ℕ := (d.filter (touch Q v)).map (num Q d)

/-- The polytope `R` and the map after the border edges `d` have been treated, apart from what the map has in excess. -/
structure Inv (Q : Poly V) (nv : ℕ) (d : List ℕ) (R : Poly V) (m : ℕ → Option ℕ) : Prop where
  verts : R.verts = Q.verts
  nextF : R.nextF = Q.nextF + d.length
  nextE : Q.nextE ≤ R.nextE
  oldF : ∀ h, h < Q.nextF → R.faces h = Q.faces h
  newF : ∀ e ∈ d, ∃ ed i j, Q.edges e = some ed ∧ m ed.a = some i ∧ m ed.b = some j ∧ R.faces (num Q d e) = some ⟨e, i, j⟩
  noF : ∀ h, Q.nextF + d.length ≤ h → R.faces h = none
  has : ∀ v e, e ∈ d → touch Q v e = true → m v ≠ none
  inj : ∀ v w i, m v = some i → m w = some i → v = w
  range : ∀ v i, m v = some i → Q.nextE ≤ i ∧ i < R.nextE
  live : ∀ i, Q.nextE ≤ i → R.edges i ≠ none → ∃ v, m v = some i
  spokes : ∀ v i, m v = some i → R.edges i = some ⟨nv, v, (fan Q d v).head?, if (fan Q d v).length ≤ 1 then none else (fan Q d v).getLast?⟩
  oldE : ∀ i, i < Q.nextE → R.edges i = if i ∈ d then (Q.edges i).map (Edge.join (num Q d i)) else Q.edges i

theorem spoke_inv {Q : Poly V} {nv : ℕ} {d : List ℕ} {R : Poly V} {m : ℕ → Option ℕ} (h : Inv Q nv d R m) (v : ℕ) :
    Inv Q nv d (spoke nv v R m).1 (spoke nv v R m).2.1 ∧ (spoke nv v R m).2.1 v = some (spoke nv v R m).2.2 ∧
      (∀ w, w ≠ v → (spoke nv v R m).2.1 w = m w) ∧ (∀ w i, m w = some i → (spoke nv v R m).2.1 w = some i) := by
  unfold spoke
  rcases hv : m v with _ | i
  swap
  · exact ⟨h, hv, fun _ _ => rfl, fun _ _ h => h⟩
  simp only
  have keep : ∀ w i, m w = some i → put m v (some R.nextE) w = some i := by
    intro w i hw
    have : w ≠ v := fun e => by rw [e, hv] at hw; cases hw
    simp [put, this, hw]
  have out : ∀ w i, put m v (some R.nextE) w = some i → (w = v ∧ i = R.nextE) ∨ (w ≠ v ∧ m w = some i) := by
    intro w i hw
    by_cases e : w = v
    · simp only [put, e, if_true, Option.some.injEq] at hw
      exact Or.inl ⟨e, hw.symm⟩
    · simp only [put, e, if_false] at hw
      exact Or.inr ⟨e, hw⟩
  refine ⟨?_, by simp [put], fun w hw => by simp [put, hw], keep⟩
  refine ⟨h.verts, h.nextF, ?_, h.oldF, ?_, h.noF, ?_, ?_, ?_, ?_, ?_, ?_⟩
  · exact h.nextE.trans (Nat.le_succ _)
  · intro e he
    obtain ⟨ed, i, j, h1, h2, h3, h4⟩ := h.newF e he
    exact ⟨ed, i, j, h1, keep _ _ h2, keep _ _ h3, h4⟩
  · intro w e he ht
    obtain ⟨i, hi⟩ := Option.ne_none_iff_exists'.1 (h.has w e he ht)
    rw [keep _ _ hi]
    simp
  · intro x y i hx hy
    rcases out _ _ hx with ⟨rfl, rfl⟩ | ⟨h1, h2⟩ <;> rcases out _ _ hy with ⟨rfl, h5⟩ | ⟨h3, h4⟩
    · rfl
    · exact absurd (h.range _ _ h4).2 (lt_irrefl _)
    · subst h5
      exact absurd (h.range _ _ h2).2 (lt_irrefl _)
    · exact h.inj _ _ _ h2 h4
  · intro w i hw
    rcases out _ _ hw with ⟨rfl, rfl⟩ | ⟨h1, h2⟩
    · exact ⟨h.nextE, Nat.lt_succ_self _⟩
    · exact ⟨(h.range _ _ h2).1, (h.range _ _ h2).2.trans (Nat.lt_succ_self _)⟩
  · intro i hi hl
    by_cases e : i = R.nextE
    · exact ⟨v, by simp [put, e]⟩
    · obtain ⟨w, hw⟩ := h.live i hi (by simpa [Poly.addEdge, put, e] using hl)
      exact ⟨w, keep _ _ hw⟩
  · intro w i hw
    rcases out _ _ hw with ⟨rfl, rfl⟩ | ⟨h1, h2⟩
    · have : fan Q d w = [] := by
        rw [fan, List.map_eq_nil_iff, List.filter_eq_nil_iff]
        exact fun e he ht => h.has w e he ht hv
      simp [Poly.addEdge, put, this]
    · have : i ≠ R.nextE := (h.range _ _ h2).2.ne
      simp only [Poly.addEdge, put, this, if_false]
      exact h.spokes w i h2
  · intro i hi
    have : i ≠ R.nextE := (hi.trans_le h.nextE).ne
    simp only [Poly.addEdge, put, this, if_false]
    exact h.oldE i hi

theorem num_append {Q : Poly V} {d : List ℕ} {x e : ℕ} (he : e ∈ d) : num Q (d ++ [x]) e = num Q d e := by
  rw [num, num, List.idxOf_append_of_mem he]

theorem num_last {Q : Poly V} {d : List ℕ} {x : ℕ} (hx : x ∉ d) : num Q (d ++ [x]) x = Q.nextF + d.length := by
  rw [num, List.idxOf_append_of_notMem hx]; simp

theorem fan_append {Q : Poly V} {d : List ℕ} {x : ℕ} (hx : x ∉ d) (v : ℕ) :
    fan Q (d ++ [x]) v = fan Q d v ++ if touch Q v x then [Q.nextF + d.length] else [] := by
  rw [fan, List.filter_append, List.map_append, fan]
  congr 1
  · exact List.map_congr_left fun e he => num_append (List.mem_filter.1 he).1
  · by_cases h : touch Q v x = true
    · simp [h, num_last hx]
    · simp [h]

/-- A face joins a spoke. -/
theorem join_fan (l : List ℕ) (nv v F : ℕ) :
    Edge.join F ⟨nv, v, l.head?, if l.length ≤ 1 then none else l.getLast?⟩ =
      ⟨nv, v, (l ++ [F]).head?, if (l ++ [F]).length ≤ 1 then none else (l ++ [F]).getLast?⟩ := by
  rcases l with _ | ⟨a, l⟩
  · simp [Edge.join]
  · simp only [Edge.join, List.head?_cons, List.cons_append]
    rw [show (a :: (l ++ [F])).getLast? = some F by rw [← List.cons_append, List.getLast?_concat]]
    simp

theorem join_ends (F : ℕ) (ed : Edge) : (Edge.join F ed).a = ed.a ∧ (Edge.join F ed).b = ed.b := by
  unfold Edge.join
  split <;> exact ⟨rfl, rfl⟩

theorem side_inv {Q : Poly V} {nv : ℕ} {d : List ℕ} {R : Poly V} {m : ℕ → Option ℕ} (h : Inv Q nv d R m) {x : ℕ} (hx : x ∉ d) {ed : Edge}
    (hed : Q.edges x = some ed) (hab : ed.a ≠ ed.b) (hxQ : x < Q.nextE) :
    Inv Q nv (d ++ [x]) (addSide nv (R, m) x).1 (addSide nv (R, m) x).2 ∧
      ∀ v, (addSide nv (R, m) x).2 v ≠ none → m v ≠ none ∨ v = ed.a ∨ v = ed.b := by
  have hR : R.edges x = some ed := by rw [h.oldE x hxQ, if_neg hx, hed]
  obtain ⟨h1, a1, b1, c1⟩ := spoke_inv h ed.a
  set r := spoke nv ed.a R m with hr
  obtain ⟨h2, a2, b2, c2⟩ := spoke_inv h1 ed.b
  set q := spoke nv ed.b r.1 r.2.1 with hq
  have ha : q.2.1 ed.a = some r.2.2 := c2 _ _ a1
  have hb : q.2.1 ed.b = some q.2.2 := a2
  have hij : r.2.2 ≠ q.2.2 := fun e => hab (h2.inj _ _ _ ha (e ▸ hb))
  have ri := h2.range _ _ ha
  have rj := h2.range _ _ hb
  have nd : [x, r.2.2, q.2.2].Nodup := by
    simp only [List.nodup_cons, List.mem_cons, List.not_mem_nil, or_false, not_or, not_false_eq_true, List.nodup_nil, and_true]
    exact ⟨⟨(hxQ.trans_le ri.1).ne, (hxQ.trans_le rj.1).ne⟩, hij⟩
  have hS : addSide nv (R, m) x = (q.1.addFace x r.2.2 q.2.2, q.2.1) := by
    simp only [addSide, hR]
    rfl
  rw [hS]
  have touched : ∀ v, touch Q v x = true ↔ v = ed.a ∨ v = ed.b := by
    intro v
    simp only [touch, hed, Bool.or_eq_true, beq_iff_eq]
    constructor <;> rintro (h | h) <;> simp [h]
  have hnF : q.1.nextF = Q.nextF + d.length := h2.nextF
  have hA : q.1.addFace x r.2.2 q.2.2 = { q.1 with
      edges := fun e => if e ∈ [x, r.2.2, q.2.2] then (q.1.edges e).map (Edge.join q.1.nextF) else q.1.edges e
      faces := put q.1.faces q.1.nextF (some ⟨x, r.2.2, q.2.2⟩), nextF := q.1.nextF + 1 } := by
    have e1 : ([x, r.2.2, q.2.2].foldl (fun P e => P.onEdge (Edge.join P.nextF) e) q.1) =
        [x, r.2.2, q.2.2].foldl (fun P e => P.onEdge (Edge.join q.1.nextF) e) q.1 := rfl
    rw [Poly.addFace, e1, onEdge_fold _ _ _ nd]
  rw [hA]
  refine ⟨⟨?_, ?_, ?_, ?_, ?_, ?_, ?_, ?_, ?_, ?_, ?_, ?_⟩, ?_⟩
  · exact h2.verts
  · simp only [hnF, List.length_append, List.length_singleton]; rfl
  · exact h2.nextE
  · intro k hk
    have : k ≠ q.1.nextF := by omega
    simp only [put, this, if_false]
    exact h2.oldF k hk
  · intro e he
    by_cases hex : e = x
    · subst hex
      refine ⟨ed, _, _, hed, ha, hb, ?_⟩
      rw [num_last hx]
      simp [put, hnF]
    · have hed' : e ∈ d := by simpa [hex] using he
      obtain ⟨ed', i, j, k1, k2, k3, k4⟩ := h2.newF e hed'
      refine ⟨ed', i, j, k1, k2, k3, ?_⟩
      rw [num_append hed']
      have : num Q d e ≠ q.1.nextF := by
        rw [hnF, num]
        have := List.idxOf_lt_length_of_mem hed'
        omega
      simp only [put, this, if_false]
      exact k4
  · intro k hk
    rw [List.length_append, List.length_singleton] at hk
    have : k ≠ q.1.nextF := by omega
    simp only [put, this, if_false]
    exact h2.noF k (by omega)
  · intro v e he ht
    by_cases hex : e = x
    · subst hex
      rcases (touched v).1 ht with rfl | rfl
      · simp only [ha]; simp
      · simp only [hb]; simp
    · exact h2.has v e (by simpa [hex] using he) ht
  · exact h2.inj
  · exact h2.range
  · intro i hi hl
    refine h2.live i hi fun h0 => hl ?_
    simp only [h0, Option.map_none, ite_self]
  · intro v i hv
    have hsp := h2.spokes v i hv
    rw [fan_append hx]
    have hix : i ≠ x := fun e => by
      have := (h2.range v i hv).1
      omega
    simp only [hsp, Option.map_some, List.mem_cons, List.not_mem_nil, or_false, hix, false_or]
    by_cases ht : touch Q v x = true
    · have : i = r.2.2 ∨ i = q.2.2 := by
        rcases (touched v).1 ht with rfl | rfl
        · have hv : q.2.1 ed.a = some i := hv
          rw [ha] at hv; exact Or.inl (Option.some.inj hv).symm
        · have hv : q.2.1 ed.b = some i := hv
          rw [hb] at hv; exact Or.inr (Option.some.inj hv).symm
      rw [if_pos this, if_pos ht, hnF, join_fan]
    · have : ¬(i = r.2.2 ∨ i = q.2.2) := by
        rintro (rfl | rfl)
        · exact ht ((touched v).2 (Or.inl (h2.inj _ _ _ hv ha)))
        · exact ht ((touched v).2 (Or.inr (h2.inj _ _ _ hv hb)))
      rw [if_neg this, if_neg ht, List.append_nil]
  · intro i hi
    have n1 : i ≠ r.2.2 := by omega
    have n2 : i ≠ q.2.2 := by omega
    simp only [List.mem_cons, List.not_mem_nil, or_false, n1, n2, List.mem_append]
    by_cases hix : i = x
    · subst hix
      have := h2.oldE i hi
      rw [if_neg hx] at this
      simp only [this, true_or, or_true, if_true, num_last hx, hnF]
    · simp only [hix, or_false, if_false]
      rw [h2.oldE i hi]
      by_cases hid : i ∈ d
      · simp only [hid, if_true, num_append hid]
      · simp only [hid, if_false]
  · intro v hv
    by_cases hvb : v = ed.b
    · exact Or.inr (Or.inr hvb)
    by_cases hva : v = ed.a
    · exact Or.inr (Or.inl hva)
    left
    have hv : q.2.1 v ≠ none := hv
    rw [b2 v hvb, b1 v hva] at hv
    exact hv

theorem border_inv {Q : Poly V} {nv : ℕ} (hnoF : ∀ h, Q.nextF ≤ h → Q.faces h = none) (hnoE : ∀ i, Q.nextE ≤ i → Q.edges i = none)
    (B : List ℕ) (hn : B.Nodup) (hB : ∀ e ∈ B, ∃ ed, Q.edges e = some ed ∧ ed.a ≠ ed.b) :
    Inv Q nv B (B.foldl (addSide nv) (Q, fun _ => none)).1 (B.foldl (addSide nv) (Q, fun _ => none)).2 ∧
      ∀ v, (B.foldl (addSide nv) (Q, fun _ => none)).2 v ≠ none → ∃ e ∈ B, touch Q v e = true := by
  induction B using List.reverseRecOn with
  | nil =>
    refine ⟨⟨rfl, rfl, le_rfl, fun _ _ => rfl, by simp, fun h hh => hnoF h (by simpa using hh), by simp, by simp, by simp, ?_, by simp, by simp⟩, by simp⟩
    intro i hi hl
    exact absurd (hnoE i hi) hl
  | append_singleton B x ih =>
    have hnL := (List.nodup_append.1 hn).1
    have hx : x ∉ B := fun h => (List.nodup_append.1 hn).2.2 x h x (by simp) rfl
    obtain ⟨h1, h2⟩ := ih hnL fun e he => hB e (by simp [he])
    obtain ⟨ed, hed, hab⟩ := hB x (by simp)
    have hxQ : x < Q.nextE := by
      by_contra hc
      rw [hnoE x (by omega)] at hed
      cases hed
    obtain ⟨k1, k2⟩ := side_inv h1 hx hed hab hxQ
    rw [List.foldl_append, List.foldl_cons, List.foldl_nil]
    refine ⟨k1, fun v hv => ?_⟩
    rcases k2 v hv with h | h
    · obtain ⟨e, he, ht⟩ := h2 v h
      exact ⟨e, by simp [he], ht⟩
    · refine ⟨x, by simp, ?_⟩
      simp only [touch, hed, Bool.or_eq_true, beq_iff_eq]
      rcases h with rfl | rfl <;> simp

/-! ### The whole expansion -/

/-- The polytope before the border is treated. -/
def cut (P : Poly V) (vis inn : List ℕ) (v : V) : Poly V :=
  { P with
    verts := P.verts ++ [v]
    edges := fun e => if e ∈ inn then none else (P.edges e).map (trim vis)
    faces := fun h => if h ∈ vis then none else P.faces h }

theorem Closed.distinct {P : Poly V} (h : Closed P) {e : ℕ} {ed : Edge} (he : P.edges e = some ed) : ed.a ≠ ed.b := by
  obtain ⟨f, g, -, -, -, hs⟩ := h.two e ed he
  obtain ⟨fc, hf, hef⟩ := (hs f).2 (Or.inl rfl)
  obtain ⟨-, a, b, c, h1, h2, h3, j0, j12⟩ := h.tri f fc hf
  have key : ∀ x y, x ≠ y → P.Joins e x y → ed.a ≠ ed.b := by
    rintro x y hxy ⟨ed', k, hk⟩
    rw [he] at k
    cases k
    rcases hk with ⟨rfl, rfl⟩ | ⟨rfl, rfl⟩
    · exact hxy
    · exact hxy.symm
  simp only [Face.edges, List.mem_cons, List.not_mem_nil, or_false] at hef
  rcases hef with rfl | rfl | rfl
  · exact key _ _ h1 j0
  · rcases j12 with ⟨j, -⟩ | ⟨j, -⟩
    · exact key _ _ h2 j
    · exact key _ _ h3.symm j
  · rcases j12 with ⟨-, j⟩ | ⟨-, j⟩
    · exact key _ _ h3 j
    · exact key _ _ h2.symm j

theorem touch_iff {P : Poly V} {w e : ℕ} : touch P w e = true ↔ P.End w e := by
  unfold touch Poly.End
  rcases h : P.edges e with _ | ed
  · simp
  · simp

/-- What the expansion `R` consists of: the faces outside the patch, one new face on every border edge, and one new edge to every vertex of the
border. -/
def Shape (P : Poly V) (s : Patch) (R : Poly V) (v : V) : Prop :=
  R.verts = P.verts ++ [v] ∧ ∃ (m : ℕ → Option ℕ) (num : ℕ → ℕ), (∀ w w' i, m w = some i → m w' = some i → w = w') ∧
    (∀ w k, m w = some k → P.edges k = none ∧ ∃ e ∈ s.border, P.End w e) ∧ (∀ e, P.faces (num e) = none) ∧
    (∀ e ∈ s.border, ∀ e' ∈ s.border, num e = num e' → e = e') ∧
    (∀ k a b, R.Joins k a b → P.Joins k a b ∨ ∃ w, m w = some k ∧ ((a = P.verts.length ∧ b = w) ∨ (a = w ∧ b = P.verts.length))) ∧
    ∀ k h, R.Side k h ↔ (h ∉ s.visible ∧ P.Side k h) ∨
      ∃ e, e ∈ s.border ∧ h = num e ∧ (k = e ∨ ∃ w, P.End w e ∧ m w = some k)

theorem expand_shape {P : Poly V} (hc : Closed P) {outside flat : ℕ → Bool} {f : ℕ} {s : Patch} (hp : IsPatch P outside flat f s)
    {vis inn bor : List ℕ} (nv : vis.Nodup) (ni : inn.Nodup) (nb : bor.Nodup) (mv : ∀ x, x ∈ vis ↔ x ∈ s.visible)
    (mi : ∀ x, x ∈ inn ↔ x ∈ s.inner) (mb : ∀ x, x ∈ bor ↔ x ∈ s.border)
    (deg : ∀ w, (bor.filter (touch P w)).length = 0 ∨ (bor.filter (touch P w)).length = 2) (v : V) :
    Closed (expand P vis inn bor v) ∧ Shape P s (expand P vis inn bor v) v := by
  have hit_some : ∀ x, hit vis (some x) = decide (x ∈ s.visible) := fun x => by simp [hit, mv]
  have e1 := delFaces hc vis nv fun x hx => hp.faces x ((mv x).1 hx)
  have e2 : (inn.foldl Poly.delEdge (vis.foldl Poly.delFace P)).addVertex v = cut P vis inn v := by
    rw [e1, delEdges _ _ ni ?_]
    · rfl
    · intro e he
      obtain ⟨hl, hs⟩ := (hp.inner e).1 ((mi e).1 he)
      obtain ⟨ed, hed⟩ := Option.ne_none_iff_exists'.1 hl
      obtain ⟨p, q, h1, h2, -, h4⟩ := hc.two e ed hed
      refine ⟨trim vis ed, by simp [hed], ?_⟩
      simp [trim, h1, h2, hit_some, hs p ((h4 p).2 (Or.inl rfl)), hs q ((h4 q).2 (Or.inr rfl))]
  have e3 : (inn.foldl Poly.delEdge (vis.foldl Poly.delFace P)).verts.length = P.verts.length := by
    have := congrArg (fun q => q.verts.length) e2
    simp only [Poly.addVertex, cut, List.length_append] at this
    omega
  unfold expand
  simp only
  rw [e2, e3]
  set Q := cut P vis inn v with hQ
  have cutE : ∀ e ed, P.edges e = some ed → e ∉ inn → Q.edges e = some (trim vis ed) := by
    intro e ed he hi; simp [hQ, cut, hi, he]
  have cutE' : ∀ e ed', Q.edges e = some ed' → e ∉ inn ∧ ∃ ed, P.edges e = some ed ∧ ed' = trim vis ed := by
    intro e ed' he
    simp only [hQ, cut] at he
    split at he
    · cases he
    · rename_i hi
      obtain ⟨ed, h1, h2⟩ := Option.map_eq_some_iff.1 he
      exact ⟨hi, ed, h1, h2.symm⟩
  have borderE : ∀ e ∈ bor, ∃ ed p q, P.edges e = some ed ∧ e ∉ inn ∧ p ∈ s.visible ∧ q ∉ s.visible ∧
      (∀ h, P.Side e h ↔ h = p ∨ h = q) ∧ trim vis ed = ⟨ed.a, ed.b, some q, none⟩ := by
    intro e he
    obtain ⟨⟨g, hg, hgs⟩, k, hks, hk⟩ := (hp.border e).1 ((mb e).1 he)
    obtain ⟨ed, hed⟩ := hc.live hgs
    obtain ⟨p, q, h1, h2, h3, h4⟩ := hc.two e ed hed
    have hi : e ∉ inn := fun h => hk (((hp.inner e).1 ((mi e).1 h)).2 k hks)
    rcases (h4 g).1 hgs with rfl | rfl <;> rcases (h4 k).1 hks with rfl | rfl
    · exact absurd hg hk
    · exact ⟨ed, _, _, hed, hi, hg, hk, h4, by simp [trim, h1, h2, hit_some, hg, hk]⟩
    · exact ⟨ed, _, _, hed, hi, hg, hk, fun h => (h4 h).trans or_comm, by simp [trim, h1, h2, hit_some, hg, hk]⟩
    · exact absurd hg hk
  have innerFree : ∀ e, e ∉ inn → e ∉ bor → ∀ g, P.Side e g → g ∉ s.visible := by
    intro e hi hb g hg hv
    apply hb
    rw [mb, hp.border]
    refine ⟨⟨g, hv, hg⟩, ?_⟩
    by_contra hcon
    push Not at hcon
    obtain ⟨ed, hed⟩ := hc.live hg
    exact hi ((mi e).2 ((hp.inner e).2 ⟨by rw [hed]; simp, hcon⟩))
  have touchQ : ∀ w, ∀ e ∈ bor, touch Q w e = touch P w e := by
    intro w e he
    obtain ⟨ed, p, q, h1, h2, -, -, -, h6⟩ := borderE e he
    simp [touch, cutE e ed h1 h2, h1, trim]
  obtain ⟨inv, ex⟩ := border_inv (Q := Q) (nv := P.verts.length)
    (fun h hh => by
      have : P.faces h = none := by
        by_contra hcon
        have := hc.newF h hcon
        exact absurd hh (by simp only [hQ, cut]; omega)
      simp [hQ, cut, this])
    (fun i hi => by
      have : P.edges i = none := by
        by_contra hcon
        have := hc.newE i hcon
        exact absurd hi (by simp only [hQ, cut]; omega)
      simp [hQ, cut, this]) bor nb
    (fun e he => by
      obtain ⟨ed, p, q, h1, h2, -, -, -, h6⟩ := borderE e he
      have hd := hc.distinct h1
      exact ⟨_, cutE e ed h1 h2, hd⟩)
  set R := (bor.foldl (addSide P.verts.length) (Q, fun _ => none)).1 with hR
  set m := (bor.foldl (addSide P.verts.length) (Q, fun _ => none)).2 with hm
  have nE : Q.nextE = P.nextE := rfl
  have nF : Q.nextF = P.nextF := rfl
  -- an old edge keeps its ends
  have joins : ∀ e a b, P.Joins e a b → e ∉ inn → R.Joins e a b := by
    rintro e a b ⟨ed, he, hab⟩ hi
    have hlt : e < Q.nextE := hc.newE e (by rw [he]; simp)
    have := inv.oldE e hlt
    rw [cutE e ed he hi] at this
    by_cases hb : e ∈ bor
    · rw [if_pos hb] at this
      refine ⟨_, this, ?_⟩
      rw [(join_ends _ _).1, (join_ends _ _).2]
      exact hab
    · rw [if_neg hb] at this
      exact ⟨_, this, hab⟩
  have oldFace : ∀ h fc, R.faces h = some fc → h < Q.nextF → h ∉ s.visible ∧ P.faces h = some fc := by
    intro h fc hh hlt
    rw [inv.oldF h hlt] at hh
    simp only [hQ, cut] at hh
    split at hh
    · cases hh
    · rename_i hv
      exact ⟨fun hs => hv ((mv h).2 hs), hh⟩
  have newFace : ∀ h fc, R.faces h = some fc → ¬h < Q.nextF → ∃ e ∈ bor, h = num Q bor e := by
    intro h fc hh hlt
    have hub : h < Q.nextF + bor.length := by
      by_contra hcon
      rw [inv.noF h (by omega)] at hh
      cases hh
    have hi : h - Q.nextF < bor.length := by omega
    refine ⟨bor[h - Q.nextF], List.getElem_mem hi, ?_⟩
    rw [num, nb.idxOf_getElem]
    omega
  have numInj : ∀ e ∈ bor, ∀ e' ∈ bor, num Q bor e = num Q bor e' → e = e' := by
    intro e he e' _ h
    simp only [num] at h
    have h : bor.idxOf e = bor.idxOf e' := by omega
    exact (List.idxOf_inj he).1 h
  have numGe : ∀ e, Q.nextF ≤ num Q bor e := fun e => by simp [num]
  have keepFace : ∀ h fc, P.faces h = some fc → h ∉ s.visible → R.faces h = some fc := by
    intro h fc hh hv
    have hlt : h < Q.nextF := hc.newF h (by rw [hh]; simp)
    rw [inv.oldF h hlt]
    simp [hQ, cut, mv, hv, hh]
  -- the sides of the new polytope
  have rside : ∀ k h, R.Side k h ↔ (h ∉ s.visible ∧ P.Side k h) ∨
      ∃ e ∈ bor, h = num Q bor e ∧ (k = e ∨ ∃ w, touch P w e = true ∧ m w = some k) := by
    intro k h
    have newSide : ∀ e ∈ bor, ∀ k, R.Side k (num Q bor e) ↔ k = e ∨ ∃ w, touch P w e = true ∧ m w = some k := by
      intro e he k
      obtain ⟨ed, i, j, h1, h2, h3, h4⟩ := inv.newF e he
      have ht : ∀ w, touch P w e = true ↔ w = ed.a ∨ w = ed.b := by
        intro w
        rw [← touchQ w e he]
        simp only [touch, h1, Bool.or_eq_true, beq_iff_eq]
        constructor <;> rintro (h | h) <;> simp [h]
      constructor
      · rintro ⟨fc, hf, hk⟩
        rw [h4] at hf
        cases hf
        simp only [Face.edges, List.mem_cons, List.not_mem_nil, or_false] at hk
        rcases hk with rfl | rfl | rfl
        · exact Or.inl rfl
        · exact Or.inr ⟨ed.a, (ht _).2 (Or.inl rfl), h2⟩
        · exact Or.inr ⟨ed.b, (ht _).2 (Or.inr rfl), h3⟩
      · rintro (rfl | ⟨w, hw, hk⟩)
        · exact ⟨_, h4, by simp [Face.edges]⟩
        · refine ⟨_, h4, ?_⟩
          rcases (ht w).1 hw with rfl | rfl
          · rw [h2] at hk; cases hk; simp [Face.edges]
          · rw [h3] at hk; cases hk; simp [Face.edges]
    constructor
    · rintro ⟨fc, hf, hk⟩
      by_cases hlt : h < Q.nextF
      · obtain ⟨k1, k2⟩ := oldFace h fc hf hlt
        exact Or.inl ⟨k1, fc, k2, hk⟩
      · obtain ⟨e, he, rfl⟩ := newFace h fc hf hlt
        exact Or.inr ⟨e, he, rfl, (newSide e he k).1 ⟨fc, hf, hk⟩⟩
    · rintro (⟨hv, fc, hf, hk⟩ | ⟨e, he, rfl, hk⟩)
      · exact ⟨fc, keepFace h fc hf hv, hk⟩
      · exact (newSide e he k).2 hk
  refine ⟨⟨?_, ?_, ?_, ?_, ?_⟩, ?_⟩
  · intro h fc hf
    by_cases hlt : h < Q.nextF
    · obtain ⟨k1, k2⟩ := oldFace h fc hf hlt
      obtain ⟨nd, a, b, c, h1, h2, h3, j0, j12⟩ := hc.tri h fc k2
      have ni' : ∀ e ∈ fc.edges, e ∉ inn := fun e he hi => k1 (((hp.inner e).1 ((mi e).1 hi)).2 h ⟨fc, k2, he⟩)
      refine ⟨nd, a, b, c, h1, h2, h3, joins _ _ _ j0 (ni' _ (by simp [Face.edges])), ?_⟩
      rcases j12 with ⟨j1, j2⟩ | ⟨j1, j2⟩
      · exact Or.inl ⟨joins _ _ _ j1 (ni' _ (by simp [Face.edges])), joins _ _ _ j2 (ni' _ (by simp [Face.edges]))⟩
      · exact Or.inr ⟨joins _ _ _ j1 (ni' _ (by simp [Face.edges])), joins _ _ _ j2 (ni' _ (by simp [Face.edges]))⟩
    · obtain ⟨e, he, rfl⟩ := newFace h fc hf hlt
      obtain ⟨ed', i, j, h1, h2, h3, h4⟩ := inv.newF e he
      rw [h4] at hf
      cases hf
      obtain ⟨hi, ed, hed, rfl⟩ := cutE' e ed' h1
      have hab := hc.distinct hed
      have hlt' := hc.ends e ed hed
      have he' : e < Q.nextE := hc.newE e (by rw [hed]; simp)
      have ra := inv.range _ _ h2
      have rb := inv.range _ _ h3
      refine ⟨?_, ed.a, ed.b, P.verts.length, hab, hlt'.2.ne, hlt'.1.ne', ?_, Or.inr ⟨?_, ?_⟩⟩
      · simp only [Face.edges, List.nodup_cons, List.mem_cons, List.not_mem_nil, or_false, not_or, not_false_eq_true, List.nodup_nil,
          and_true]
        exact ⟨⟨(he'.trans_le ra.1).ne, (he'.trans_le rb.1).ne⟩, fun h => hab (inv.inj _ _ _ h2 (h ▸ h3))⟩
      · exact joins e _ _ ⟨ed, hed, Or.inl ⟨rfl, rfl⟩⟩ hi
      · exact ⟨_, inv.spokes _ _ h2, Or.inr ⟨rfl, rfl⟩⟩
      · exact ⟨_, inv.spokes _ _ h3, Or.inl ⟨rfl, rfl⟩⟩
  · intro k ed hk
    by_cases hlt : k < Q.nextE
    · have ho := inv.oldE k hlt
      have noSpoke : ∀ e ∈ bor, (k = e ∨ ∃ w, touch P w e = true ∧ m w = some k) ↔ k = e := by
        intro e _
        refine ⟨?_, Or.inl⟩
        rintro (h | ⟨w, -, hw⟩)
        · exact h
        · exact absurd (inv.range _ _ hw).1 (by omega)
      by_cases hb : k ∈ bor
      · obtain ⟨ed0, p, q, h1, h2, h3, h4, h5, h6⟩ := borderE k hb
        rw [if_pos hb, cutE k ed0 h1 h2, hk, h6] at ho
        simp only [Option.map_some, Edge.join, reduceCtorEq, if_false, Option.some.injEq] at ho
        subst ho
        have hq : q < Q.nextF := by
          obtain ⟨fc, hf, -⟩ := (h5 q).2 (Or.inr rfl)
          exact hc.newF q (by rw [hf]; simp)
        refine ⟨q, num Q bor k, rfl, rfl, ?_, ?_⟩
        · exact (hq.trans_le (numGe k)).ne
        · intro h
          rw [rside]
          constructor
          · rintro (⟨hv, hs⟩ | ⟨e, he, rfl, hke⟩)
            · rcases (h5 h).1 hs with rfl | rfl
              · exact absurd h3 hv
              · exact Or.inl rfl
            · rw [noSpoke e he] at hke
              subst hke
              exact Or.inr rfl
          · rintro (rfl | rfl)
            · exact Or.inl ⟨h4, (h5 _).2 (Or.inr rfl)⟩
            · exact Or.inr ⟨k, hb, rfl, Or.inl rfl⟩
      · rw [if_neg hb, hk] at ho
        obtain ⟨hi, ed0, h1, rfl⟩ := cutE' k ed ho.symm
        obtain ⟨p, q, h2, h3, h4, h5⟩ := hc.two k ed0 h1
        have hpv := innerFree k hi hb p ((h5 p).2 (Or.inl rfl))
        have hqv := innerFree k hi hb q ((h5 q).2 (Or.inr rfl))
        refine ⟨p, q, ?_, ?_, h4, ?_⟩
        · simp [trim, h2, h3, hit_some, hpv]
        · simp [trim, h2, h3, hit_some, hpv, hqv]
        · intro h
          rw [rside, ← h5 h]
          constructor
          · rintro (⟨-, hs⟩ | ⟨e, he, rfl, hke⟩)
            · exact hs
            · rw [noSpoke e he] at hke
              subst hke
              exact absurd he hb
          · exact fun hs => Or.inl ⟨innerFree k hi hb h hs, hs⟩
    · obtain ⟨w, hw⟩ := inv.live k (by omega) (by rw [hk]; simp)
      have hsp := inv.spokes w k hw
      have hfan : fan Q bor w = (bor.filter (touch P w)).map (num Q bor) := by
        rw [fan, List.filter_congr fun e he => touchQ w e he]
      obtain ⟨e0, he0, ht0⟩ := ex w (by rw [hw]; simp)
      rw [touchQ w e0 he0] at ht0
      have hlen : (bor.filter (touch P w)).length = 2 := by
        rcases deg w with h | h
        · rw [List.length_eq_zero_iff, List.filter_eq_nil_iff] at h
          exact absurd ht0 (h e0 he0)
        · exact h
      obtain ⟨x, y, hxy⟩ := List.length_eq_two.1 hlen
      have hx : x ∈ bor.filter (touch P w) := by rw [hxy]; simp
      have hy : y ∈ bor.filter (touch P w) := by rw [hxy]; simp
      obtain ⟨hxb, hxt⟩ := List.mem_filter.1 hx
      obtain ⟨hyb, hyt⟩ := List.mem_filter.1 hy
      have hne : x ≠ y := by
        have := nb.filter (touch P w)
        rw [hxy] at this
        simpa using this
      rw [hfan, hxy, hk] at hsp
      simp only [List.map_cons, List.map_nil, List.head?_cons, List.length_cons, List.length_nil, Option.some.injEq] at hsp
      subst hsp
      refine ⟨num Q bor x, num Q bor y, rfl, by simp, fun h => hne (numInj x hxb y hyb h), ?_⟩
      intro h
      rw [rside]
      constructor
      · rintro (⟨-, hs⟩ | ⟨e, he, rfl, hke⟩)
        · obtain ⟨ed, hed⟩ := hc.live hs
          have := hc.newE k (by rw [hed]; simp)
          exact absurd this (by omega)
        · rcases hke with rfl | ⟨u, hu, hum⟩
          · obtain ⟨ed, p, q, h1, -⟩ := borderE k he
            have := hc.newE k (by rw [h1]; simp)
            exact absurd this (by omega)
          · have huw := inv.inj _ _ _ hum hw
            subst huw
            have : e ∈ bor.filter (touch P u) := List.mem_filter.2 ⟨he, hu⟩
            rw [hxy] at this
            simp only [List.mem_cons, List.not_mem_nil, or_false] at this
            rcases this with rfl | rfl
            · exact Or.inl rfl
            · exact Or.inr rfl
      · rintro (rfl | rfl)
        · exact Or.inr ⟨x, hxb, rfl, Or.inr ⟨w, hxt, hw⟩⟩
        · exact Or.inr ⟨y, hyb, rfl, Or.inr ⟨w, hyt, hw⟩⟩
  · intro k ed hk
    have hvl : R.verts.length = P.verts.length + 1 := by rw [inv.verts]; simp [hQ, cut]
    by_cases hlt : k < Q.nextE
    · have ho := inv.oldE k hlt
      rw [hk] at ho
      have : ∃ ed0, P.edges k = some ed0 ∧ ed.a = ed0.a ∧ ed.b = ed0.b := by
        split at ho
        · obtain ⟨ed1, h1, h2⟩ := Option.map_eq_some_iff.1 ho.symm
          obtain ⟨-, ed0, h3, rfl⟩ := cutE' k ed1 h1
          refine ⟨ed0, h3, ?_⟩
          rw [← h2, (join_ends _ _).1, (join_ends _ _).2]
          exact ⟨rfl, rfl⟩
        · obtain ⟨-, ed0, h3, rfl⟩ := cutE' k ed ho.symm
          exact ⟨ed0, h3, rfl, rfl⟩
      obtain ⟨ed0, h1, h2, h3⟩ := this
      have := hc.ends k ed0 h1
      omega
    · obtain ⟨w, hw⟩ := inv.live k (by omega) (by rw [hk]; simp)
      have hsp := inv.spokes w k hw
      rw [hk, Option.some.injEq] at hsp
      obtain ⟨e0, he0, ht0⟩ := ex w (by rw [hw]; simp)
      obtain ⟨ed0, p, q, h1, h2, -⟩ := borderE e0 he0
      rw [touchQ w e0 he0] at ht0
      have := hc.ends e0 ed0 h1
      simp only [touch, h1, Bool.or_eq_true, beq_iff_eq] at ht0
      subst hsp
      simp only
      omega
  · intro k hk
    by_cases hlt : k < Q.nextE
    · exact hlt.trans_le inv.nextE
    · obtain ⟨w, hw⟩ := inv.live k (by omega) hk
      exact (inv.range _ _ hw).2
  · intro h hh
    rw [inv.nextF]
    by_contra hcon
    exact hh (inv.noF h (by omega))
  · refine ⟨inv.verts, m, num Q bor, inv.inj, ?_, ?_, fun e he e' he' => numInj e ((mb e).2 he) e' ((mb e').2 he'), ?_, ?_⟩
    · intro w k hw
      obtain ⟨e0, he0, ht0⟩ := ex w (by rw [hw]; simp)
      rw [touchQ w e0 he0] at ht0
      refine ⟨?_, e0, (mb e0).1 he0, touch_iff.1 ht0⟩
      by_contra hcon
      have := hc.newE k hcon
      exact absurd (inv.range _ _ hw).1 (by omega)
    · intro e
      by_contra hcon
      have := hc.newF _ hcon
      exact absurd (numGe e) (by omega)
    · rintro k a b ⟨ed, hk, hab⟩
      by_cases hlt : k < Q.nextE
      · have ho := inv.oldE k hlt
        rw [hk] at ho
        left
        split at ho
        · obtain ⟨ed1, h1, h2⟩ := Option.map_eq_some_iff.1 ho.symm
          obtain ⟨-, ed0, h3, rfl⟩ := cutE' k ed1 h1
          refine ⟨ed0, h3, ?_⟩
          rw [← h2, (join_ends _ _).1, (join_ends _ _).2] at hab
          exact hab
        · obtain ⟨-, ed0, h3, rfl⟩ := cutE' k ed ho.symm
          exact ⟨ed0, h3, hab⟩
      · right
        obtain ⟨w, hw⟩ := inv.live k (by omega) (by rw [hk]; simp)
        have hsp := inv.spokes w k hw
        rw [hk, Option.some.injEq] at hsp
        subst hsp
        refine ⟨w, hw, ?_⟩
        rcases hab with ⟨rfl, rfl⟩ | ⟨rfl, rfl⟩
        · exact Or.inl ⟨rfl, rfl⟩
        · exact Or.inr ⟨rfl, rfl⟩
    · intro k h
      rw [rside]
      simp only [mb, touch_iff]

theorem expand_closed {P : Poly V} (hc : Closed P) {outside flat : ℕ → Bool} {f : ℕ} {s : Patch} (hp : IsPatch P outside flat f s)
    {vis inn bor : List ℕ} (nv : vis.Nodup) (ni : inn.Nodup) (nb : bor.Nodup) (mv : ∀ x, x ∈ vis ↔ x ∈ s.visible)
    (mi : ∀ x, x ∈ inn ↔ x ∈ s.inner) (mb : ∀ x, x ∈ bor ↔ x ∈ s.border)
    (deg : ∀ w, (bor.filter (touch P w)).length = 0 ∨ (bor.filter (touch P w)).length = 2) (v : V) :
    Closed (expand P vis inn bor v) :=
  (expand_shape hc hp nv ni nb mv mi mb deg v).1

theorem foldl_verts {A B : Type*} (g : A → B → A) (φ : A → List V) (h : ∀ a b, φ (g a b) = φ a) (l : List B) (a : A) :
    φ (l.foldl g a) = φ a := by
  induction l generalizing a with
  | nil => rfl
  | cons x l ih => rw [List.foldl_cons, ih, h]

theorem expand_verts {P : Poly V} {vis inn bor : List ℕ} (v : V) : (expand P vis inn bor v).verts = P.verts ++ [v] := by
  have d1 : ∀ (P : Poly V) x, (P.delFace x).verts = P.verts := fun P x => by
    unfold Poly.delFace
    split
    · rfl
    · exact foldl_verts (fun (P : Poly V) e => P.onEdge (Edge.drop x) e) Poly.verts (fun _ _ => rfl) _ _
  have d2 : ∀ (P : Poly V) x, (P.delEdge x).verts = P.verts := fun P x => by
    unfold Poly.delEdge
    split
    · rfl
    · split <;> rfl
  have d3 : ∀ nv w (P : Poly V) m, (spoke nv w P m).1.verts = P.verts := fun nv w P m => by
    unfold spoke
    split <;> rfl
  have d4 : ∀ nv (t : Poly V × (ℕ → Option ℕ)) e, (addSide nv t e).1.verts = t.1.verts := fun nv t e => by
    unfold addSide
    split
    · rfl
    · simp only [Poly.addFace]
      rw [foldl_verts (fun (P : Poly V) e => P.onEdge (Edge.join P.nextF) e) Poly.verts (fun _ _ => rfl), d3, d3]
  unfold expand
  simp only
  rw [foldl_verts _ (fun t : Poly V × (ℕ → Option ℕ) => t.1.verts) (d4 _)]
  simp only [Poly.addVertex]
  rw [foldl_verts _ Poly.verts d2, foldl_verts _ Poly.verts d1]

end Pt
end Fcl
