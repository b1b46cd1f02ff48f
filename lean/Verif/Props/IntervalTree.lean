import Verif.ITree.Spec
import Verif.ITree.QueryLemmas
import Verif.ITree.Unbalanced
import Verif.ITree.Heap
import Mathlib.Algebra.Order.Ring.Int
import Mathlib.Data.Nat.Log
import Mathlib.Data.List.Induction
import Mathlib.Data.List.Nodup
import Mathlib.Tactic.Ring
import Mathlib.Tactic.Linarith

/-!
# C18, C19, C20: the interval tree

`run bot St.empty h = some st` says that no call of the history `h` rotates the sentinel `nil` into
the tree.  `C18_insert_total` shows that insertions never do; `C18_delete_loses` shows that
deletions can, and that queries then miss stored intervals.
-/

set_option linter.unusedSectionVars false

namespace Fcl.ITree

variable {K I : Type*} [LinearOrder K] [DecidableEq I]

theorem stored_snoc (h : List (Op K I)) (o : Op K I) :
    stored (h ++ [o]) = storedStep (stored h) o := by simp [stored]

theorem run_append (bot : K) (st : St K I) (h h' : List (Op K I)) :
    run bot st (h ++ h') = (run bot st h).bind fun s => run bot s h' := by
  induction h generalizing st with
  | nil => rfl
  | cons o h ih =>
    simp only [List.cons_append, run]
    cases step bot st o with
    | none => rfl
    | some s => exact ih s

theorem Lawful.prefix {bot : K} {h : List (Op K I)} {o : Op K I} (hl : Lawful bot (h ++ [o])) :
    Lawful bot h ∧ OpOk bot (stored h) o :=
  ⟨fun p o' s e => hl p o' (s ++ [o]) (by simp [e]), hl h o [] rfl⟩

/-- What a lawful history leaves in the tree. -/
theorem run_spec {bot : K} (h : List (Op K I)) : ∀ st, Lawful bot h →
    run bot St.empty h = some st →
    Inv bot st ∧ (toList st.t).Perm (stored h) ∧ ((stored h).map (·.id)).Nodup ∧
      ∀ a ∈ stored h, a.low ≤ a.high ∧ bot ≤ a.high := by
  induction h using List.reverseRecOn with
  | nil =>
    intro st _ hr
    cases hr
    exact ⟨Inv.empty bot, List.Perm.nil, by simp [stored], by simp [stored]⟩
  | append_singleton h o ih =>
    intro st' hl hr
    obtain ⟨hl0, hok⟩ := hl.prefix
    rw [run_append] at hr
    cases hr0 : run bot St.empty h with
    | none => simp [hr0] at hr
    | some st =>
      obtain ⟨hi, hp, hn, hv⟩ := ih st hl0 hr0
      simp only [hr0, Option.bind_some, run] at hr
      rw [stored_snoc]
      cases o with
      | insert iv =>
        obtain ⟨st1, h1, h2, h3⟩ := insert_spec bot st iv hi hok.2.2
        simp only [step, h1, Option.bind_some, Option.some.injEq] at hr
        subst hr
        refine ⟨h2, h3.trans (hp.cons _), ?_, ?_⟩
        · simp only [storedStep, List.map_cons, List.nodup_cons]
          refine ⟨?_, hn⟩
          simp only [List.mem_map, not_exists, not_and]
          exact hok.1
        · intro a ha
          rcases List.mem_cons.1 ha with rfl | ha
          · exact hok.2
          · exact hv a ha
      | delete i =>
        simp only [step] at hr
        cases hd : delete bot st i with
        | none => simp [hd] at hr
        | some st1 =>
          simp only [hd, Option.bind_some, Option.some.injEq] at hr
          subst hr
          obtain ⟨h2, a, ha, h3⟩ := delete_spec hi hd
          have hq := h3.trans hp
          have hfil : ((a :: toList st1.t).filter fun b => decide (b.id ≠ i)).Perm
              (storedStep (stored h) (.delete i)) := hq.filter _
          have hnd : ((a :: toList st1.t).map (·.id)).Nodup := (hq.map _).nodup_iff.2 hn
          rw [List.map_cons, List.nodup_cons] at hnd
          have hself : (toList st1.t).filter (fun b => decide (b.id ≠ i)) = toList st1.t := by
            refine List.filter_eq_self.2 fun b hb => ?_
            have : b.id ≠ i := by
              rintro rfl
              exact hnd.1 (List.mem_map.2 ⟨b, hb, ha.symm⟩)
            simpa using this
          rw [List.filter_cons_of_neg (by simp [ha]), hself] at hfil
          refine ⟨h2, hfil, (List.filter_sublist.map _).nodup hn, fun b hb => hv b ?_⟩
          exact (List.mem_filter.1 hb).1

theorem hit_iff {lo hi : K} {a : Ivl K I} (h : lo ≤ hi) (ha : a.low ≤ a.high) :
    hit lo hi a = true ↔ Meets lo hi a := by
  simp only [hit, overlap, Meets]
  constructor
  · split
    · rename_i h1
      intro h2
      exact ⟨a.low, h1, of_decide_eq_true h2, le_rfl, ha⟩
    · rename_i h1
      intro h2
      exact ⟨lo, le_rfl, h, (not_le.1 h1).le, of_decide_eq_true h2⟩
  · rintro ⟨x, h1, h2, h3, h4⟩
    split
    · exact decide_eq_true (h3.trans h2)
    · exact decide_eq_true (h1.trans h4)

/-- **C18** (part).  After every lawful history that does not rotate the sentinel into the tree,
`query(lo, hi)` with `lo > -DBL_MAX` terminates and returns every stored interval that meets
`[lo, hi]`, once, and nothing else.  Missing from the full property: histories in which a
deletion rotates the sentinel (false there, `C18_delete_loses`). -/
theorem C18_query_partial {bot : K} {h : List (Op K I)} {st : St K I} (hl : Lawful bot h)
    (hr : run bot St.empty h = some st) {lo hi : K} (hlo : bot < lo) (hle : lo ≤ hi) :
    ∃ l, query bot st lo hi = some l ∧ l.Nodup ∧ ∀ a, a ∈ l ↔ a ∈ stored h ∧ Meets lo hi a := by
  obtain ⟨hi', hp, hn, hv⟩ := run_spec h st hl hr
  have hvt : ∀ a ∈ toList st.t, a.low ≤ a.high := fun a ha => (hv a (hp.mem_iff.1 ha)).1
  have hperm := visit_perm hlo hi'.aug hi'.sorted hvt (hi := hi)
  refine ⟨_, query_eq_visit bot lo hi st, ?_, fun a => ?_⟩
  · refine hperm.nodup_iff.2 (List.Nodup.filter _ (hp.nodup_iff.2 ?_))
    exact List.Nodup.of_map _ hn
  · rw [hperm.mem_iff, List.mem_filter, hp.mem_iff]
    constructor
    · rintro ⟨h1, h2⟩; exact ⟨h1, (hit_iff hle (hv a h1).1).1 h2⟩
    · rintro ⟨h1, h2⟩; exact ⟨h1, (hit_iff hle (hv a h1).1).2 h2⟩

/-- **C18** (insertions).  A lawful history of insertions never leaves the world of trees, so for
such histories the query is exact without further hypotheses. -/
theorem C18_insert_total {bot : K} (ivs : List (Ivl K I)) (hl : Lawful bot (ivs.map Op.insert)) :
    ∃ st, run bot St.empty (ivs.map Op.insert) = some st := by
  induction ivs using List.reverseRecOn with
  | nil => exact ⟨_, rfl⟩
  | append_singleton ivs iv ih =>
    rw [List.map_append, List.map_singleton] at hl ⊢
    obtain ⟨hl0, hok⟩ := hl.prefix
    obtain ⟨st, hr⟩ := ih hl0
    obtain ⟨hi, -⟩ := run_spec _ st hl0 hr
    obtain ⟨st1, h1, -⟩ := insert_spec bot st iv hi hok.2.2
    exact ⟨st1, by rw [run_append, hr]; simp [run, step, h1]⟩

/-- An insertion into a tree reached without rotating the sentinel never rotates it. -/
theorem C18_insert_after {bot : K} {h : List (Op K I)} {st : St K I} (hl : Lawful bot h)
    (hr : run bot St.empty h = some st) (iv : Ivl K I) (hb : bot ≤ iv.high) :
    ∃ st', run bot St.empty (h ++ [.insert iv]) = some st' := by
  obtain ⟨hi, -⟩ := run_spec _ st hl hr
  obtain ⟨st1, h1, -⟩ := insert_spec bot st iv hi hb
  exact ⟨st1, by rw [run_append, hr]; simp [run, step, h1]⟩

/-- **C19** (part, same restriction as C18).  The in-order sequence is sorted by left end, holds
exactly the stored intervals, and the maximum recorded at every node is the largest right end
below it. -/
theorem C19_ordered_augmented_partial {bot : K} {h : List (Op K I)} {st : St K I}
    (hl : Lawful bot h) (hr : run bot St.empty h = some st) :
    (toList st.t).Pairwise (fun a b => a.low ≤ b.low) ∧ (toList st.t).Perm (stored h) ∧
      ∀ l d r, Sub (.node l d r) st.t →
        (∃ a ∈ toList (.node l d r), a.high = d.mh) ∧
          ∀ a ∈ toList (.node l d r), a.high ≤ d.mh := by
  obtain ⟨hi', hp, hn, hv⟩ := run_spec h st hl hr
  refine ⟨hi'.sorted, hp, ?_⟩
  have hb : ∀ a ∈ toList st.t, bot ≤ a.high := fun a ha => (hv a (hp.mem_iff.1 ha)).2
  have haug := hi'.aug
  generalize st.t = t at hb haug
  have main : ∀ (s t : T K I), Sub s t → (∀ a ∈ toList t, bot ≤ a.high) → MHok bot t →
      (∀ a ∈ toList s, bot ≤ a.high) ∧ MHok bot s := by
    intro s t hs
    induction hs with
    | refl => exact fun h1 h2 => ⟨h1, h2⟩
    | left _ ih => exact fun h1 h2 => ih (fun a ha => h1 a (by simp [toList, ha])) h2.2.1
    | right _ ih => exact fun h1 h2 => ih (fun a ha => h1 a (by simp [toList, ha])) h2.2.2
  have top : ∀ t : T K I, (∀ a ∈ toList t, bot ≤ a.high) → MHok bot t →
      (∀ a ∈ toList t, a.high ≤ mh bot t) ∧ (t = .nil ∨ ∃ a ∈ toList t, a.high = mh bot t) := by
    intro t hb hm
    refine ⟨fun a ha => ?_, ?_⟩
    · by_contra hc
      exact absurd (mh_lt hm (not_le.1 hc) a ha) (lt_irrefl _)
    · induction t with
      | nil => exact Or.inl rfl
      | node l d r ihl ihr =>
        right
        obtain ⟨e, hml, hmr⟩ := hm
        have il := ihl (fun a ha => hb a (by simp [toList, ha])) hml
        have ir := ihr (fun a ha => hb a (by simp [toList, ha])) hmr
        have hd := hb d.ivl (by simp [toList])
        have em : mh bot (.node l d r) = max (mh bot l) (max (mh bot r) d.ivl.high) := e
        rw [em]
        rcases max_choice (mh bot l) (max (mh bot r) d.ivl.high) with h1 | h1
        · rcases il with rfl | ⟨a, ha, hae⟩
          · refine ⟨d.ivl, by simp [toList], le_antisymm (le_max_of_le_right (le_max_right _ _)) ?_⟩
            rw [h1]; exact hd
          · exact ⟨a, by simp [toList, ha], hae.trans h1.symm⟩
        · rw [h1]
          rcases max_choice (mh bot r) d.ivl.high with h2 | h2
          · rcases ir with rfl | ⟨a, ha, hae⟩
            · refine ⟨d.ivl, by simp [toList], le_antisymm (le_max_right _ _) ?_⟩
              rw [h2]; exact hd
            · exact ⟨a, by simp [toList, ha], hae.trans h2.symm⟩
          · exact ⟨d.ivl, by simp [toList], h2.symm⟩
  intro l d r hs
  obtain ⟨h1, h2⟩ := main _ _ hs hb haug
  obtain ⟨h3, h4⟩ := top _ h1 h2
  refine ⟨?_, h3⟩
  rcases h4 with h4 | h4
  · cases h4
  · exact h4

/-! ### C20 -/

theorem desc_shape {bot : K} (ivs : List (Ivl K I)) (hl : Lawful bot (ivs.map Op.insert))
    (hdec : ivs.Pairwise fun a b => b.low < a.low) (k : ℕ) :
    (ivs.length = 2 * k + 3 → ∃ st, run bot St.empty (ivs.map Op.insert) = some st ∧ OddShape k st) ∧
    (ivs.length = 2 * k + 4 → ∃ st, run bot St.empty (ivs.map Op.insert) = some st ∧
      EvenShape k st) := by
  have below : ∀ (jvs : List (Ivl K I)) (iv : Ivl K I) (st : St K I),
      Lawful bot (jvs.map Op.insert) → run bot St.empty (jvs.map Op.insert) = some st →
      (∀ a ∈ jvs, iv.low < a.low) → Inv bot st ∧ ∀ a ∈ toList st.t, iv.low < a.low := by
    intro jvs iv st h1 h2 h3
    obtain ⟨hi, hp, -⟩ := run_spec _ st h1 h2
    refine ⟨hi, fun a ha => h3 a ?_⟩
    have hs : stored (jvs.map Op.insert) = jvs.reverse := by
      clear hp h1 h2 h3 hi hl hdec
      induction jvs using List.reverseRecOn with
      | nil => rfl
      | append_singleton l x ih =>
        rw [List.map_append, List.map_singleton, stored_snoc, ih]
        simp [storedStep]
    have := hp.mem_iff.1 ha
    rw [hs] at this
    simpa using this
  have snocCase : ∀ (n : ℕ) (jvs : List (Ivl K I)), jvs.length = n + 1 →
      ∃ l x, jvs = l ++ [x] ∧ l.length = n := by
    intro n jvs hn
    rcases List.eq_nil_or_concat jvs with rfl | ⟨l, x, rfl⟩
    · simp at hn
    · exact ⟨l, x, by simp, by simpa using hn⟩
  have stepEven : ∀ (k : ℕ) (jvs : List (Ivl K I)), Lawful bot (jvs.map Op.insert) →
      jvs.Pairwise (fun a b => b.low < a.low) → jvs.length = 2 * k + 4 →
      (∀ jvs : List (Ivl K I), Lawful bot (jvs.map Op.insert) →
        jvs.Pairwise (fun a b => b.low < a.low) → jvs.length = 2 * k + 3 →
        ∃ st, run bot St.empty (jvs.map Op.insert) = some st ∧ OddShape k st) →
      ∃ st, run bot St.empty (jvs.map Op.insert) = some st ∧ EvenShape k st := by
    intro k jvs hl hd hn hodd
    obtain ⟨l, x, rfl, hll⟩ := snocCase _ _ hn
    rw [List.map_append, List.map_singleton] at hl ⊢
    obtain ⟨hl0, hok⟩ := hl.prefix
    rw [List.pairwise_append] at hd
    obtain ⟨st, hr, hsh⟩ := hodd l hl0 hd.1 hll
    obtain ⟨hi, hb⟩ := below l x st hl0 hr fun a ha => hd.2.2 a ha x (by simp)
    obtain ⟨st', h1, h2⟩ := odd_insert hsh hi hb
    exact ⟨st', by rw [run_append, hr]; simp [run, step, h1], h2⟩
  have odd : ∀ (k : ℕ) (jvs : List (Ivl K I)), Lawful bot (jvs.map Op.insert) →
      jvs.Pairwise (fun a b => b.low < a.low) → jvs.length = 2 * k + 3 →
      ∃ st, run bot St.empty (jvs.map Op.insert) = some st ∧ OddShape k st := by
    intro k
    induction k with
    | zero =>
      intro jvs hl hd hn
      match jvs, hn, hl, hd with
      | [a, b, c], _, hl, hd =>
        simp only [List.pairwise_cons, List.mem_cons, List.not_mem_nil, or_false] at hd
        obtain ⟨h1, h2, -⟩ := hd
        have hba : a.low > b.low := h1 b (Or.inl rfl)
        have hca : a.low > c.low := h1 c (Or.inr rfl)
        have hcb : b.low > c.low := h2 c rfl
        simp only [List.map_cons, List.map_nil, run, step, insert, St.empty, descend, fixPath,
          insFix, setRed, Option.bind_some, plug, Nd.col, hba, hca, hcb, if_true, if_false,
          Bool.false_eq_true, Bool.not_true, isRed, rightRotate, mk, Nd.upd]
        exact ⟨_, rfl, rfl, _, _, _, [], rfl, ⟨_, rfl, rfl⟩, by simp [Spine], rfl, rfl⟩
    | succ k ih =>
      intro jvs hl hd hn
      obtain ⟨l, x, rfl, hll⟩ := snocCase (2 * k + 4) jvs (by omega)
      rw [List.map_append, List.map_singleton] at hl ⊢
      obtain ⟨hl0, hok⟩ := hl.prefix
      rw [List.pairwise_append] at hd
      obtain ⟨st, hr, hsh⟩ := stepEven k l hl0 hd.1 hll ih
      obtain ⟨hi, hb⟩ := below l x st hl0 hr fun a ha => hd.2.2 a ha x (by simp)
      obtain ⟨st', h1, h2⟩ := even_insert (bot := bot) hsh hb
      exact ⟨st', by rw [run_append, hr]; simp [run, step, h1], h2⟩
  exact ⟨fun hn => odd k ivs hl hdec hn, fun hn => stepEven k ivs hl hdec hn (odd k)⟩

/-- **C20** (negation).  Inserting any list of intervals in strictly decreasing order of left ends
gives a tree whose height is at least half the number of intervals. -/
theorem C20_linear_height {bot : K} (ivs : List (Ivl K I)) (hl : Lawful bot (ivs.map Op.insert))
    (hdec : ivs.Pairwise fun a b => b.low < a.low) (hn : 3 ≤ ivs.length) :
    ∃ st, run bot St.empty (ivs.map Op.insert) = some st ∧ ivs.length ≤ 2 * st.t.height := by
  rcases Nat.even_or_odd' (ivs.length - 3) with ⟨k, hk | hk⟩
  · obtain ⟨st, hr, -, x, b, s, p, -, -, -, hlen, ht⟩ :=
      (desc_shape ivs hl hdec k).1 (by omega)
    refine ⟨st, hr, ?_⟩
    have := height_plug (.node (.node .nil x .nil) b s) p
    rw [← ht] at this
    simp only [T.height] at this
    omega
  · obtain ⟨st, hr, -, x, a, b, s, p, -, -, -, -, hlen, ht⟩ :=
      (desc_shape ivs hl hdec k).2 (by omega)
    refine ⟨st, hr, ?_⟩
    have := height_plug (.node (.node (.node .nil x .nil) a .nil) b s) p
    rw [← ht] at this
    simp only [T.height] at this
    omega

/-- `n` intervals `[-i, 0]`. -/
def descending (n : ℕ) : List (Ivl ℤ ℕ) := (List.range n).map fun i => ⟨i, -i, 0⟩

theorem stored_inserts (ivs : List (Ivl K I)) : stored (ivs.map Op.insert) = ivs.reverse := by
  induction ivs using List.reverseRecOn with
  | nil => rfl
  | append_singleton l x ih =>
    rw [List.map_append, List.map_singleton, stored_snoc, ih]
    simp [storedStep]

/-- Inserting distinct proper intervals is lawful. -/
theorem lawful_inserts {bot : K} (ivs : List (Ivl K I)) (hn : (ivs.map (·.id)).Nodup)
    (hv : ∀ a ∈ ivs, a.low ≤ a.high ∧ bot ≤ a.high) : Lawful bot (ivs.map Op.insert) := by
  intro p o s e
  obtain ⟨l1, l2, e1, e2, e3⟩ := List.map_eq_append_iff.1 e
  obtain ⟨iv, l3, e4, e5, e6⟩ := List.map_eq_cons_iff.1 e3
  subst e1 e4 e2 e5
  rw [stored_inserts]
  refine ⟨fun a ha => ?_, hv iv (by simp)⟩
  rw [List.map_append, List.nodup_append] at hn
  exact hn.2.2 a.id (List.mem_map.2 ⟨a, by simpa using ha, rfl⟩) iv.id (by simp)

theorem descending_lawful (n : ℕ) : Lawful (-1 : ℤ) ((descending n).map Op.insert) := by
  refine lawful_inserts _ ?_ ?_
  · simpa [descending, List.map_map, Function.comp_def] using List.nodup_range (n := n)
  · intro a ha
    simp only [descending, List.mem_map] at ha
    obtain ⟨i, -, rfl⟩ := ha
    exact ⟨by simp, by simp⟩

/-- **C20** (negation).  No multiple of the logarithm bounds the height: the tree is not
balanced. -/
theorem C20_not_logarithmic (c : ℕ) : ∃ (n : ℕ) (h : List (Op ℤ ℕ)) (st : St ℤ ℕ),
    Lawful (-1) h ∧ h.length = n ∧ run (-1) St.empty h = some st ∧
      c * Nat.log 2 (n + 1) < st.t.height := by
  let m := 4 * c + 4
  let n := 2 ^ (2 * m + 1) - 1
  have h2 : 2 ^ (2 * m + 1) = 2 * (2 ^ m * 2 ^ m) := by rw [pow_succ, two_mul m, pow_add]; ring
  have hm : m + 1 ≤ 2 ^ m := Nat.lt_two_pow_self
  have hmm : (m + 1) * (m + 1) ≤ 2 ^ m * 2 ^ m := Nat.mul_le_mul hm hm
  have hn1 : n + 1 = 2 ^ (2 * m + 1) := Nat.sub_add_cancel (Nat.one_le_two_pow)
  have hlen : (descending n).length = n := by simp [descending]
  have h25 : 25 ≤ (m + 1) * (m + 1) := by
    have : 5 ≤ m + 1 := by simp only [m]; omega
    exact Nat.mul_le_mul this this
  have hdec : (descending n).Pairwise fun a b => b.low < a.low := by
    rw [descending, List.pairwise_map]
    refine List.Pairwise.imp ?_ (List.pairwise_lt_range (n := n))
    intro a b hab
    simp only
    omega
  obtain ⟨st, hr, hh⟩ := C20_linear_height (descending n) (descending_lawful n) hdec
    (by rw [hlen]; omega)
  refine ⟨n, _, st, descending_lawful n, by simp [hlen], hr, ?_⟩
  rw [hn1, Nat.log_pow (by norm_num)]
  rw [hlen] at hh
  have : c * (2 * m + 1) < (m + 1) * (m + 1) := by
    simp only [m]
    nlinarith
  omega

/-- **C20** (part): the top node is black after every history; the rules inside the tree fail. -/
theorem C20_top_black_partial {bot : K} {h : List (Op K I)} {st : St K I} (hl : Lawful bot h)
    (hr : run bot St.empty h = some st) : ∀ l d r, st.t = .node l d r → d.red = false := by
  intro l d r e
  have := (run_spec h st hl hr).1.top
  rw [e] at this
  exact this

/-! ### The effect of rotating the sentinel, on the pointer heap -/

/-- Eleven calls: seven insertions and four deletions of stored intervals. -/
def losing : List (Op ℤ ℕ) :=
  [.insert ⟨0, 3, 19⟩, .insert ⟨1, 25, 25⟩, .insert ⟨2, 35, 36⟩, .insert ⟨3, 24, 39⟩,
   .insert ⟨4, 23, 23⟩, .delete 3, .insert ⟨5, 34, 38⟩, .delete 4, .insert ⟨6, 31, 46⟩,
   .delete 0, .delete 6]

/-- A decidable form of `Lawful`. -/
def lawfulB (bot : ℤ) : List (Ivl ℤ ℕ) → List (Op ℤ ℕ) → Bool
  | _, [] => true
  | l, o :: h => (match o with
    | .insert iv => l.all (fun a => decide (a.id ≠ iv.id)) && decide (iv.low ≤ iv.high ∧ bot ≤ iv.high)
    | .delete i => l.any fun a => decide (a.id = i)) && lawfulB bot (storedStep l o) h

theorem lawfulB_sound {bot : ℤ} (h : List (Op ℤ ℕ)) : ∀ l, lawfulB bot l h = true →
    ∀ p o s, h = p ++ o :: s → OpOk bot (p.foldl storedStep l) o := by
  induction h with
  | nil => intro l _ p o s e; simp at e
  | cons o' h ih =>
    intro l hb p o s e
    simp only [lawfulB, Bool.and_eq_true] at hb
    cases p with
    | nil =>
      simp only [List.nil_append, List.cons.injEq] at e
      obtain ⟨rfl, rfl⟩ := e
      cases o' with
      | insert iv => simpa [OpOk] using hb.1
      | delete i => simpa [OpOk] using hb.1
    | cons o'' p =>
      simp only [List.cons_append, List.cons.injEq] at e
      obtain ⟨rfl, rfl⟩ := e
      exact ih _ hb.2 p o s rfl

/-- **C18** (negation).  A lawful history of eleven calls after which `query(0, 100)`, which meets
every interval stored, returns only one of the three. -/
theorem C18_delete_loses : Lawful (-1000) losing ∧
    (stored losing).map (·.id) = [5, 2, 1] ∧ (∀ a ∈ stored losing, Meets 0 100 a) ∧
    ∃ m, Heap.run (-1000) (Heap.init (-1000) 1000) losing = some m ∧
      Heap.query (-1000) m 0 100 = some [some ⟨2, 35, 36⟩] := by
  refine ⟨lawfulB_sound _ _ (by decide +kernel), by decide +kernel, ?_, ?_⟩
  · have : stored losing = [⟨5, 34, 38⟩, ⟨2, 35, 36⟩, ⟨1, 25, 25⟩] := by decide +kernel
    rw [this]
    intro a ha
    refine ⟨a.low, ?_⟩
    simp only [List.mem_cons, List.not_mem_nil, or_false] at ha
    rcases ha with rfl | rfl | rfl <;> norm_num
  · have h1 : ((Heap.run (-1000) (Heap.init (-1000) 1000) losing).map fun m =>
        Heap.query (-1000) m 0 100) = some (some [some ⟨2, 35, 36⟩]) := by decide +kernel
    exact Option.map_eq_some_iff.1 h1

/-- The tree model stops exactly at the last deletion of that history. -/
theorem C18_sentinel_rotated : run (-1000) St.empty losing = none ∧
    (run (-1000) St.empty (losing.take 10)).isSome = true := by decide +kernel

/-! ### The hypotheses are met -/

/-- A history with insertions and deletions that stays in the world of trees. -/
def exampleHistory : List (Op ℤ ℕ) :=
  [.insert ⟨0, 3, 19⟩, .insert ⟨1, 25, 25⟩, .insert ⟨2, 35, 36⟩, .insert ⟨3, 24, 39⟩,
   .insert ⟨4, 23, 23⟩, .delete 3, .insert ⟨5, 34, 38⟩, .delete 0]

example : ∃ st, Lawful (-1000) exampleHistory ∧ run (-1000) St.empty exampleHistory = some st ∧
    (query (-1000) st 24 30).map (·.map (·.id)) = some [1] ∧
    (query (-1000) st 20 36).map (·.map (·.id)) = some [5, 1, 4, 2] := by
  have h : ((run (-1000) St.empty exampleHistory).map fun st =>
      ((query (-1000) st 24 30).map (·.map (·.id)), (query (-1000) st 20 36).map (·.map (·.id)))) =
        some (some [1], some [5, 1, 4, 2]) := by decide +kernel
  obtain ⟨st, hr, e⟩ := Option.map_eq_some_iff.1 h
  simp only [Prod.mk.injEq] at e
  exact ⟨st, lawfulB_sound _ _ (by decide +kernel), hr, e.1, e.2⟩

example : 3 ≤ (descending 5).length ∧ (descending 5).Pairwise (fun a b => b.low < a.low) := by
  decide +kernel

/-- With `lo = -DBL_MAX` the hypothesis `bot < lo` of C18 fails, and so does the result: the
sentinel's recorded maximum is then not below the query, and the right subtree is skipped. -/
theorem C18_low_end : ((run (0 : ℤ) St.empty [.insert ⟨0, 5, 6⟩, .insert ⟨1, 7, 8⟩]).bind fun st =>
    query 0 st 0 100) = some [(⟨0, 5, 6⟩ : Ivl ℤ ℕ)] := by decide +kernel

end Fcl.ITree
