import Verif.BVH.Expand
import Verif.Props.BVH
import Verif.Props.RSSFit
import Mathlib.Tactic.FinCases
import Mathlib.Data.Fin.VecNotation
import Mathlib.Tactic.FieldSimp
import Mathlib.Tactic.Linarith

/-!
# C117: the expansion of a hierarchy of uncertain points
-/

namespace Fcl
variable {V K : Type*} [Field K] [LinearOrder K] [IsStrictOrderedRing K]

/-- The volume holds every position of point `p` that is at most `r` deviations away along one of the three principal
axes of its uncertainty; with deviation 0 this is the point itself. -/
def HoldsUncertain (pts : V → Set (V3 K)) (verts : List (V3 K)) (ucs : List (Variance3 K)) (r : K) (bv : V) (p : ℕ) :
    Prop :=
  ∃ v u, verts[p]? = some v ∧ ucs[p]? = some u ∧ ∀ (k : Fin 3) (s : K), -r ≤ s → s ≤ r →
    v + (s * u.sigma k) • u.axis k ∈ pts bv

/-- Every volume that the fit gives for six or more points holds them and is convex. -/
def FitHolds (fit : List (V3 K) → Option V) (pts : V → Set (V3 K)) : Prop :=
  ∀ l b, 6 ≤ l.length → fit l = some b → (∀ x ∈ l, x ∈ pts b) ∧
    ∀ p q, p ∈ pts b → q ∈ pts b → ∀ t : K, 0 ≤ t → t ≤ 1 → (1 - t) • p + t • q ∈ pts b

section
variable {fit : List (V3 K) → Option V} {pts : V → Set (V3 K)} {verts : List (V3 K)} {ucs : List (Variance3 K)} {r : K}

private theorem between {S : Set (V3 K)}
    (hs : ∀ p q, p ∈ S → q ∈ S → ∀ t : K, 0 ≤ t → t ≤ 1 → (1 - t) • p + t • q ∈ S) {v d : V3 K} (c : K)
    (h1 : v + (r * c) • d ∈ S) (h2 : v - (r * c) • d ∈ S) {s : K} (l1 : -r ≤ s) (l2 : s ≤ r) : v + (s * c) • d ∈ S := by
  rcases eq_or_ne r 0 with rfl | h0
  · have : s = 0 := le_antisymm l2 (by simpa using l1)
    subst this
    exact h1
  · have hr : 0 < r := lt_of_le_of_ne (by linarith) (Ne.symm h0)
    have := hs _ _ h2 h1 ((s + r) / (2 * r)) (div_nonneg (by linarith) (by linarith))
      ((div_le_one (by linarith)).2 (by linarith))
    convert this using 1
    apply V3.ext' <;> simp only [V3.add_x, V3.add_y, V3.add_z, V3.smul_x, V3.smul_y, V3.smul_z, V3.sub_x, V3.sub_y, V3.sub_z] <;>
      field_simp <;> ring

omit [LinearOrder K] [IsStrictOrderedRing K] in
private theorem expandPoints_some {k id : ℕ} {l : List (V3 K)} (h : expandPoints verts ucs r k id = some l) :
    l.length = 6 * k ∧ ∀ p, id ≤ p → p < id + k → ∃ v u, verts[p]? = some v ∧ ucs[p]? = some u ∧
      ∀ x ∈ u.points r v, x ∈ l := by
  induction k generalizing id l with
  | zero =>
    simp only [expandPoints, Option.some.injEq] at h
    subst h
    exact ⟨rfl, fun p h1 h2 => absurd h2 (by omega)⟩
  | succ k ih =>
    simp only [expandPoints] at h
    split at h
    · next v u l' e1 e2 e3 =>
      obtain rfl := Option.some.inj h
      obtain ⟨hl, hm⟩ := ih e3
      refine ⟨by simp [Variance3.points, hl]; omega, fun p h1 h2 => ?_⟩
      rcases Nat.lt_or_ge id p with hp | hp
      · obtain ⟨v', u', e4, e5, h6⟩ := hm p hp (by omega)
        exact ⟨v', u', e4, e5, fun x hx => List.mem_append_right _ (h6 x hx)⟩
      · obtain rfl : p = id := by omega
        exact ⟨v, u, e1, e2, fun x hx => List.mem_append_left _ hx⟩
    · simp at h

private theorem volume_holds (hf : FitHolds fit pts) {k id : ℕ} {l : List (V3 K)} {b : V} (hk : 1 ≤ k)
    (h : expandPoints verts ucs r k id = some l) (hb : fit l = some b) :
    ∀ p, id ≤ p → p < id + k → HoldsUncertain pts verts ucs r b p := by
  intro p h1 h2
  obtain ⟨hl, hm⟩ := expandPoints_some h
  obtain ⟨v, u, e1, e2, hx⟩ := hm p h1 h2
  obtain ⟨hin, hc⟩ := hf l b (by omega) hb
  refine ⟨v, u, e1, e2, fun k s l1 l2 => ?_⟩
  have hm : ∀ x ∈ u.points r v, x ∈ pts b := fun x h => hin x (hx x h)
  fin_cases k <;> exact between hc _ (hm _ (by simp [Variance3.points])) (hm _ (by simp [Variance3.points])) l1 l2

omit [LinearOrder K] [IsStrictOrderedRing K] in
private theorem bvhExpand_keep (k i : ℕ) (b b' : List (BVNode V)) (j : ℕ) (h : bvhExpand fit verts ucs r k i b = some b')
    (hj : j < i) : b'[j]? = b[j]? := by
  induction k generalizing i b with
  | zero => simp only [bvhExpand, Option.some.injEq] at h; rw [h]
  | succ k ih =>
    simp only [bvhExpand] at h
    split at h
    · simp at h
    · split at h
      · simp at h
      · split at h
        · simp at h
        · rw [ih _ _ h (by omega), List.getElem?_set_ne (by omega)]

omit [LinearOrder K] [IsStrictOrderedRing K] in
private theorem bvhExpand_spec (k i : ℕ) (bvs bvs' : List (BVNode V)) (h : bvhExpand fit verts ucs r k i bvs = some bvs') :
    SameTopology bvs bvs' ∧ ∀ (j : ℕ) (n : BVNode V), bvs[j]? = some n → i ≤ j → j < i + k →
      ∃ l bv, expandPoints verts ucs r n.numPrimitives n.firstPrimitive = some l ∧ fit l = some bv ∧
        bvs'[j]? = some { n with bv := bv } := by
  induction k generalizing i bvs with
  | zero =>
    simp only [bvhExpand, Option.some.injEq] at h
    subst h
    exact ⟨.refl _, fun j n _ h1 h2 => absurd h2 (by omega)⟩
  | succ k ih =>
    have h0 := h
    simp only [bvhExpand] at h
    split at h
    · simp at h
    · next n hi =>
      split at h
      · simp at h
      · next l el =>
        split at h
        · simp at h
        · next bv eb =>
          obtain ⟨s, hall⟩ := ih _ _ h
          have hlt := (List.getElem?_eq_some_iff.1 hi).1
          refine ⟨(SameTopology.set hi _).trans s, fun j m hm h1 h2 => ?_⟩
          by_cases hij : i = j
          · subst hij
            obtain rfl := Option.some.inj (hi.symm.trans hm)
            exact ⟨l, bv, el, eb, by rw [bvhExpand_keep _ _ _ _ _ h (by omega), List.getElem?_set_self hlt]⟩
          · exact hall j m (by rw [List.getElem?_set_ne hij]; exact hm) (by omega) (by omega)

/-- The tree after a change of the volumes: the volume of each node is good for the numbers of its range. -/
private theorem tree_spec {prims : List ℕ} {bvs bvs' : List (BVNode V)} {id first num : ℕ} {ids : List ℕ} {t : BT V ℕ}
    {Q : V → ℕ → Prop} (h : IsTree bvs prims id first num ids t)
    (hb : ∀ j n, j ∈ ids → bvs[j]? = some n → ∃ bv, bvs'[j]? = some { n with bv := bv } ∧
      ∀ p, n.firstPrimitive ≤ p → p < n.firstPrimitive + n.numPrimitives → Q bv p) :
    ∃ t', IsTree bvs' prims id first num ids t' ∧ t'.shape = t.shape ∧
      (∀ p, first ≤ p → p < first + num → Q t'.bv p) ∧
      ∀ u, BT.Below u t' → ∃ f k, first ≤ f ∧ f + k ≤ first + num ∧ (prims.drop f).take k = u.prims ∧
        ∀ p, f ≤ p → p < f + k → Q u.bv p := by
  induction h with
  | @leaf id first bv p hn hp =>
    obtain ⟨b, e, h⟩ := hb id _ (by simp) hn
    have ht : IsTree bvs' prims id first 1 [id] (.leaf b p) := .leaf e hp
    refine ⟨_, ht, rfl, h, fun u hu => ?_⟩
    cases hu with
    | refl => exact ⟨first, 1, le_rfl, le_rfl, ht.range, h⟩
  | @node id first num n1 n2 c ids1 ids2 bv l r hn hl hr hnum ihl ihr =>
    obtain ⟨b, e, h⟩ := hb id _ (by simp) hn
    obtain ⟨l', tl, sl, -, bl⟩ := ihl fun j n hj => hb j n (by simp [hj])
    obtain ⟨r', tr, sr, -, br⟩ := ihr fun j n hj => hb j n (by simp [hj])
    have ht := IsTree.node e tl tr hnum
    refine ⟨_, ht, by simp [BT.shape, sl, sr], h, fun u hu => ?_⟩
    cases hu with
    | refl => exact ⟨first, num, le_rfl, le_rfl, ht.range, h⟩
    | left hu =>
      obtain ⟨f, k, h1, h2, h3⟩ := bl u hu
      exact ⟨f, k, h1, by omega, h3⟩
    | right hu =>
      obtain ⟨f, k, h1, h2, h3⟩ := br u hu
      exact ⟨f, k, by omega, by omega, h3⟩

/-- **C117.** For every hierarchy of `n` points, and every kind of volume whose fit holds the points: when the expansion
gives a result, it has changed nothing but the volumes, and the volume of the root holds every uncertain point. If
moreover the construction left the points in the order in which they were given, then the volume of every node holds
every uncertain point below it. **Missing:** the last statement for the other orders, where it is false:
`C117_violated_order`. -/
theorem C117_expand_partial (hf : FitHolds fit pts) {bvs bvs' : List (BVNode V)} {prims ids : List ℕ} {t : BT V ℕ} {n : ℕ}
    (h : IsTree bvs prims 0 0 n ids t) (hids : ids.Perm (List.range (2 * n - 1)))
    (hr : bvhExpand fit verts ucs r (2 * n - 1) 0 bvs = some bvs') :
    ∃ t', SameTopology bvs bvs' ∧ IsTree bvs' prims 0 0 n ids t' ∧ t'.shape = t.shape ∧
      (∀ p < n, HoldsUncertain pts verts ucs r t'.bv p) ∧
      (prims.take n = List.range n → Enclosing (HoldsUncertain pts verts ucs r) t') := by
  have hpos : ∀ (j : ℕ) (m : BVNode V), j ∈ ids → bvs[j]? = some m → 1 ≤ m.numPrimitives := by
    intro j m hj hm
    obtain ⟨u, i, f, k, is, hu, -, e⟩ := h.of_slot hj hm
    rw [e]
    exact hu.pos
  obtain ⟨s, hb⟩ := bvhExpand_spec _ _ _ _ hr
  obtain ⟨t', ht, sh, root, below⟩ := tree_spec (Q := HoldsUncertain pts verts ucs r) h fun j m hj hm => by
    have := List.mem_range.1 (hids.mem_iff.1 hj)
    obtain ⟨l, bv, el, eb, e1⟩ := hb j m hm (by omega) (by omega)
    exact ⟨bv, e1, volume_holds hf (hpos j m hj hm) el eb⟩
  refine ⟨t', s, ht, sh, fun p hp => root p (by omega) (by omega), fun hord u hu' p hp => ?_⟩
  obtain ⟨f, k, -, h2, h3, h4⟩ := below u hu'
  rw [← h3] at hp
  obtain ⟨i, hi, ei⟩ := List.mem_iff_getElem.1 hp
  have hik : i < k := by simp at hi; omega
  have e1 : prims[f + i]? = some p := by
    rw [← ei, ← List.getElem?_eq_getElem hi, List.getElem?_take_of_lt hik, List.getElem?_drop]
  have e2 : (prims.take n)[f + i]? = some p := by rw [List.getElem?_take_of_lt (by omega), e1]
  rw [hord, List.getElem?_range (by omega)] at e2
  obtain rfl := Option.some.inj e2
  exact h4 _ (by omega) (by omega)

omit [LinearOrder K] [IsStrictOrderedRing K] in
/-- **C117.** Which vertex a leaf is fitted to, for every kind of volume: the leaf of primitive `p` at place `f` of the
order made by the construction gets the volume around vertex `f`, with the uncertainty of `f`, and not the one around
`p`. -/
theorem C117_leaf_reads {bvs bvs' : List (BVNode V)} {prims ids : List ℕ} {t : BT V ℕ} {n : ℕ}
    (hids : ids.Perm (List.range (2 * n - 1))) (hr : bvhExpand fit verts ucs r (2 * n - 1) 0 bvs = some bvs')
    (h : IsTree bvs' prims 0 0 n ids t) {bv : V} {p : ℕ} (hb : BT.Below (.leaf bv p) t) :
    ∃ (f : ℕ) (v : V3 K) (u : Variance3 K), prims[f]? = some p ∧ verts[f]? = some v ∧ ucs[f]? = some u ∧ fit (u.points r v) = some bv := by
  obtain ⟨i, f, k, is, hu, hi⟩ := h.of_below hb
  obtain ⟨⟨-, hs⟩, hall⟩ := bvhExpand_spec _ _ _ _ hr
  cases hu with
  | leaf hn hp =>
    obtain ⟨m, hm, h1, h2, h3⟩ := hs i _ hn
    have := List.mem_range.1 (hids.mem_iff.1 hi)
    obtain ⟨l, b, el, eb, e⟩ := hall i m hm (by omega) (by omega)
    rw [hn] at e
    have eb' : bv = b := congrArg BVNode.bv (Option.some.inj e)
    simp only at h1 h2
    rw [← h1, ← h2] at el
    simp only [expandPoints] at el
    split at el
    · next v u l' e1 e2 e3 =>
      obtain rfl := Option.some.inj e3
      obtain rfl := Option.some.inj el
      exact ⟨f, v, u, hp, e1, e2, by rw [eb', ← eb, List.append_nil]⟩
    · simp at el

omit [LinearOrder K] [IsStrictOrderedRing K] in
private theorem expandPoints_total (k id : ℕ) (hv : id + k ≤ verts.length) (hu : id + k ≤ ucs.length) :
    ∃ l, expandPoints verts ucs r k id = some l := by
  induction k generalizing id with
  | zero => exact ⟨[], rfl⟩
  | succ k ih =>
    obtain ⟨l, e⟩ := ih (id + 1) (by omega) (by omega)
    have e1 : verts[id]? = some verts[id] := List.getElem?_eq_getElem (by omega)
    have e2 : ucs[id]? = some ucs[id] := List.getElem?_eq_getElem (by omega)
    exact ⟨_, by simp only [expandPoints, e1, e2, e]; rfl⟩

omit [LinearOrder K] [IsStrictOrderedRing K] in
private theorem bvhExpand_total (hfit : ∀ l, ∃ b, fit l = some b) (k i : ℕ) (bvs : List (BVNode V)) (hk : i + k ≤ bvs.length)
    (hok : ∀ (j : ℕ) (n : BVNode V), bvs[j]? = some n → n.firstPrimitive + n.numPrimitives ≤ verts.length ∧
      n.firstPrimitive + n.numPrimitives ≤ ucs.length) : ∃ bvs', bvhExpand fit verts ucs r k i bvs = some bvs' := by
  induction k generalizing i bvs with
  | zero => exact ⟨bvs, rfl⟩
  | succ k ih =>
    have hlt : i < bvs.length := by omega
    have hi : bvs[i]? = some bvs[i] := List.getElem?_eq_getElem hlt
    obtain ⟨l, el⟩ := expandPoints_total (r := r) _ _ (hok i _ hi).1 (hok i _ hi).2
    obtain ⟨b, eb⟩ := hfit l
    obtain ⟨bvs', e⟩ := ih (i + 1) (bvs.set i { bvs[i] with bv := b }) (by simp; omega) (by
      intro j n hn
      by_cases hij : i = j
      · subst hij
        rw [List.getElem?_set_self hlt] at hn
        obtain rfl := Option.some.inj hn
        exact hok i bvs[i] hi
      · rw [List.getElem?_set_ne hij] at hn
        exact hok j n hn)
    exact ⟨bvs', by simp only [bvhExpand, hi, el, eb, e]⟩

omit [LinearOrder K] [IsStrictOrderedRing K] in
/-- **C117.** With a fit that always gives a volume, and with at least as many vertices and uncertainties as primitives,
the expansion ends and stays inside of the arrays. -/
theorem C117_total (hfit : ∀ l, ∃ b, fit l = some b) {bvs : List (BVNode V)} {prims ids : List ℕ} {t : BT V ℕ} {n : ℕ}
    (h : IsTree bvs prims 0 0 n ids t) (hids : ids.Perm (List.range (2 * n - 1))) (hl : bvs.length = 2 * n - 1)
    (hv : n ≤ verts.length) (hu : n ≤ ucs.length) : ∃ bvs', bvhExpand fit verts ucs r (2 * n - 1) 0 bvs = some bvs' := by
  have key : ∀ {id first num : ℕ} {ids : List ℕ} {t : BT V ℕ}, IsTree bvs prims id first num ids t →
      ∀ (j : ℕ) (m : BVNode V), j ∈ ids → bvs[j]? = some m → m.firstPrimitive + m.numPrimitives ≤ first + num := by
    intro id first num ids t h
    induction h with
    | leaf hn _ =>
      intro j m hj hm
      obtain rfl := List.mem_singleton.1 hj
      obtain rfl := Option.some.inj (hn.symm.trans hm)
      exact le_rfl
    | node hn hl hr hnum ihl ihr =>
      intro j m hj hm
      rcases List.mem_cons.1 hj with rfl | hj
      · obtain rfl := Option.some.inj (hn.symm.trans hm)
        exact le_rfl
      · rcases List.mem_append.1 hj with hj | hj
        · have := ihl j m hj hm; omega
        · have := ihr j m hj hm; omega
  refine bvhExpand_total hfit _ _ _ (by omega) fun j m hm => ?_
  have := key h j m (by rw [hids.mem_iff, List.mem_range, ← hl]; exact (List.getElem?_eq_some_iff.1 hm).1) hm
  omega

omit [LinearOrder K] [IsStrictOrderedRing K] in
/-- **C117 is violated for triangles.** The numbers of the primitives are taken for numbers of vertices: on every
hierarchy with more primitives than vertices, as for a closed mesh with more than four vertices, the expansion reads
outside of the vertices. -/
theorem C117_violated_triangles {bvs : List (BVNode V)} {prims ids : List ℕ} {t : BT V ℕ} {n k : ℕ}
    (h : IsTree bvs prims 0 0 n ids t) (hv : verts.length < n) : bvhExpand fit verts ucs r (k + 1) 0 bvs = none := by
  have key : ∃ m : BVNode V, bvs[0]? = some m ∧ m.firstPrimitive = 0 ∧ m.numPrimitives = n := by
    cases h with
    | leaf hn => exact ⟨_, hn, rfl, rfl⟩
    | node hn => exact ⟨_, hn, rfl, rfl⟩
  obtain ⟨m, e, h1, h2⟩ := key
  cases e' : bvhExpand fit verts ucs r (k + 1) 0 bvs with
  | none => rfl
  | some bvs' =>
    obtain ⟨-, hb⟩ := bvhExpand_spec _ _ _ _ e'
    obtain ⟨l, bv, el, -, -⟩ := hb 0 m e le_rfl (by omega)
    rw [h1, h2] at el
    obtain ⟨v, u, ev, -⟩ := (expandPoints_some el).2 verts.length (by omega) (by omega)
    simp at ev

end

/-- **C117** for hierarchies of rectangle swept spheres, the volumes for which the library offers the expansion and whose
fit holds six or more points (C86). -/
theorem C117_rss (prec : ℝ) (absorb : ℝ → ℝ → Bool) : FitHolds (RSS.fit prec (Jacobi.eigenOld absorb)) RSS.pts := by
  intro l b hl hb
  obtain ⟨hw, hm⟩ := RSS.C86_fit_partial prec absorb (fun p1 p2 e => by simp [e] at hl) (fun p1 p2 p3 e => by simp [e] at hl) hb
  exact ⟨hm, RSS.pts_convex hw.r⟩

/-- **C117.** The repeated `+=` of the version for the other volumes. -/
theorem C117_adding {o : BVOps V K} {pts : V → Set (V3 K)} (hs : o.Sound pts) :
    FitHolds (fun l => some (l.foldl o.add o.empty)) pts := by
  intro l b _ hb
  obtain rfl := Option.some.inj hb
  exact ⟨fun x hx => foldl_add_mem hs l _ x hx, hs.convex _⟩

/-- **C117.** What the construction gives for points meets the hypotheses of `C117_expand_partial`, whatever the
splitter answers: the root holds every uncertain point. -/
theorem C117_built_root {fit : List (V3 K) → Option V} {pts : V → Set (V3 K)} (hf : FitHolds fit pts) {verts : List (V3 K)}
    {ucs : List (Variance3 K)} {r : K} (B : Builder V) (hn : 1 ≤ verts.length)
    {bvs : List (BVNode V)} {prims : List ℕ} (hb : 2 * verts.length - 1 ≤ bvs.length) (hp : verts.length ≤ prims.length) :
    ∃ s, buildTree B verts.length verts.length bvs prims = some s ∧
      ∀ bvs', bvhExpand fit verts ucs r s.numBvs 0 s.bvs = some bvs' →
        ∃ t ids, IsTree bvs' s.prims 0 0 verts.length ids t ∧ ∀ p < verts.length, HoldsUncertain pts verts ucs r t.bv p := by
  obtain ⟨v, q, t, ids, e, hl, -, ht, hids, -, -, -, -, -⟩ := C31_build B hn le_rfl hb hp
  refine ⟨_, e, fun bvs' e' => ?_⟩
  obtain ⟨t', -, h2, -, h3, -⟩ := C117_expand_partial hf ht hids e'
  exact ⟨t', ids, h2, h3⟩

/-! ### Concrete cases -/

section examples

/-- Two points, given from right to left. -/
def exPoints : Geom ℚ := ⟨[⟨10, 0, 0⟩, ⟨0, 0, 0⟩], none, []⟩

/-- Both uncertain by 1 along each axis. -/
def exUnc : Variance3 ℚ := ⟨fun _ => 1, ![⟨1, 0, 0⟩, ⟨0, 1, 0⟩, ⟨0, 0, 1⟩]⟩

/-- Split by the centre of the box on the x axis, as `computeRule_bvcenter` does. -/
def exPointRight (g : Geom ℚ) (v : AABB ℚ) (_ : List ℕ) (p : ℕ) : Bool :=
  match g.primVerts p with
  | x :: _ => decide (x.x > (v.lo.x + v.hi.x) / 2)
  | [] => false

private abbrev o : BVOps (AABB ℚ) ℚ := aabbOps 1000 (-1000)
private abbrev boxes : List (V3 ℚ) → Option (AABB ℚ) := fun l => some (l.foldl o.add o.empty)
private abbrev junk : List (BVNode (AABB ℚ)) := List.replicate 3 ⟨⟨⟨7, 7, 7⟩, ⟨7, 7, 7⟩⟩, 9, 9, 9⟩

/-- The volumes after the expansion of the two points: the left child (slot 1) is the leaf of point 1, which is the
origin, and its box is the one around point 0. -/
private def exAfter : List (BVNode (AABB ℚ)) :=
  [⟨⟨⟨-1, -1, -1⟩, ⟨11, 1, 1⟩⟩, 0, 2, 1⟩, ⟨⟨⟨9, -1, -1⟩, ⟨11, 1, 1⟩⟩, 0, 1, -2⟩, ⟨⟨⟨-1, -1, -1⟩, ⟨1, 1, 1⟩⟩, 1, 1, -1⟩]

/-- **C117 is violated.** Two points given from right to left, with boxes and a split in the centre of the box: after
the expansion the leaf of point 1 does not hold that point, not even without any
deviation. The construction has swapped the points in `primitive_indices`, and the expansion reads the vertices and the
uncertainties without it. -/
theorem C117_violated_order :
    ∃ s bvs' t ids, buildTree (o.builder exPoints (exPointRight exPoints)) 2 2 junk [8, 8, 8] = some s ∧
      bvhExpand boxes exPoints.verts [exUnc, exUnc] 1 s.numBvs 0 s.bvs = some bvs' ∧
      IsTree bvs' s.prims 0 0 2 ids t ∧
      (∃ bv, BT.Below (.leaf bv 1) t ∧ exPoints.verts[1]? = some ⟨0, 0, 0⟩ ∧ (⟨0, 0, 0⟩ : V3 ℚ) ∉ AABB.pts bv) ∧
      ¬ Enclosing (HoldsUncertain AABB.pts exPoints.verts [exUnc, exUnc] 1) t := by
  have hnot : (⟨0, 0, 0⟩ : V3 ℚ) ∉ AABB.pts (⟨⟨9, -1, -1⟩, ⟨11, 1, 1⟩⟩ : AABB ℚ) := by
    intro h
    have := h.1.1
    norm_num at this
  have hbel : BT.Below (.leaf ⟨⟨9, -1, -1⟩, ⟨11, 1, 1⟩⟩ 1)
      (.node ⟨⟨-1, -1, -1⟩, ⟨11, 1, 1⟩⟩ (.leaf ⟨⟨9, -1, -1⟩, ⟨11, 1, 1⟩⟩ 1) (.leaf ⟨⟨-1, -1, -1⟩, ⟨1, 1, 1⟩⟩ 0) : BT (AABB ℚ) ℕ) :=
    .left (.refl _)
  refine ⟨⟨[⟨⟨⟨0, 0, 0⟩, ⟨10, 0, 0⟩⟩, 0, 2, 1⟩, ⟨⟨⟨0, 0, 0⟩, ⟨0, 0, 0⟩⟩, 0, 1, -2⟩, ⟨⟨⟨10, 0, 0⟩, ⟨10, 0, 0⟩⟩, 1, 1, -1⟩], 3,
    [1, 0, 8]⟩, exAfter, .node ⟨⟨-1, -1, -1⟩, ⟨11, 1, 1⟩⟩ (.leaf ⟨⟨9, -1, -1⟩, ⟨11, 1, 1⟩⟩ 1)
      (.leaf ⟨⟨-1, -1, -1⟩, ⟨1, 1, 1⟩⟩ 0), [0, 1, 2], by decide +kernel, by decide +kernel, ?_, ⟨_, hbel, rfl, hnot⟩, ?_⟩
  · exact .node (c := 1) (n1 := 1) (n2 := 1) (ids1 := [1]) (ids2 := [2]) rfl (.leaf rfl rfl) (.leaf rfl rfl) rfl
  · intro h
    obtain ⟨v, u, ev, eu, hm⟩ := h _ hbel 1 (by simp [BT.prims])
    obtain rfl : v = ⟨0, 0, 0⟩ := (Option.some.inj ev).symm
    have := hm 0 0 (by norm_num) (by norm_num)
    rw [zero_mul] at this
    have e : (⟨0, 0, 0⟩ : V3 ℚ) + (0 : ℚ) • u.axis 0 = ⟨0, 0, 0⟩ := by apply V3.ext' <;> simp
    rw [e] at this
    exact hnot this

/-- The same points given from left to right: the order is kept, and every node holds the uncertain points below it. -/
def exOrdered : Geom ℚ := ⟨[⟨0, 0, 0⟩, ⟨10, 0, 0⟩], none, []⟩

example : ∃ s bvs' t ids, buildTree (o.builder exOrdered (exPointRight exOrdered)) 2 2 junk [8, 8, 8] = some s ∧
    s.prims.take 2 = List.range 2 ∧ bvhExpand boxes exOrdered.verts [exUnc, exUnc] 1 3 0 s.bvs = some bvs' ∧
    IsTree bvs' s.prims 0 0 2 ids t ∧ Enclosing (HoldsUncertain AABB.pts exOrdered.verts [exUnc, exUnc] 1) t := by
  obtain ⟨v, q, t, ids, e, hl, -, ht, hids, -⟩ := C31_build (o.builder exOrdered (exPointRight exOrdered))
    (n := 2) (by norm_num) le_rfl (bvs := junk) (by decide) (prims := [8, 8, 8]) (by decide)
  have hq : q.take 2 = List.range 2 := by
    have : (buildTree (o.builder exOrdered (exPointRight exOrdered)) 2 2 junk [8, 8, 8]).map (fun s => s.prims.take 2) =
      some (List.range 2) := by decide +kernel
    rw [e] at this
    exact Option.some.inj this
  obtain ⟨bvs', e'⟩ := C117_total (fit := boxes) (verts := exOrdered.verts) (ucs := [exUnc, exUnc]) (r := 1)
    (fun _ => ⟨_, rfl⟩) ht hids hl (by decide) (by decide)
  obtain ⟨t', -, h2, -, -, h4⟩ := C117_expand_partial (C117_adding (aabb_sound (1000 : ℚ) (-1000))) ht hids e'
  exact ⟨_, bvs', t', ids, e, hq, e', h2, h4 hq⟩

example := C117_built_root (C117_adding (aabb_sound (1000 : ℚ) (-1000))) (verts := exPoints.verts) (ucs := [exUnc, exUnc])
  (r := 1) (o.builder exPoints (exPointRight exPoints)) (by decide) (bvs := junk) (by decide) (prims := [8, 8, 8]) (by decide)

/-- Four triangles on three vertices: both sides of a triangle, each given twice. -/
def exFan : Geom ℚ := ⟨[⟨0, 0, 0⟩, ⟨1, 0, 0⟩, ⟨0, 1, 0⟩], none, [(0, 1, 2), (0, 2, 1), (1, 2, 0), (1, 0, 2)]⟩

def exFanRight (_ : AABB ℚ) (_ : List ℕ) (_ : ℕ) : Bool := false

example : ∃ s, buildTree (o.builder exFan exFanRight) 4 4 (List.replicate 7 ⟨⟨⟨7, 7, 7⟩, ⟨7, 7, 7⟩⟩, 9, 9, 9⟩) [8, 8, 8, 8] = some s ∧
    bvhExpand boxes exFan.verts [exUnc, exUnc, exUnc, exUnc] 1 s.numBvs 0 s.bvs = none := by
  obtain ⟨v, q, t, ids, e, hl, -, ht, hids, -⟩ := C31_build (o.builder exFan exFanRight)
    (n := 4) (by norm_num) le_rfl (bvs := List.replicate 7 ⟨⟨⟨7, 7, 7⟩, ⟨7, 7, 7⟩⟩, 9, 9, 9⟩) (by decide)
    (prims := [8, 8, 8, 8]) (by decide)
  exact ⟨_, e, C117_violated_triangles ht (by decide)⟩

end examples
end Fcl
