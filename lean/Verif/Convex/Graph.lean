import Verif.Convex.Model
import Mathlib.Tactic.Linarith

/-!
# The adjacency graph of a convex mesh

A mesh is a list of faces, each the list of its vertices in order.
-/

namespace Fcl
namespace Convex

/-- The flat array that encodes a list of faces (documentation of `Convex`, `convex.h:131-152`). -/
def flat (fs : List (List ℕ)) : List ℕ := fs.flatMap (fun f => f.length :: f)

/-- In the face `f` the vertex at position `k` is `a`, and the one before it (cyclically) is `b`. -/
def SideAt (f : List ℕ) (k a b : ℕ) : Prop := f[k]? = some a ∧ f[(k + f.length - 1) % f.length]? = some b

instance (f : List ℕ) (k a b : ℕ) : Decidable (SideAt f k a b) := inferInstanceAs (Decidable (_ ∧ _))

/-- The vertices `a` and `b` are next to each other on the border of a face. -/
def Adjacent (fs : List (List ℕ)) (a b : ℕ) : Prop := ∃ f ∈ fs, ∃ k < f.length, SideAt f k a b ∨ SideAt f k b a

/-- The number of sides of faces between `a` and `b`. -/
def sideCount (fs : List (List ℕ)) (a b : ℕ) : ℕ :=
  (fs.map (fun f => (List.range f.length).countP (fun k => SideAt f k a b ∨ SideAt f k b a))).sum

/-- The mesh is closed: every vertex has an edge, and every edge is a side of exactly two faces. -/
def Closed (n : ℕ) (fs : List (List ℕ)) : Prop :=
  (∀ v < n, ∃ b, Adjacent fs v b) ∧ ∀ a b, Adjacent fs a b → sideCount fs a b = 2

theorem Adjacent.symm {fs : List (List ℕ)} {a b : ℕ} (h : Adjacent fs a b) : Adjacent fs b a := by
  obtain ⟨f, hf, k, hk, h⟩ := h
  exact ⟨f, hf, k, hk, h.symm⟩

theorem Adjacent.lt {fs : List (List ℕ)} {n a b : ℕ} (h : Adjacent fs a b) (hr : ∀ f ∈ fs, ∀ v ∈ f, v < n) : a < n := by
  obtain ⟨f, hf, k, hk, h | h⟩ := h
  · exact hr f hf a (List.mem_of_getElem? h.1)
  · exact hr f hf a (List.mem_of_getElem? h.2)

/-- The pairs the loops emit for one face. -/
def cyc (f : List ℕ) : List (ℕ × ℕ) := f.zip (f.getLastD 0 :: f)

theorem faceEdges_eq {faces : List ℕ} : ∀ {f : List ℕ} {i prev : ℕ}, (∀ k < f.length, faces[i + k]? = f[k]?) →
    faceEdges faces f.length i prev = some (f.zip (prev :: f))
  | [], _, _, _ => rfl
  | v :: f, i, prev, h => by
    have h0 := h 0 (by simp)
    have ih := faceEdges_eq (faces := faces) (f := f) (i := i + 1) (prev := v) (fun k hk => by
      have := h (k + 1) (by simp; omega)
      simpa [Nat.add_assoc, Nat.add_comm 1 k] using this)
    simp only [List.length_cons, faceEdges]
    rw [show faces[i]? = some v by simpa using h0]
    simp only [Option.bind_eq_bind, Option.bind_some]
    rw [ih]
    rfl

theorem allEdges_eq : ∀ {fs : List (List ℕ)} {pre : List ℕ},
    allEdges (pre ++ flat fs) fs.length pre.length = some (fs.flatMap cyc)
  | [], _ => rfl
  | f :: fs, pre => by
    have hflat : pre ++ flat (f :: fs) = pre ++ (f.length :: f) ++ flat fs := by simp [flat]
    have ih := allEdges_eq (fs := fs) (pre := pre ++ (f.length :: f))
    have hget : ∀ k, k < f.length → (pre ++ (f.length :: f) ++ flat fs)[pre.length + 1 + k]? = f[k]? := by
      intro k hk
      rw [List.getElem?_append_left (by simp; omega), List.getElem?_append_right (by omega),
        show pre.length + 1 + k - pre.length = k + 1 by omega, List.getElem?_cons_succ]
    have h0 : (pre ++ (f.length :: f) ++ flat fs)[pre.length]? = some f.length := by
      rw [List.getElem?_append_left (by simp), List.getElem?_append_right (le_refl _)]; simp
    have hlast : (pre ++ (f.length :: f) ++ flat fs)[pre.length + f.length]? = some (f.getLastD 0) := by
      rcases f.eq_nil_or_concat with rfl | ⟨f', x, rfl⟩
      · simp
      · have := hget f'.length (by simp)
        rw [show pre.length + (f'.concat x).length = pre.length + 1 + f'.length by simp; omega, this]
        simp
    rw [hflat]
    simp only [List.length_cons, allEdges]
    rw [h0]
    simp only [Option.bind_eq_bind, Option.bind_some]
    rw [hlast]
    simp only [Option.bind_some]
    rw [faceEdges_eq hget]
    simp only [Option.bind_some]
    have hl : (pre ++ f.length :: f).length = pre.length + f.length + 1 := by simp; omega
    rw [hl] at ih
    rw [ih]
    simp [cyc]

theorem cyc_getElem? {f : List ℕ} {k a b : ℕ} (hk : k < f.length) : (cyc f)[k]? = some (a, b) ↔ SideAt f k a b := by
  unfold cyc SideAt
  rw [List.getElem?_zip_eq_some]
  have : (f.getLastD 0 :: f)[k]? = f[(k + f.length - 1) % f.length]? := by
    cases k with
    | zero =>
      rw [Nat.zero_add, Nat.mod_eq_of_lt (by omega), List.getElem?_cons_zero]
      rcases f.eq_nil_or_concat with rfl | ⟨f', x, rfl⟩
      · simp at hk
      · simp
    | succ k =>
      rw [List.getElem?_cons_succ, show k + 1 + f.length - 1 = k + f.length by omega, Nat.add_mod_right,
        Nat.mod_eq_of_lt (by omega)]
  rw [this]

theorem cyc_length (f : List ℕ) : (cyc f).length = f.length := by simp [cyc]

theorem mem_cyc {f : List ℕ} {a b : ℕ} : (a, b) ∈ cyc f ↔ ∃ k < f.length, SideAt f k a b := by
  rw [List.mem_iff_getElem?]
  constructor
  · rintro ⟨k, hk⟩
    have hlt : k < f.length := by
      have := (List.getElem?_eq_some_iff.1 hk).1
      rwa [cyc_length] at this
    exact ⟨k, hlt, (cyc_getElem? hlt).1 hk⟩
  · rintro ⟨k, hk, h⟩
    exact ⟨k, (cyc_getElem? hk).2 h⟩

theorem mem_edges {fs : List (List ℕ)} {a b : ℕ} :
    Adjacent fs a b ↔ (a, b) ∈ fs.flatMap cyc ∨ (b, a) ∈ fs.flatMap cyc := by
  simp only [List.mem_flatMap, mem_cyc, Adjacent]
  constructor
  · rintro ⟨f, hf, k, hk, h | h⟩
    · exact Or.inl ⟨f, hf, k, hk, h⟩
    · exact Or.inr ⟨f, hf, k, hk, h⟩
  · rintro (⟨f, hf, k, hk, h⟩ | ⟨f, hf, k, hk, h⟩)
    · exact ⟨f, hf, k, hk, Or.inl h⟩
    · exact ⟨f, hf, k, hk, Or.inr h⟩

/-! ## The sets of neighbours -/

theorem mem_setInsert {x y : ℕ} {l : List ℕ} : y ∈ setInsert x l ↔ y = x ∨ y ∈ l := by
  unfold setInsert
  split_ifs with h
  · constructor
    · exact Or.inr
    · rintro (rfl | h')
      · exact h
      · exact h'
  · rw [List.mem_orderedInsert]

/-- The neighbours of `v` in the vector of sets. -/
def nb (ns : List (List ℕ)) (v : ℕ) : List ℕ := (ns[v]?).getD []

theorem insertAt_spec {ns : List (List ℕ)} {v x : ℕ} (h : v < ns.length) :
    ∃ ns', insertAt ns v x = some ns' ∧ ns'.length = ns.length ∧
      ∀ u y, y ∈ nb ns' u ↔ y ∈ nb ns u ∨ (u = v ∧ y = x) := by
  refine ⟨_, if_pos h, by simp, ?_⟩
  intro u y
  unfold nb
  rw [List.getElem?_modify]
  by_cases huv : v = u
  · subst huv
    rw [List.getElem?_eq_getElem h]
    simp only [if_true, Option.map_eq_map, Option.map_some, Option.getD_some, mem_setInsert, true_and]
    tauto
  · simp [huv, Ne.symm huv]

theorem neighborSets_spec {n : ℕ} : ∀ {es : List (ℕ × ℕ)} {ns : List (List ℕ)}, ns.length = n →
    (∀ e ∈ es, e.1 < n ∧ e.2 < n) → ∃ ns', neighborSets ns es = some ns' ∧ ns'.length = n ∧
      ∀ u y, y ∈ nb ns' u ↔ y ∈ nb ns u ∨ (u, y) ∈ es ∨ (y, u) ∈ es
  | [], ns, hl, _ => ⟨ns, rfl, hl, by simp⟩
  | (v, p) :: es, ns, hl, h => by
    have hvp := h (v, p) (List.mem_cons_self ..)
    obtain ⟨ns1, h1, l1, m1⟩ := insertAt_spec (ns := ns) (v := v) (x := p) (by rw [hl]; exact hvp.1)
    obtain ⟨ns2, h2, l2, m2⟩ := insertAt_spec (ns := ns1) (v := p) (x := v) (by rw [l1, hl]; exact hvp.2)
    obtain ⟨ns3, h3, l3, m3⟩ := neighborSets_spec (n := n) (es := es) (ns := ns2) (by rw [l2, l1, hl])
      (fun e he => h e (List.mem_cons_of_mem _ he))
    refine ⟨ns3, ?_, l3, ?_⟩
    · rw [neighborSets]
      simp only [h1, h2, h3, Option.bind_eq_bind, Option.bind_some]
    · intro u y
      rw [m3, m2, m1]
      simp only [List.mem_cons, Prod.mk.injEq]
      tauto

/-! ## The encoding -/

/-- `enc` encodes the sets `ns`. -/
def Enc (enc : List ℕ) (ns : List (List ℕ)) : Prop :=
  ∀ v < ns.length, ∃ s, enc[v]? = some s ∧ enc[s]? = some (nb ns v).length ∧
    ∀ k < (nb ns v).length, enc[s + 1 + k]? = (nb ns v)[k]?

theorem encode_old : ∀ {l : List (List ℕ)} {arr : List ℕ} {v i : ℕ}, i < arr.length → (i < v ∨ v + l.length ≤ i) →
    (encode arr v l)[i]? = arr[i]?
  | [], _, _, _, _, _ => rfl
  | b :: l, arr, v, i, hi, h => by
    rw [encode, encode_old (by simp; omega) (by simp only [List.length_cons] at h; omega),
      List.getElem?_append_left (by simpa using hi), List.getElem?_set_ne]
    simp only [List.length_cons] at h
    omega

theorem encode_spec : ∀ {l : List (List ℕ)} {arr : List ℕ} {v : ℕ}, v + l.length ≤ arr.length → ∀ j < l.length,
    ∃ s, (encode arr v l)[v + j]? = some s ∧ (encode arr v l)[s]? = some (nb l j).length ∧
      ∀ k < (nb l j).length, (encode arr v l)[s + 1 + k]? = (nb l j)[k]?
  | [], _, _, _, j, hj => by simp at hj
  | b :: l, arr, v, h, j, hj => by
    simp only [List.length_cons] at h hj
    rw [encode]
    cases j with
    | zero =>
      refine ⟨arr.length, ?_, ?_, ?_⟩
      · show (encode _ (v + 1) l)[v]? = _
        rw [encode_old (by simp; omega) (Or.inl (by omega)),
          List.getElem?_append_left (by simp; omega), List.getElem?_set_self (by omega)]
      · rw [encode_old (by simp) (Or.inr (by omega)), List.getElem?_append_right (by simp)]
        simp [nb]
      · intro k hk
        have hk' : k < b.length := by simpa [nb] using hk
        rw [encode_old (by simp; omega) (Or.inr (by omega)), List.getElem?_append_right (by simp; omega)]
        simp only [List.length_set]
        rw [show arr.length + 1 + k - arr.length = k + 1 by omega, List.getElem?_cons_succ]
        simp [nb]
    | succ j =>
      have := encode_spec (l := l) (arr := arr.set v arr.length ++ b.length :: b) (v := v + 1) (by simp; omega) j (by omega)
      rw [show v + 1 + j = v + (j + 1) by omega] at this
      have hnb : nb (b :: l) (j + 1) = nb l j := by simp [nb]
      rw [hnb]
      exact this

theorem encode_enc {ns : List (List ℕ)} : Enc (encode (List.replicate ns.length 0) 0 ns) ns := by
  intro v hv
  have := encode_spec (l := ns) (arr := List.replicate ns.length 0) (v := 0) (by simp) v hv
  simpa using this

theorem readN_eq {enc : List ℕ} : ∀ {l : List ℕ} {i : ℕ}, (∀ k < l.length, enc[i + k]? = l[k]?) →
    readN enc l.length i = some l
  | [], _, _ => rfl
  | x :: l, i, h => by
    have h0 := h 0 (by simp)
    have ih := readN_eq (enc := enc) (l := l) (i := i + 1) (fun k hk => by
      have := h (k + 1) (by simp; omega)
      simpa [Nat.add_assoc, Nat.add_comm 1 k] using this)
    simp only [List.length_cons, readN]
    rw [show enc[i]? = some x by simpa using h0]
    simp only [Option.bind_eq_bind, Option.bind_some]
    rw [ih]
    rfl

theorem neighborsOf_eq {enc : List ℕ} {ns : List (List ℕ)} (h : Enc enc ns) {v : ℕ} (hv : v < ns.length) :
    neighborsOf enc v = some (nb ns v) := by
  obtain ⟨s, h1, h2, h3⟩ := h v hv
  unfold neighborsOf
  simp only [h1, h2, Option.bind_eq_bind, Option.bind_some]
  exact readN_eq h3

/-- The graph built for a mesh whose faces use vertices below `n`: the neighbours are the adjacent
vertices. -/
theorem findVertexNeighbors_spec {n : ℕ} {fs : List (List ℕ)} (hr : ∀ f ∈ fs, ∀ v ∈ f, v < n) :
    ∃ enc ns, findVertexNeighbors n fs.length (flat fs) = some enc ∧ ns.length = n ∧ Enc enc ns ∧
      ∀ u y, y ∈ nb ns u ↔ Adjacent fs u y := by
  have hes : allEdges (flat fs) fs.length 0 = some (fs.flatMap cyc) := allEdges_eq (pre := [])
  have hb : ∀ e ∈ fs.flatMap cyc, e.1 < n ∧ e.2 < n := by
    rintro ⟨a, b⟩ he
    have : Adjacent fs a b := mem_edges.2 (Or.inl he)
    exact ⟨this.lt hr, this.symm.lt hr⟩
  obtain ⟨ns, h1, h2, h3⟩ := neighborSets_spec (n := n) (ns := List.replicate n []) (by simp) hb
  refine ⟨_, ns, ?_, h2, encode_enc, ?_⟩
  · unfold findVertexNeighbors
    simp only [hes, h1, Option.bind_eq_bind, Option.bind_some, h2]
    rfl
  · intro u y
    rw [h3, mem_edges]
    have : y ∉ nb (List.replicate n []) u := by
      unfold nb
      rw [List.getElem?_replicate]
      split_ifs <;> simp
    tauto

/-! ## The topology check -/

theorem makeEdge_comm (a b : ℕ) : makeEdge a b = makeEdge b a := by
  unfold makeEdge
  split_ifs with h1 h2 h2
  · omega
  · rfl
  · rfl
  · have : a = b := by omega
    rw [this]

theorem makeEdge_eq {a b c d : ℕ} : makeEdge a b = makeEdge c d ↔ (a = c ∧ b = d) ∨ (a = d ∧ b = c) := by
  unfold makeEdge
  split_ifs <;> simp only [Prod.mk.injEq] <;> omega

theorem count_cyc (f : List ℕ) (a b : ℕ) : ((cyc f).map (fun e => makeEdge e.1 e.2)).count (makeEdge a b) =
    (List.range f.length).countP (fun k => SideAt f k a b ∨ SideAt f k b a) := by
  have key : ∀ n, n ≤ f.length → (((cyc f).take n).map (fun e => makeEdge e.1 e.2)).count (makeEdge a b) =
      (List.range n).countP (fun k => SideAt f k a b ∨ SideAt f k b a) := by
    intro n
    induction n with
    | zero => intro _; simp
    | succ n ih =>
      intro hn
      have hlt : n < (cyc f).length := by rw [cyc_length]; omega
      rw [List.take_succ_eq_append_getElem hlt, List.map_append, List.count_append, ih (by omega), List.range_succ, List.countP_append]
      congr 1
      rcases hpq : (cyc f)[n] with ⟨p, q⟩
      have hs : (cyc f)[n]? = some (p, q) := by rw [List.getElem?_eq_getElem hlt, hpq]
      have hside : ∀ c d, SideAt f n c d ↔ (p = c ∧ q = d) := by
        intro c d
        rw [← cyc_getElem? (by omega), hs]
        simp
      simp only [List.map_cons, List.map_nil, List.count_singleton, List.countP_singleton, hside, beq_iff_eq,
        makeEdge_eq, decide_eq_true_eq]
  have := key f.length (le_refl _)
  rwa [List.take_of_length_le (by rw [cyc_length])] at this

theorem count_edges (fs : List (List ℕ)) (a b : ℕ) :
    ((fs.flatMap cyc).map (fun e => makeEdge e.1 e.2)).count (makeEdge a b) = sideCount fs a b := by
  induction fs with
  | nil => rfl
  | cons f fs ih =>
    simp only [List.flatMap_cons, List.map_append, List.count_append, ih, sideCount, List.map_cons, List.sum_cons,
      count_cyc]

theorem vertexEdges_spec {enc : List ℕ} {ns : List (List ℕ)} (h : Enc enc ns) : ∀ {vs : List ℕ}, (∀ v ∈ vs, v < ns.length) →
    ∃ ks c, vertexEdges enc vs = some (ks, c) ∧ (∀ e, e ∈ ks ↔ ∃ v ∈ vs, ∃ y ∈ nb ns v, e = makeEdge v y) ∧
      (c = true ↔ ∀ v ∈ vs, ∃ y, y ∈ nb ns v)
  | [], _ => ⟨[], true, rfl, by simp, by simp⟩
  | v :: vs, hv => by
    obtain ⟨ks, c, h1, h2, h3⟩ := vertexEdges_spec h (vs := vs) (fun u hu => hv u (List.mem_cons_of_mem _ hu))
    refine ⟨(nb ns v).map (makeEdge v) ++ ks, decide ((nb ns v).length ≠ 0) && c, ?_, ?_, ?_⟩
    · rw [vertexEdges]
      simp only [neighborsOf_eq h (hv v (List.mem_cons_self ..)), h1, Option.bind_eq_bind, Option.bind_some]
      rfl
    · intro e
      simp only [List.mem_append, List.mem_map, h2, List.mem_cons]
      constructor
      · rintro (⟨y, hy, rfl⟩ | ⟨u, hu, y, hy, rfl⟩)
        · exact ⟨v, Or.inl rfl, y, hy, rfl⟩
        · exact ⟨u, Or.inr hu, y, hy, rfl⟩
      · rintro ⟨u, rfl | hu, y, hy, rfl⟩
        · exact Or.inl ⟨y, hy, rfl⟩
        · exact Or.inr ⟨u, hu, y, hy, rfl⟩
    · rw [Bool.and_eq_true, h3, decide_eq_true_eq]
      simp only [List.mem_cons, forall_eq_or_imp]
      rw [← Nat.pos_iff_ne_zero, List.length_pos_iff_exists_mem]

/-- The topology check finds out whether the mesh is closed. -/
theorem topologyOk_spec {n : ℕ} {fs : List (List ℕ)} {enc : List ℕ} {ns : List (List ℕ)} (h : Enc enc ns)
    (hl : ns.length = n) (hr : ∀ f ∈ fs, ∀ v ∈ f, v < n) (hm : ∀ u y, y ∈ nb ns u ↔ Adjacent fs u y) :
    ∃ g, topologyOk n fs.length (flat fs) enc = some g ∧ (g = true ↔ Closed n fs) := by
  obtain ⟨ks, c, h1, h2, h3⟩ := vertexEdges_spec h (vs := List.range n) (fun v hv => by rw [hl]; exact List.mem_range.1 hv)
  have hes : allEdges (flat fs) fs.length 0 = some (fs.flatMap cyc) := allEdges_eq (pre := [])
  refine ⟨c && (ks ++ (fs.flatMap cyc).map (fun e => makeEdge e.1 e.2)).all
    (fun e => ((fs.flatMap cyc).map (fun e => makeEdge e.1 e.2)).count e = 2), ?_, ?_⟩
  · unfold topologyOk
    simp only [h1, hes, Option.bind_eq_bind, Option.bind_some]
    rfl
  · rw [Bool.and_eq_true, h3, List.all_eq_true]
    simp only [decide_eq_true_eq, List.mem_range, hm, Closed]
    refine and_congr Iff.rfl ⟨?_, ?_⟩
    · intro hk a b hab
      have := hk (makeEdge a b) (by
        rw [List.mem_append]
        refine Or.inl ((h2 _).2 ⟨a, List.mem_range.2 (hab.lt hr), b, (hm a b).2 hab, rfl⟩))
      rwa [count_edges] at this
    · intro hk e he
      rw [List.mem_append] at he
      rcases he with he | he
      · obtain ⟨v, _, y, hy, rfl⟩ := (h2 e).1 he
        rw [count_edges]
        exact hk _ _ ((hm _ _).1 hy)
      · obtain ⟨⟨a, b⟩, hab, rfl⟩ := List.mem_map.1 he
        rw [count_edges]
        exact hk _ _ (mem_edges.2 (Or.inl hab))

end Convex
end Fcl
