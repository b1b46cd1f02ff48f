import Verif.Convex.Graph
import Mathlib.Tactic.Linarith
import Mathlib.Data.Rat.Cast.Order
import Mathlib.Algebra.Order.BigOperators.Group.Finset

/-!
# C51: the extreme vertex of a convex mesh

Specification: `Convex.Adjacent` (two vertices next to each other on a face), `Convex.Closed`,
`Convex.flat` (the array the user passes) in Convex/Graph.lean.
-/

namespace Fcl
namespace Convex
section
variable {K : Type} [Field K] [LinearOrder K]

/-- How far vertex `i` lies in the direction `d`. -/
def height (vs : List (V3 K)) (d : V3 K) (i : ℕ) : K := d.dot (vs.getD i 0)

/-- Vertex `i` lies at least as far in the direction `d` as any other. -/
def IsExtreme (vs : List (V3 K)) (d : V3 K) (i : ℕ) : Prop :=
  i < vs.length ∧ ∀ j < vs.length, height vs d j ≤ height vs d i

/-- Vertex `i` lies at least as far as any adjacent vertex. -/
def IsLocalMax (vs : List (V3 K)) (fs : List (List ℕ)) (d : V3 K) (i : ℕ) : Prop :=
  i < vs.length ∧ ∀ j, Adjacent fs i j → height vs d j ≤ height vs d i

theorem getElem?_eq_getD {vs : List (V3 K)} {j : ℕ} (h : j < vs.length) : vs[j]? = some (vs.getD j 0) := by
  rw [List.getD_eq_getElem?_getD, List.getElem?_eq_getElem h]; rfl

/-- The state of the walk is consistent. -/
structure Inv (vs : List (V3 K)) (d : V3 K) (w : Walk K) : Prop where
  len : w.visited.length = vs.length
  ext : w.ext < vs.length
  val : w.val = height vs d w.ext
  seen : ∀ j : ℕ, w.visited[j]? = some true → height vs d j ≤ w.val

theorem count_set_lt {l : List Bool} {j : ℕ} (h : l[j]? = some false) :
    (l.set j true).count false + 1 = l.count false := by
  induction l generalizing j with
  | nil => simp at h
  | cons b l ih =>
    cases j with
    | zero =>
      simp only [List.getElem?_cons_zero, Option.some.injEq] at h
      subst h
      simp
    | succ j =>
      simp only [List.getElem?_cons_succ] at h
      have := ih h
      simp only [List.set_cons_succ, List.count_cons]
      omega

theorem walkInner_spec {m : Mesh K} {d : V3 K} : ∀ {l : List ℕ} {i : ℕ} {w : Walk K},
    (∀ k < l.length, m.neighbors[i + k]? = l[k]?) → (∀ j ∈ l, j < m.vertices.length) → Inv m.vertices d w →
    ∃ w', walkInner m d l.length i w = some w' ∧ Inv m.vertices d w' ∧ w.val ≤ w'.val ∧
      (∀ j ∈ l, w'.visited[j]? = some true) ∧ (∀ j : ℕ, w.visited[j]? = some true → w'.visited[j]? = some true) ∧
      (w'.keep = false → w' = { w with visited := w'.visited }) ∧
      w'.visited.count false ≤ w.visited.count false ∧
      (w'.keep = true → w.keep = true ∨ w'.visited.count false < w.visited.count false)
  | [], i, w, _, _, hw => ⟨w, rfl, hw, le_refl _, by simp, fun _ h => h, fun _ => rfl, le_refl _, Or.inl⟩
  | j :: l, i, w, hn, hj, hw => by
    have hjn := hj j (List.mem_cons_self ..)
    have hn0 : m.neighbors[i]? = some j := by simpa using hn 0 (by simp)
    have hn' : ∀ k < l.length, m.neighbors[i + 1 + k]? = l[k]? := fun k hk => by
      have := hn (k + 1) (by simp; omega)
      simpa [Nat.add_assoc, Nat.add_comm 1 k] using this
    have hj' : ∀ j ∈ l, j < m.vertices.length := fun u hu => hj u (List.mem_cons_of_mem _ hu)
    have hlt : j < w.visited.length := by rw [hw.len]; exact hjn
    rcases hseen : w.visited[j] with _ | _
    · -- not seen yet
      have hs : w.visited[j]? = some false := by rw [List.getElem?_eq_getElem hlt, hseen]
      have hset : ∀ u : ℕ, (w.visited.set j true)[u]? = some true ↔ u = j ∨ w.visited[u]? = some true := by
        intro u
        by_cases huj : j = u
        · subst huj
          rw [List.getElem?_set_self hlt]; simp
        · rw [List.getElem?_set_ne huj]
          constructor
          · exact Or.inr
          · rintro (h | h)
            · exact absurd h.symm huj
            · exact h
      have hcnt := count_set_lt hs
      by_cases hge : d.dot (m.vertices.getD j 0) ≥ w.val
      · obtain ⟨w', h1, h2, h3, h4, h5, h6, h7, h8⟩ := walkInner_spec (m := m) (d := d) (l := l) (i := i + 1)
          (w := ⟨w.visited.set j true, j, d.dot (m.vertices.getD j 0), true⟩) hn' hj'
          ⟨by simpa using hw.len, hjn, rfl, fun u hu => by
            rcases (hset u).1 hu with rfl | hu
            · exact le_refl _
            · exact le_trans (hw.seen u hu) hge⟩
        refine ⟨w', ?_, h2, le_trans hge h3, ?_, ?_, ?_, by simp only at h7; omega, fun _ => Or.inr (by simp only at h7; omega)⟩
        · simp only [List.length_cons, walkInner, hn0, hs, getElem?_eq_getD hjn, Option.bind_eq_bind, Option.bind_some,
            Bool.false_eq_true, if_false]
          rw [if_pos hge]
          exact h1
        · intro u hu
          rcases List.mem_cons.1 hu with rfl | hu
          · exact h5 _ ((hset _).2 (Or.inl rfl))
          · exact h4 u hu
        · intro u hu
          exact h5 _ ((hset _).2 (Or.inr hu))
        · intro hk
          have := h6 hk
          rw [this] at hk
          simp at hk
      · obtain ⟨w', h1, h2, h3, h4, h5, h6, h7, h8⟩ := walkInner_spec (m := m) (d := d) (l := l) (i := i + 1)
          (w := { w with visited := w.visited.set j true }) hn' hj'
          ⟨by simpa using hw.len, hw.ext, hw.val, fun u hu => by
            rcases (hset u).1 hu with rfl | hu
            · exact (not_le.1 hge).le
            · exact hw.seen u hu⟩
        refine ⟨w', ?_, h2, h3, ?_, ?_, ?_, by simp only at h7; omega, fun h => ?_⟩
        · simp only [List.length_cons, walkInner, hn0, hs, getElem?_eq_getD hjn, Option.bind_eq_bind, Option.bind_some,
            Bool.false_eq_true, if_false]
          rw [if_neg hge]
          exact h1
        · intro u hu
          rcases List.mem_cons.1 hu with rfl | hu
          · exact h5 _ ((hset _).2 (Or.inl rfl))
          · exact h4 u hu
        · intro u hu
          exact h5 _ ((hset _).2 (Or.inr hu))
        · intro hk
          exact h6 hk
        · right; simp only at h7; omega
    · -- seen before
      have hs : w.visited[j]? = some true := by rw [List.getElem?_eq_getElem hlt, hseen]
      obtain ⟨w', h1, h2, h3, h4, h5, h6, h7, h8⟩ := walkInner_spec (m := m) (d := d) (l := l) (i := i + 1) (w := w) hn' hj' hw
      refine ⟨w', ?_, h2, h3, ?_, h5, h6, h7, h8⟩
      · simp only [List.length_cons, walkInner, hn0, hs, Option.bind_eq_bind, Option.bind_some, if_true]
        exact h1
      · intro u hu
        rcases List.mem_cons.1 hu with rfl | hu
        · exact h5 _ hs
        · exact h4 u hu

theorem walk_spec {m : Mesh K} {d : V3 K} {ns : List (List ℕ)} (henc : Enc m.neighbors ns)
    (hl : ns.length = m.vertices.length) (hb : ∀ u, ∀ j ∈ nb ns u, j < m.vertices.length) :
    ∀ {fuel : ℕ} {w : Walk K}, Inv m.vertices d w → w.visited.count false < fuel →
      ∃ w', walk m d fuel w = some w' ∧ Inv m.vertices d w' ∧ ∀ j ∈ nb ns w'.ext, height m.vertices d j ≤ w'.val
  | 0, w, _, hf => by omega
  | fuel + 1, w, hw, hf => by
    obtain ⟨s, e1, e2, e3⟩ := henc w.ext (by rw [hl]; exact hw.ext)
    obtain ⟨w', h1, h2, h3, h4, h5, h6, h7, h8⟩ := walkInner_spec (m := m) (d := d) (l := nb ns w.ext) (i := s + 1)
      (w := { w with keep := false }) e3 (hb _) ⟨hw.len, hw.ext, hw.val, hw.seen⟩
    have hstep : walk m d (fuel + 1) w = if w'.keep then walk m d fuel w' else some w' := by
      rw [walk]
      simp only [e1, e2, h1, Option.bind_eq_bind, Option.bind_some]
      rfl
    by_cases hk : w'.keep = true
    · have hlt := (h8 hk).resolve_left (by simp)
      obtain ⟨w'', g1, g2, g3⟩ := walk_spec henc hl hb (fuel := fuel) h2 (by simp only at hlt; omega)
      exact ⟨w'', by rw [hstep, if_pos hk, g1], g2, g3⟩
    · refine ⟨w', by rw [hstep, if_neg hk], h2, ?_⟩
      have hkf : w'.keep = false := by simpa using hk
      have he : w'.ext = w.ext := by rw [h6 hkf]
      intro j hj
      rw [he] at hj
      exact h2.seen j (h4 j hj)

theorem linear_spec {d : V3 K} : ∀ {ps pre : List (V3 K)} {ext : ℕ} {val : K}, ext < pre.length →
    val = height (pre ++ ps) d ext → (∀ j < pre.length, height (pre ++ ps) d j ≤ val) →
    IsExtreme (pre ++ ps) d (linear d ps pre.length ext val)
  | [], pre, ext, val, he, hv, hm => by
    rw [linear]
    refine ⟨by simpa using he, ?_⟩
    rw [← hv]
    intro j hj
    exact hm j (by simpa using hj)
  | p :: ps, pre, ext, val, he, hv, hm => by
    have happ : pre ++ p :: ps = (pre ++ [p]) ++ ps := by simp
    have hp : height (pre ++ p :: ps) d pre.length = d.dot p := by
      unfold height
      congr 1
      simp [List.getD_eq_getElem?_getD]
    rw [linear]
    by_cases hgt : d.dot p > val
    · rw [if_pos hgt]
      have := linear_spec (d := d) (ps := ps) (pre := pre ++ [p]) (ext := pre.length) (val := d.dot p) (by simp)
        (by rw [← happ, hp]) (fun j hj => by
          rw [← happ]
          have : j < pre.length ∨ j = pre.length := by simp at hj; omega
          rcases this with hj | rfl
          · exact le_trans (hm j hj) hgt.le
          · rw [hp])
      rw [happ]
      simpa using this
    · rw [if_neg hgt]
      have := linear_spec (d := d) (ps := ps) (pre := pre ++ [p]) (ext := ext) (val := val) (by simp; omega)
        (by rw [← happ, ← hv]) (fun j hj => by
          rw [← happ]
          have : j < pre.length ∨ j = pre.length := by simp at hj; omega
          rcases this with hj | rfl
          · exact hm j hj
          · rw [hp]; exact not_lt.1 hgt)
      rw [happ]
      simpa using this

end
end Convex
open Convex

section
variable {K : Type} [Field K] [LinearOrder K]

omit [Field K] [LinearOrder K] in
/-- C51, the constructor: for a mesh whose faces use existing vertices the constructor is well defined; it
throws exactly when asked to and the mesh is not closed, and the search follows edges exactly when the mesh
is closed and has more than 32 vertices. -/
theorem C51_constructor (vs : List (V3 K)) {fs : List (List ℕ)} (hr : ∀ f ∈ fs, ∀ v ∈ f, v < vs.length) (thr : Bool) :
    (construct vs fs.length (flat fs) thr = .throws ∧ thr = true ∧ ¬ Closed vs.length fs) ∨
    ∃ m, construct vs fs.length (flat fs) thr = .ok m ∧ (thr = true → Closed vs.length fs) ∧ m.vertices = vs ∧
      (m.viaNeighbors = true ↔ 32 < vs.length ∧ Closed vs.length fs) := by
  obtain ⟨enc, ns, h1, h2, h3, h4⟩ := findVertexNeighbors_spec hr
  obtain ⟨g, h5, h6⟩ := topologyOk_spec h3 h2 hr h4
  unfold construct
  rw [h1]
  simp only [h5]
  by_cases hc : (!g && thr) = true
  · left
    rw [if_pos hc]
    rw [Bool.and_eq_true, Bool.not_eq_true'] at hc
    refine ⟨rfl, hc.2, fun h => ?_⟩
    rw [h6.2 h] at hc
    simp at hc
  · right
    rw [if_neg hc]
    refine ⟨_, rfl, ?_, rfl, ?_⟩
    · intro ht
      subst ht
      rw [← h6]
      simpa using hc
    · simp [h6]

/-- C51, termination and local optimality: on every mesh and in every direction the search ends, after at most
one pass more than there are vertices, with a vertex which lies at least as far in the direction as all
vertices adjacent to it; the linear search with one which lies farthest of all. -/
theorem C51_local_max {vs : List (V3 K)} {fs : List (List ℕ)} (hne : vs ≠ []) (hr : ∀ f ∈ fs, ∀ v ∈ f, v < vs.length)
    {thr : Bool} {m : Mesh K} (hm : construct vs fs.length (flat fs) thr = .ok m) (d : V3 K) {fuel : ℕ} (hf : vs.length < fuel) :
    ∃ i, findExtreme fuel m d = some i ∧ findExtremeVertex fuel m d = some (vs.getD i 0) ∧ IsLocalMax vs fs d i ∧
      (m.viaNeighbors = false → IsExtreme vs d i) := by
  obtain ⟨enc, ns, h1, h2, h3, h4⟩ := findVertexNeighbors_spec hr
  obtain ⟨g, h5, h6⟩ := topologyOk_spec h3 h2 hr h4
  unfold construct at hm
  rw [h1] at hm
  simp only [h5] at hm
  have hmeq : m = ⟨vs, enc, decide (32 < vs.length) && g⟩ := by
    split_ifs at hm
    exact (Built.ok.inj hm).symm
  have hvs : m.vertices = vs := by rw [hmeq]
  have henc : m.neighbors = enc := by rw [hmeq]
  have hpos : 0 < vs.length := List.length_pos_iff.2 hne
  have hadj : ∀ {a b}, Adjacent fs a b → b < vs.length := fun h => h.symm.lt hr
  have h0 : m.vertices[0]? = some (vs.getD 0 0) := by rw [hvs]; exact getElem?_eq_getD hpos
  suffices h : ∃ i, findExtreme fuel m d = some i ∧ IsLocalMax vs fs d i ∧ (m.viaNeighbors = false → IsExtreme vs d i) by
    obtain ⟨i, g1, g2, g3⟩ := h
    refine ⟨i, g1, ?_, g2, g3⟩
    unfold findExtremeVertex
    rw [g1]
    simp only [Option.bind_some]
    rw [hvs, getElem?_eq_getD g2.1]
  unfold findExtreme
  rw [h0]
  simp only [Option.bind_eq_bind, Option.bind_some]
  by_cases hv : m.viaNeighbors = true
  · rw [if_pos hv]
    obtain ⟨w, g1, g2, g3⟩ := walk_spec (m := m) (d := d) (ns := ns) (by rw [henc]; exact h3) (by rw [h2, hvs])
      (fun u j hj => by rw [hvs]; exact hadj ((h4 u j).1 hj)) (fuel := fuel)
      (w := ⟨List.replicate m.vertices.length false, 0, d.dot (vs.getD 0 0), false⟩)
      ⟨by simp, by rw [hvs]; exact hpos, by rw [hvs]; rfl, fun j hj => by
        rw [List.getElem?_replicate] at hj
        split_ifs at hj
        simp at hj⟩ (by simpa [hvs] using hf)
    refine ⟨w.ext, by rw [g1]; rfl, ⟨by rw [← hvs]; exact g2.ext, ?_⟩, fun h => by rw [hv] at h; simp at h⟩
    intro j hj
    have := g3 j ((h4 _ _).2 hj)
    rw [g2.val, hvs] at this
    exact this
  · rw [if_neg hv]
    obtain ⟨p, ps, rfl⟩ := List.exists_cons_of_ne_nil hne
    have hex : IsExtreme (p :: ps) d (linear d m.vertices.tail 1 0 (d.dot ((p :: ps).getD 0 0))) := by
      rw [hvs]
      exact linear_spec (d := d) (ps := ps) (pre := [p]) (ext := 0) (val := d.dot p) (by simp) rfl (fun j hj => by
        have : j = 0 := by simpa using hj
        subst this
        exact le_refl _)
    exact ⟨_, rfl, ⟨hex.1, fun j hj => hex.2 j (hadj hj)⟩, fun _ => hex⟩

/-- C51: on every mesh on which a vertex that is not lower than its neighbours is a highest vertex, and in
every direction, the search ends with a vertex which lies farthest in the direction. -/
theorem C51_extreme {vs : List (V3 K)} {fs : List (List ℕ)} (hne : vs ≠ []) (hr : ∀ f ∈ fs, ∀ v ∈ f, v < vs.length)
    {thr : Bool} {m : Mesh K} (hm : construct vs fs.length (flat fs) thr = .ok m) (d : V3 K)
    (hg : 32 < vs.length → Closed vs.length fs → ∀ i, IsLocalMax vs fs d i → IsExtreme vs d i) {fuel : ℕ} (hf : vs.length < fuel) :
    ∃ i, IsExtreme vs d i ∧ findExtremeVertex fuel m d = some (vs.getD i 0) := by
  obtain ⟨i, _, h1, h2, h3⟩ := C51_local_max hne hr hm d hf
  refine ⟨i, ?_, h1⟩
  by_cases hv : m.viaNeighbors = true
  · rcases C51_constructor vs hr thr with ⟨h, _⟩ | ⟨m', h, _, _, hvia⟩
    · rw [hm] at h; exact absurd h (by simp)
    · rw [hm] at h
      obtain rfl := Built.ok.inj h
      exact hg (hvia.1 hv).1 (hvia.1 hv).2 i h2
  · exact h3 (by simpa using hv)

end

section
variable {K : Type} [Field K] [LinearOrder K] [IsStrictOrderedRing K]

/-- Vertex `i` is a corner: the mesh lies in the cone spanned by the edges at `i`. (The equation of vectors is
stated for their products with every `d`.) -/
def IsCorner (vs : List (V3 K)) (fs : List (List ℕ)) (i : ℕ) : Prop :=
  ∀ j < vs.length, ∃ c : ℕ → K, (∀ k, 0 ≤ c k) ∧ ∃ s : Finset ℕ, (∀ k ∈ s, Adjacent fs i k) ∧
    ∀ d : V3 K, height vs d j - height vs d i = ∑ k ∈ s, c k * (height vs d k - height vs d i)

/-- C51 for polytopes: when the edges at every vertex span the cone of the polytope there, as they do in the
boundary of a convex polytope all vertices of which are corners, the vertex found in any direction lies
farthest. -/
theorem C51_polytope {vs : List (V3 K)} {fs : List (List ℕ)} (hne : vs ≠ []) (hr : ∀ f ∈ fs, ∀ v ∈ f, v < vs.length)
    {thr : Bool} {m : Mesh K} (hm : construct vs fs.length (flat fs) thr = .ok m) (hc : ∀ i < vs.length, IsCorner vs fs i)
    (d : V3 K) {fuel : ℕ} (hf : vs.length < fuel) :
    ∃ i, IsExtreme vs d i ∧ findExtremeVertex fuel m d = some (vs.getD i 0) := by
  refine C51_extreme hne hr hm d ?_ hf
  intro _ _ i hi
  refine ⟨hi.1, fun j hj => ?_⟩
  obtain ⟨c, hc0, s, hs, hd⟩ := hc i hi.1 j hj
  have hsum : ∑ k ∈ s, c k * (height vs d k - height vs d i) ≤ 0 :=
    Finset.sum_nonpos (fun k hk => mul_nonpos_of_nonneg_of_nonpos (hc0 k) (by linarith [hi.2 k (hs k hk)]))
  linarith [hd d]

end

instance (fs : List (List ℕ)) (a b : ℕ) : Decidable (Adjacent fs a b) :=
  inferInstanceAs (Decidable (∃ f ∈ fs, ∃ k < f.length, _))

/-- A tetrahedron. -/
def tetraVerts : List (V3 ℚ) := [⟨0, 0, 0⟩, ⟨1, 0, 0⟩, ⟨0, 1, 0⟩, ⟨0, 0, 1⟩]
def tetraFaces : List (List ℕ) := [[0, 2, 1], [0, 1, 3], [1, 2, 3], [2, 0, 3]]

/-- Non-vacuity of `C51_polytope`: the vertices of a tetrahedron are corners. -/
example : (∀ f ∈ tetraFaces, ∀ v ∈ f, v < tetraVerts.length) ∧
    (∃ m, construct tetraVerts tetraFaces.length (flat tetraFaces) true = .ok m) ∧
    ∀ i < tetraVerts.length, IsCorner tetraVerts tetraFaces i := by
  have hadj : ∀ i < 4, ∀ j < 4, j ≠ i → Adjacent tetraFaces i j := by decide +kernel
  refine ⟨by decide +kernel, ⟨_, rfl⟩, ?_⟩
  intro i hi j hj
  by_cases hij : j = i
  · subst hij
    exact ⟨fun _ => 0, fun _ => le_refl _, ∅, by simp, by simp⟩
  · exact ⟨fun _ => 1, fun _ => zero_le_one, {j}, fun k hk => by
      rw [Finset.mem_singleton] at hk; subst hk; exact hadj i hi k hj hij, fun d => by simp⟩

/-- A pyramid over a polygon with 33 corners. -/
def pyramidVerts : List (V3 ℚ) := (List.range 33).map (fun i => ⟨i, i * i, 0⟩) ++ [⟨16, 300, 1⟩]
def pyramidFaces : List (List ℕ) :=
  [(List.range 33).reverse, [32, 0, 33]] ++ (List.range 32).map (fun i => [i, i + 1, 33])

/-- Non-vacuity of `C51_extreme` with a walk along the edges. -/
example : pyramidVerts ≠ [] ∧ (∀ f ∈ pyramidFaces, ∀ v ∈ f, v < pyramidVerts.length) ∧
    (match construct pyramidVerts pyramidFaces.length (flat pyramidFaces) true with
     | .ok m => m.viaNeighbors && decide (findExtreme 35 m ⟨0, 0, 1⟩ = some 33)
     | _ => false) = true ∧
    ∀ i, IsLocalMax pyramidVerts pyramidFaces ⟨0, 0, 1⟩ i → IsExtreme pyramidVerts ⟨0, 0, 1⟩ i := by
  refine ⟨by decide +kernel, by decide +kernel, by decide +kernel, ?_⟩
  have hadj : ∀ i < 33, Adjacent pyramidFaces i 33 := by decide +kernel
  have hlow : ∀ i < 33, ¬ height pyramidVerts ⟨0, 0, 1⟩ 33 ≤ height pyramidVerts ⟨0, 0, 1⟩ i := by
    unfold height; decide +kernel
  have htop : ∀ j < pyramidVerts.length, height pyramidVerts ⟨0, 0, 1⟩ j ≤ height pyramidVerts ⟨0, 0, 1⟩ 33 := by
    unfold height; decide +kernel
  intro i hi
  have hlen : pyramidVerts.length = 34 := by decide +kernel
  by_cases h : i < 33
  · exact absurd (hi.2 33 (hadj i h)) (hlow i h)
  · have : i = 33 := by have := hi.1; rw [hlen] at this; omega
    subst this
    exact ⟨hi.1, htop⟩

/-- A pyramid over a polygon with 31 corners, the base of which is cut into triangles at two inner points:
vertex 0, next to all corners, and vertex 33, next to 0 and to two corners. The apex is vertex 32. -/
def badVerts : List (V3 ℚ) :=
  ⟨15, 400, 0⟩ :: (List.range 31).map (fun i => ⟨i, i * i, 0⟩) ++ [⟨15, 300, 1⟩, ⟨15, 430, 0⟩]
def badFaces : List (List ℕ) :=
  (List.range 30).map (fun i => [0, i + 2, i + 1]) ++ (List.range 30).map (fun i => [i + 1, i + 2, 32]) ++
  [[31, 1, 32], [0, 1, 33], [1, 31, 33], [31, 0, 33]]

/-- All vertices lie on one side of the plane of a triangle. -/
def onOneSide (vs : List (V3 ℚ)) : List ℕ → Bool
  | [a, b, c] =>
    let A := vs.getD a 0
    vs.all (fun v => decide (((vs.getD b 0 - A).cross (vs.getD c 0 - A)).dot (v - A) ≤ 0))
  | _ => false

/-- The condition on local maxima in C51 is needed, even for meshes that are closed and convex: on the mesh
above, all triangles of which are faces of the convex hull, the search in the direction of the apex ends at
the vertex 0 in the base. The comparison by `>=` in the code, which is meant to prevent this (comment in
lines 290-295), lets the walk leave vertex 0 for vertex 33, but it returns to 0 and ends there. -/
theorem C51_violated_coplanar :
    (∀ f ∈ badFaces, ∀ v ∈ f, v < badVerts.length) ∧ badFaces.all (onOneSide badVerts) = true ∧
    (match construct badVerts badFaces.length (flat badFaces) true with
     | .ok m => m.viaNeighbors && decide (findExtremeVertex 100 m ⟨0, 0, 1⟩ = some ⟨15, 400, 0⟩)
     | _ => false) = true ∧
    (⟨0, 0, 1⟩ : V3 ℚ).dot ⟨15, 400, 0⟩ = 0 ∧ ⟨15, 300, 1⟩ ∈ badVerts ∧ (⟨0, 0, 1⟩ : V3 ℚ).dot ⟨15, 300, 1⟩ = 1 := by
  refine ⟨?_, ?_, ?_, ?_, ?_, ?_⟩ <;> decide +kernel

end Fcl
