import Verif.Geom.ShapeMeshSpec
import Mathlib.Data.List.Nodup
import Mathlib.Data.List.Perm.Basic

/-! # The surface of a globe: rows of vertices around the axis and two poles -/

namespace Fcl
namespace ToMesh

/-- The next segment around the axis. -/
def nx (m j : ℕ) : ℕ := if j = m - 1 then 0 else j + 1

theorem nx_spec {m j : ℕ} (h : j < m) : (nx m j = j + 1 ∧ j + 1 < m) ∨ (nx m j = 0 ∧ j + 1 = m) := by
  unfold nx
  split <;> omega

/-- The sides of the triangles of cell `(i, j)`: next to the first pole for `i = 0`, next to the second one for `i = n`,
between rows `i` and `i + 1` otherwise. Vertices are pairs of a row and a segment, and the poles are rows `0` and
`n + 1`. -/
def cell (n m i j : ℕ) : List ((ℕ × ℕ) × (ℕ × ℕ)) :=
  if i = 0 then [((0, 0), (1, j)), ((1, j), (1, nx m j)), ((1, nx m j), (0, 0))]
  else if i = n then [((n, j), (n + 1, 0)), ((n + 1, 0), (n, nx m j)), ((n, nx m j), (n, j))]
  else [((i, j), (i + 1, j)), ((i + 1, j), (i, nx m j)), ((i, nx m j), (i, j)),
    ((i, nx m j), (i + 1, j)), ((i + 1, j), (i + 1, nx m j)), ((i + 1, nx m j), (i, nx m j))]

/-- All sides. -/
def globe (n m : ℕ) : List ((ℕ × ℕ) × (ℕ × ℕ)) := (List.range (n + 1)).flatMap fun i => (List.range m).flatMap fun j => cell n m i j

variable {n m : ℕ}

theorem mem_globe {e : (ℕ × ℕ) × (ℕ × ℕ)} : e ∈ globe n m ↔ ∃ i ≤ n, ∃ j < m, e ∈ cell n m i j := by
  simp [globe, Nat.lt_succ_iff]

theorem cell_unique (hn : 1 ≤ n) (hm : 3 ≤ m) {i j i' j' : ℕ} (hi : i ≤ n) (hj : j < m) (hi' : i' ≤ n) (hj' : j' < m)
    {e : (ℕ × ℕ) × (ℕ × ℕ)} (h : e ∈ cell n m i j) (h' : e ∈ cell n m i' j') : i = i' ∧ j = j' := by
  have k := nx_spec hj
  have k' := nx_spec hj'
  obtain ⟨⟨a, b⟩, c, d⟩ := e
  unfold cell at h h'
  split_ifs at h h' <;> simp only [List.mem_cons, Prod.mk.injEq, List.not_mem_nil, or_false] at h h' <;>
    generalize nx m j = x at * <;> generalize nx m j' = y at * <;>
    rcases h with h | h | h | h | h | h <;> rcases h' with h' | h' | h' | h' | h' | h' <;> omega

theorem cell_nodup (hn : 1 ≤ n) (hm : 3 ≤ m) {i j : ℕ} (hi : i ≤ n) (hj : j < m) : (cell n m i j).Nodup := by
  have k := nx_spec hj
  unfold cell
  split_ifs <;> simp only [List.nodup_cons, List.mem_cons, Prod.mk.injEq, List.not_mem_nil, or_false, List.nodup_nil, and_true,
    not_false_eq_true] <;> generalize nx m j = x at * <;> omega

theorem globe_nodup (hn : 1 ≤ n) (hm : 3 ≤ m) : (globe n m).Nodup := by
  unfold globe
  refine List.nodup_flatMap.2 ⟨fun i hi => ?_, ?_⟩
  · have hi : i ≤ n := by simpa [Nat.lt_succ_iff] using hi
    refine List.nodup_flatMap.2 ⟨fun j hj => cell_nodup hn hm hi (List.mem_range.1 hj), ?_⟩
    refine List.nodup_range.imp_of_mem fun {j j'} hj hj' hne e h h' => hne ?_
    exact (cell_unique hn hm hi (List.mem_range.1 hj) hi (List.mem_range.1 hj') h h').2
  · refine List.nodup_range.imp_of_mem fun {i i'} hi hi' hne e h h' => hne ?_
    simp only [List.mem_flatMap, List.mem_range] at h h' hi hi'
    obtain ⟨j, hj, h⟩ := h
    obtain ⟨j', hj', h'⟩ := h'
    exact (cell_unique hn hm (by omega) hj (by omega) hj' h h').1

/-- Every segment is the next of one. -/
theorem exists_nx {j : ℕ} (hj : j < m) : ∃ k < m, nx m k = j := by
  by_cases h : j = 0
  · exact ⟨m - 1, by omega, by simp [nx, h]⟩
  · refine ⟨j - 1, by omega, ?_⟩
    unfold nx
    split <;> omega

theorem nx_lt {j : ℕ} (hj : j < m) : nx m j < m := by have := nx_spec hj; omega

theorem globe_back (hn : 1 ≤ n) (hm : 3 ≤ m) {u v : ℕ × ℕ} (h : (u, v) ∈ globe n m) : (v, u) ∈ globe n m := by
  obtain ⟨i, hi, j, hj, h⟩ := mem_globe.1 h
  obtain ⟨k, hk, rfl⟩ := exists_nx hj
  have hx := nx_lt hj
  rw [mem_globe]
  unfold cell at h
  split_ifs at h with h0 h1 <;> simp only [List.mem_cons, Prod.mk.injEq, List.not_mem_nil, or_false] at h
  · rcases h with ⟨rfl, rfl⟩ | ⟨rfl, rfl⟩ | ⟨rfl, rfl⟩
    · exact ⟨0, by omega, k, hk, by simp [cell]⟩
    · refine ⟨1, hn, nx m k, hj, ?_⟩
      unfold cell
      split_ifs <;> simp_all
    · exact ⟨0, by omega, _, hx, by simp [cell]⟩
  · subst h1
    rcases h with ⟨rfl, rfl⟩ | ⟨rfl, rfl⟩ | ⟨rfl, rfl⟩
    · exact ⟨i, le_refl _, k, hk, by simp [cell, h0]⟩
    · exact ⟨i, le_refl _, _, hx, by simp [cell, h0]⟩
    · refine ⟨i - 1, by omega, nx m k, hj, ?_⟩
      obtain ⟨i, rfl⟩ : ∃ l, i = l + 1 := ⟨i - 1, by omega⟩
      unfold cell
      split_ifs <;> simp_all
  · rcases h with ⟨rfl, rfl⟩ | ⟨rfl, rfl⟩ | ⟨rfl, rfl⟩ | ⟨rfl, rfl⟩ | ⟨rfl, rfl⟩ | ⟨rfl, rfl⟩
    · exact ⟨i, hi, k, hk, by simp [cell, h0, h1]⟩
    · exact ⟨i, hi, _, hj, by simp [cell, h0, h1]⟩
    · refine ⟨i - 1, by omega, nx m k, hj, ?_⟩
      obtain ⟨i, rfl⟩ : ∃ l, i = l + 1 := ⟨i - 1, by omega⟩
      unfold cell
      split_ifs <;> simp_all
    · exact ⟨i, hi, _, hj, by simp [cell, h0, h1]⟩
    · refine ⟨i + 1, by omega, nx m k, hj, ?_⟩
      unfold cell
      split_ifs <;> simp_all
    · exact ⟨i, hi, _, hx, by simp [cell, h0, h1]⟩

/-- A pole or a vertex of a row. -/
def Vertex (n m : ℕ) (u : ℕ × ℕ) : Prop := (u.1 = 0 ∧ u.2 = 0) ∨ (1 ≤ u.1 ∧ u.1 ≤ n ∧ u.2 < m) ∨ (u.1 = n + 1 ∧ u.2 = 0)

theorem globe_vertex (hn : 1 ≤ n) {u v : ℕ × ℕ} (h : (u, v) ∈ globe n m) : Vertex n m u ∧ Vertex n m v := by
  obtain ⟨i, hi, j, hj, h⟩ := mem_globe.1 h
  have hx := nx_lt hj
  obtain ⟨a, b⟩ := u
  obtain ⟨c, d⟩ := v
  unfold Vertex
  unfold cell at h
  split_ifs at h with h0 h1 <;> simp only [List.mem_cons, Prod.mk.injEq, List.not_mem_nil, or_false] at h <;>
    generalize nx m j = x at * <;> dsimp only <;> omega

theorem globe_ne (hm : 3 ≤ m) {u v : ℕ × ℕ} (h : (u, v) ∈ globe n m) : u ≠ v := by
  obtain ⟨i, hi, j, hj, h⟩ := mem_globe.1 h
  have hx := nx_spec hj
  obtain ⟨a, b⟩ := u
  obtain ⟨c, d⟩ := v
  rw [ne_eq, Prod.mk.injEq]
  unfold cell at h
  split_ifs at h with h0 h1 <;> simp only [List.mem_cons, Prod.mk.injEq, List.not_mem_nil, or_false] at h <;>
    generalize nx m j = x at * <;> omega

/-- Every vertex is the start of a side. -/
theorem globe_used (hn : 1 ≤ n) (hm : 3 ≤ m) {u : ℕ × ℕ} (h : Vertex n m u) : ∃ v, (u, v) ∈ globe n m := by
  obtain ⟨a, b⟩ := u
  rcases h with ⟨h1, h2⟩ | ⟨h1, h2, h3⟩ | ⟨h1, h2⟩ <;> dsimp only at h1 h2
  · subst h1 h2
    exact ⟨(1, 0), mem_globe.2 ⟨0, by omega, 0, by omega, by simp [cell]⟩⟩
  · dsimp only at h3
    rcases Nat.eq_or_lt_of_le h2 with rfl | h2
    · exact ⟨(a + 1, 0), mem_globe.2 ⟨a, le_refl _, b, h3, by unfold cell; split_ifs <;> simp_all⟩⟩
    · exact ⟨(a + 1, b), mem_globe.2 ⟨a, by omega, b, h3, by unfold cell; split_ifs <;> simp_all⟩⟩
  · subst h1 h2
    exact ⟨(n, nx m 0), mem_globe.2 ⟨n, le_refl _, 0, by omega, by unfold cell; split_ifs <;> simp_all⟩⟩

/-- The index of a vertex in the vector of points. -/
def idx (n m : ℕ) (u : ℕ × ℕ) : ℕ := if u.1 = 0 then n * m else if u.1 = n + 1 then n * m + 1 else (u.1 - 1) * m + u.2

theorem row_lt {i j : ℕ} (hi : i < n) (hj : j < m) : i * m + j < n * m := by
  calc i * m + j < i * m + m := by omega
    _ = (i + 1) * m := by ring
    _ ≤ n * m := Nat.mul_le_mul_right _ hi

theorem row_inj {i j i' j' : ℕ} (hj : j < m) (hj' : j' < m) (h : i * m + j = i' * m + j') : i = i' ∧ j = j' := by
  have hm : 0 < m := by omega
  have h1 : (i * m + j) / m = i := by rw [Nat.mul_comm, Nat.mul_add_div hm, Nat.div_eq_of_lt hj, Nat.add_zero]
  have h2 : (i' * m + j') / m = i' := by rw [Nat.mul_comm, Nat.mul_add_div hm, Nat.div_eq_of_lt hj', Nat.add_zero]
  have e : i = i' := by rw [← h1, h, h2]
  subst e
  exact ⟨rfl, by omega⟩

theorem idx_inj {u v : ℕ × ℕ} (hu : Vertex n m u) (hv : Vertex n m v) (h : idx n m u = idx n m v) : u = v := by
  obtain ⟨a, b⟩ := u
  obtain ⟨c, d⟩ := v
  simp only [idx] at h
  simp only [Vertex] at hu hv
  rw [Prod.mk.injEq]
  have k1 : 1 ≤ a ∧ a ≤ n ∧ b < m → (a - 1) * m + b < n * m := fun k => row_lt (by omega) k.2.2
  have k2 : 1 ≤ c ∧ c ≤ n ∧ d < m → (c - 1) * m + d < n * m := fun k => row_lt (by omega) k.2.2
  split_ifs at h
  · omega
  · omega
  · have := k2 (by omega); omega
  · omega
  · omega
  · have := k2 (by omega); omega
  · have := k1 (by omega); omega
  · have := k1 (by omega); omega
  · have := row_inj (by omega) (by omega) h; omega

theorem idx_lt {u : ℕ × ℕ} (hu : Vertex n m u) : idx n m u < n * m + 2 := by
  obtain ⟨a, b⟩ := u
  simp only [Vertex] at hu
  simp only [idx]
  split_ifs
  · omega
  · omega
  · have := row_lt (n := n) (m := m) (i := a - 1) (j := b) (by omega) (by omega); omega

theorem idx_surj (hm : 1 ≤ m) {k : ℕ} (hk : k < n * m + 2) : ∃ u, Vertex n m u ∧ idx n m u = k := by
  by_cases h1 : k = n * m
  · exact ⟨(0, 0), .inl ⟨rfl, rfl⟩, by simp [idx, h1]⟩
  by_cases h2 : k = n * m + 1
  · exact ⟨(n + 1, 0), .inr (.inr ⟨rfl, rfl⟩), by simp [idx, h2]⟩
  have h3 : k / m < n := by rw [Nat.div_lt_iff_lt_mul (by omega)]; omega
  refine ⟨(k / m + 1, k % m), .inr (.inl ⟨by simp, h3, Nat.mod_lt _ (by omega)⟩), ?_⟩
  rw [idx, if_neg (by simp), if_neg (by simp; omega)]
  simp only [Nat.add_sub_cancel]
  rw [Nat.mul_comm]
  exact Nat.div_add_mod k m

/-- A list of triangles whose sides are those of the globe. -/
def IsGlobe (n m : ℕ) (ts : List (ℕ × ℕ × ℕ)) : Prop := (sides ts).Perm ((globe n m).map (Prod.map (idx n m) (idx n m)))

theorem IsGlobe.mem {ts : List (ℕ × ℕ × ℕ)} (h : IsGlobe n m ts) {a b : ℕ} :
    (a, b) ∈ sides ts ↔ ∃ u v, (u, v) ∈ globe n m ∧ idx n m u = a ∧ idx n m v = b := by
  rw [h.mem_iff, List.mem_map]
  constructor
  · rintro ⟨⟨u, v⟩, h1, h2⟩
    simp only [Prod.map_apply, Prod.mk.injEq] at h2
    exact ⟨u, v, h1, h2⟩
  · rintro ⟨u, v, h1, h2, h3⟩
    exact ⟨(u, v), h1, by simp [h2, h3]⟩

theorem IsGlobe.closed {ts : List (ℕ × ℕ × ℕ)} (h : IsGlobe n m ts) (hn : 1 ≤ n) (hm : 3 ≤ m) : Closed ts where
  once := by
    refine h.nodup_iff.2 (List.Nodup.map_on ?_ (globe_nodup hn hm))
    rintro ⟨u, v⟩ h1 ⟨u', v'⟩ h2 e
    simp only [Prod.map_apply, Prod.mk.injEq] at e
    rw [idx_inj (globe_vertex hn h1).1 (globe_vertex hn h2).1 e.1, idx_inj (globe_vertex hn h1).2 (globe_vertex hn h2).2 e.2]
  back a b hab := by
    obtain ⟨u, v, h1, rfl, rfl⟩ := h.mem.1 hab
    exact h.mem.2 ⟨v, u, globe_back hn hm h1, rfl, rfl⟩
  proper a b hab e := by
    obtain ⟨u, v, h1, rfl, rfl⟩ := h.mem.1 hab
    exact globe_ne hm h1 (idx_inj (globe_vertex hn h1).1 (globe_vertex hn h1).2 e)

theorem IsGlobe.inRange {ts : List (ℕ × ℕ × ℕ)} (h : IsGlobe n m ts) (hn : 1 ≤ n) :
    ∀ t ∈ ts, t.1 < n * m + 2 ∧ t.2.1 < n * m + 2 ∧ t.2.2 < n * m + 2 := by
  intro t ht
  have key : ∀ a b, (a, b) ∈ sides ts → a < n * m + 2 := by
    intro a b hab
    obtain ⟨u, v, h1, rfl, rfl⟩ := h.mem.1 hab
    exact idx_lt (globe_vertex hn h1).1
  refine ⟨key _ t.2.1 ?_, key _ t.2.2 ?_, key _ t.1 ?_⟩ <;> exact List.mem_flatMap.2 ⟨t, ht, by simp⟩

theorem IsGlobe.used {ts : List (ℕ × ℕ × ℕ)} (h : IsGlobe n m ts) (hn : 1 ≤ n) (hm : 3 ≤ m) {k : ℕ} (hk : k < n * m + 2) :
    ∃ t ∈ ts, k = t.1 ∨ k = t.2.1 ∨ k = t.2.2 := by
  obtain ⟨u, hu, rfl⟩ := idx_surj (by omega) hk
  obtain ⟨v, hv⟩ := globe_used hn hm hu
  obtain ⟨t, ht, k⟩ := List.mem_flatMap.1 (h.mem.2 ⟨u, v, hv, rfl, rfl⟩)
  refine ⟨t, ht, ?_⟩
  simp only [List.mem_cons, Prod.mk.injEq, List.not_mem_nil, or_false] at k
  omega

/-- The poles first and last. -/
theorem globe_eq (hn : 1 ≤ n) : globe n m = ((List.range m).flatMap fun j => cell n m 0 j) ++
    ((List.range (n - 1)).flatMap fun i => (List.range m).flatMap fun j => cell n m (i + 1) j) ++
    (List.range m).flatMap fun j => cell n m n j := by
  obtain ⟨n, rfl⟩ : ∃ k, n = k + 1 := ⟨n - 1, by omega⟩
  unfold globe
  rw [List.range_succ_eq_map, List.flatMap_cons, List.flatMap_map, List.range_succ, List.flatMap_append]
  simp

theorem sides_append (a b : List (ℕ × ℕ × ℕ)) : sides (a ++ b) = sides a ++ sides b := List.flatMap_append

theorem sides_flatMap {α : Type*} (l : List α) (f : α → List (ℕ × ℕ × ℕ)) : sides (l.flatMap f) = l.flatMap fun x => sides (f x) :=
  List.flatMap_assoc

theorem map_nx (c : ℕ) (j : ℕ) : (if j = m - 1 then c else c + j + 1) = c + nx m j := by
  unfold nx; split <;> omega

theorem rot (a b c : ℕ × ℕ) : [a, b, c].Perm [b, c, a] := by
  simpa using List.perm_append_comm (l₁ := [a]) (l₂ := [b, c])

/-- The triangles next to the poles and the two triangles between two rows. -/
def topT (n m j : ℕ) : ℕ × ℕ × ℕ := (n * m, j, nx m j)
def botT (n m j : ℕ) : ℕ × ℕ × ℕ := ((n - 1) * m + j, n * m + 1, (n - 1) * m + nx m j)
def upT (m i j : ℕ) : ℕ × ℕ × ℕ := (i * m + j, (i + 1) * m + j, i * m + nx m j)
def lowT (m i j : ℕ) : ℕ × ℕ × ℕ := (i * m + nx m j, (i + 1) * m + j, (i + 1) * m + nx m j)

theorem isGlobe_of (hn : 1 ≤ n) {ts : List (ℕ × ℕ × ℕ)}
    (h : (sides ts).Perm (((List.range m).flatMap fun j => sides [topT n m j]) ++
      ((List.range (n - 1)).flatMap fun i => (List.range m).flatMap fun j => sides [upT m i j, lowT m i j]) ++
      (List.range m).flatMap fun j => sides [botT n m j])) : IsGlobe n m ts := by
  unfold IsGlobe
  rw [globe_eq hn]
  simp only [List.map_append, List.map_flatMap]
  refine h.trans (.of_eq ?_)
  congr 1
  congr 1
  · congr 1
    funext j
    have h1 : ¬ (1 = n + 1) := by omega
    simp [sides, topT, cell, idx, h1]
    omega
  · refine List.flatMap_congr fun i hi => ?_
    congr 1
    funext j
    have h1 : ¬ (i + 1 = n) := by have := List.mem_range.1 hi; omega
    have h2 : ¬ (i = n) := by have := List.mem_range.1 hi; omega
    simp [sides, upT, lowT, cell, idx, h1, h2]
  · congr 1
    funext j
    have h1 : ¬ (n = 0) := by omega
    simp [sides, botT, cell, idx, h1]

theorem sphereTris_eq : sphereTris m n =
    ((List.range (n - 1)).flatMap fun i => (List.range m).flatMap fun j => [upT m i j, lowT m i j]) ++
    (List.range m).flatMap fun j => [topT n m j, botT n m j] := by
  have h : ∀ j, (if j = m - 1 then 0 else j + 1) = nx m j := fun j => rfl
  simp only [sphereTris, map_nx, upT, lowT, topT, botT, h]

theorem sphereTris_globe (hn : 1 ≤ n) : IsGlobe n m (sphereTris m n) := by
  refine isGlobe_of hn ?_
  rw [sphereTris_eq]
  simp only [sides_append, sides_flatMap]
  have h : ∀ j, sides [topT n m j, botT n m j] = sides [topT n m j] ++ sides [botT n m j] := fun j => sides_append [_] [_]
  simp only [h]
  refine (List.Perm.append_left _ (List.flatMap_append_perm _ _ _).symm).trans ?_
  rw [← List.append_assoc]
  exact List.Perm.append_right _ List.perm_append_comm

theorem sideTris_eq (k : ℕ) : sideTris m k = (List.range k).flatMap fun i => (List.range m).flatMap fun j =>
    [((upT m i j).2.2, (upT m i j).1, (upT m i j).2.1), lowT m i j] := by
  unfold sideTris
  refine List.flatMap_congr fun i _ => List.flatMap_congr fun j _ => ?_
  have h : (if j = m - 1 then m else j + 1 + m) = m + nx m j := by unfold nx; split <;> omega
  have h' : (if j = m - 1 then 0 else j + 1) = nx m j := rfl
  simp only [upT, lowT, h, h']
  rw [show (i + 1) * m = i * m + m by ring]
  simp only [Nat.add_assoc, Nat.add_comm j m]

theorem cylinderTris_eq (k : ℕ) : cylinderTris m k = ((List.range m).map fun j => topT (k + 1) m j) ++
    ((List.range m).map fun j => ((botT (k + 1) m j).2.1, (botT (k + 1) m j).2.2, (botT (k + 1) m j).1)) ++ sideTris m k := rfl

theorem coneTris_eq : coneTris m n = ((List.range m).map fun j => topT n m j) ++
    ((List.range m).map fun j => ((botT n m j).2.1, (botT n m j).2.2, (botT n m j).1)) ++ sideTris m (n - 1) := rfl

theorem coneTris_globe (hn : 1 ≤ n) : IsGlobe n m (coneTris m n) := by
  refine isGlobe_of hn ?_
  rw [coneTris_eq, sideTris_eq]
  simp only [sides_append, sides_flatMap, List.map_eq_flatMap]
  rw [List.append_assoc, List.append_assoc]
  refine List.Perm.append_left _ (List.perm_append_comm.trans (List.Perm.append ?_ ?_))
  · refine List.Perm.flatMap_left _ fun i _ => List.Perm.flatMap_left _ fun j _ => ?_
    exact List.Perm.append (rot _ _ _) (List.Perm.refl _)
  · refine List.Perm.flatMap_left _ fun j _ => ?_
    exact (rot _ _ _).trans (rot _ _ _)

theorem cylinderTris_cone (k : ℕ) : cylinderTris m k = coneTris m (k + 1) := rfl

theorem length_sphereTris (hn : 1 ≤ n) : (sphereTris m n).length = 2 * (n * m) := by
  rw [sphereTris_eq]
  obtain ⟨n, rfl⟩ : ∃ k, n = k + 1 := ⟨n - 1, by omega⟩
  simp [List.length_flatMap]
  ring

theorem length_coneTris (hn : 1 ≤ n) : (coneTris m n).length = 2 * (n * m) := by
  rw [coneTris_eq, sideTris_eq]
  obtain ⟨n, rfl⟩ : ∃ k, n = k + 1 := ⟨n - 1, by omega⟩
  simp [List.length_flatMap]
  ring

/-- The triangle, started at any of its corners. -/
def Turned (t g : ℕ × ℕ × ℕ) : Prop := t = g ∨ t = (g.2.1, g.2.2, g.1) ∨ t = (g.2.2, g.1, g.2.1)

/-- One of the triangles of the globe. -/
def Piece (n m : ℕ) (g : ℕ × ℕ × ℕ) : Prop :=
  ∃ j < m, g = topT n m j ∨ g = botT n m j ∨ ∃ i < n - 1, g = upT m i j ∨ g = lowT m i j

theorem sphereTris_piece {t : ℕ × ℕ × ℕ} (h : t ∈ sphereTris m n) : ∃ g, Piece n m g ∧ Turned t g := by
  rw [sphereTris_eq] at h
  simp only [List.mem_append, List.mem_flatMap, List.mem_range, List.mem_cons, List.not_mem_nil, or_false] at h
  rcases h with ⟨i, hi, j, hj, h⟩ | ⟨j, hj, h⟩
  · exact ⟨t, ⟨j, hj, .inr (.inr ⟨i, hi, h⟩)⟩, .inl rfl⟩
  · exact ⟨t, ⟨j, hj, by tauto⟩, .inl rfl⟩

theorem coneTris_piece {t : ℕ × ℕ × ℕ} (h : t ∈ coneTris m n) : ∃ g, Piece n m g ∧ Turned t g := by
  rw [coneTris_eq, sideTris_eq] at h
  simp only [List.mem_append, List.mem_flatMap, List.mem_map, List.mem_range, List.mem_cons, List.not_mem_nil, or_false] at h
  rcases h with (⟨j, hj, rfl⟩ | ⟨j, hj, rfl⟩) | ⟨i, hi, j, hj, h⟩
  · exact ⟨_, ⟨j, hj, .inl rfl⟩, .inl rfl⟩
  · exact ⟨_, ⟨j, hj, .inr (.inl rfl)⟩, .inr (.inl rfl)⟩
  · rcases h with rfl | rfl
    · exact ⟨_, ⟨j, hj, .inr (.inr ⟨i, hi, .inl rfl⟩)⟩, .inr (.inr rfl)⟩
    · exact ⟨_, ⟨j, hj, .inr (.inr ⟨i, hi, .inr rfl⟩)⟩, .inl rfl⟩

end ToMesh
end Fcl
