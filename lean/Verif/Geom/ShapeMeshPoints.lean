import Verif.Geom.ShapeMeshLemmas
import Verif.Geom.Convexity
import Mathlib.Tactic.FieldSimp
import Mathlib.Tactic.LinearCombination

/-! # The points of the generated meshes -/

namespace Fcl
namespace ToMesh
open Real

variable {n m : ℕ}

/-- Rows of points and two poles. -/
def rows {α : Type*} (n m : ℕ) (P : ℕ → ℕ → α) : List α := (List.range n).flatMap fun i => (List.range m).map fun j => P i j

theorem length_rows {α : Type*} (P : ℕ → ℕ → α) : (rows n m P).length = n * m := by simp [rows, List.length_flatMap]

theorem rows_succ {α : Type*} (P : ℕ → ℕ → α) : rows (n + 1) m P = rows n m P ++ (List.range m).map fun j => P n j := by
  simp [rows, List.range_succ, List.flatMap_append]

theorem rows_cons {α : Type*} (P : ℕ → ℕ → α) :
    rows (n + 1) m P = ((List.range m).map fun j => P 0 j) ++ rows n m fun i => P (i + 1) := by
  simp [rows, List.range_succ_eq_map, List.flatMap_cons, List.flatMap_map]

theorem rows_get {α : Type*} (P : ℕ → ℕ → α) {i j : ℕ} (hi : i < n) (hj : j < m) : (rows n m P)[i * m + j]? = some (P i j) := by
  induction n with
  | zero => omega
  | succ n ih =>
    rw [rows_succ]
    rcases Nat.lt_succ_iff_lt_or_eq.1 hi with h | rfl
    · rw [List.getElem?_append_left (by rw [length_rows]; exact row_lt h hj), ih h]
    · rw [List.getElem?_append_right (by rw [length_rows]; omega), length_rows, Nat.add_sub_cancel_left]
      simp [hj]

section
variable {α : Type*} {P : ℕ → ℕ → α} {T B : α}

theorem get_row {i j : ℕ} (hi : i < n) (hj : j < m) : (rows n m P ++ [T, B])[i * m + j]? = some (P i j) := by
  rw [List.getElem?_append_left (by rw [length_rows]; exact row_lt hi hj), rows_get P hi hj]

theorem get_top : (rows n m P ++ [T, B])[n * m]? = some T := by
  rw [List.getElem?_append_right (by rw [length_rows]), length_rows]; simp

theorem get_bot : (rows n m P ++ [T, B])[n * m + 1]? = some B := by
  rw [List.getElem?_append_right (by rw [length_rows]; omega), length_rows]; simp

end

/-- The point at angle `x φ` of a circle with radius `ρ` at height `z`, stretched along the axes. -/
noncomputable def lathe (k : V3 ℝ) (φ ρ z x : ℝ) : V3 ℝ := ⟨k.x * ρ * cos (φ * x), k.y * ρ * sin (φ * x), k.z * z⟩

theorem lathe_nx (k : V3 ℝ) (ρ z : ℝ) {j : ℕ} (hj : j < m) :
    lathe k (π * 2 / m) ρ z (nx m j : ℕ) = lathe k (π * 2 / m) ρ z (j + 1) := by
  rcases nx_spec hj with ⟨h, -⟩ | ⟨h, h'⟩
  · rw [h]; push_cast; rfl
  · have hm : (m : ℝ) ≠ 0 := by rw [Nat.cast_ne_zero]; omega
    have e : (j : ℝ) + 1 = m := by exact_mod_cast h'
    have e2 : π * 2 / m * m = 2 * π := by field_simp
    simp [lathe, h, e, e2]

theorem sin_step {j : ℕ} (hm : 3 ≤ m) :
    0 < cos (π * 2 / m * j) * sin (π * 2 / m * (j + 1)) - sin (π * 2 / m * j) * cos (π * 2 / m * (j + 1)) := by
  have hm' : (3 : ℝ) ≤ m := by exact_mod_cast hm
  have e : cos (π * 2 / m * j) * sin (π * 2 / m * (j + 1)) - sin (π * 2 / m * j) * cos (π * 2 / m * (j + 1)) = sin (π * 2 / m) := by
    rw [show π * 2 / m = π * 2 / m * (j + 1) - π * 2 / m * j by ring, sin_sub]
    ring_nf
  rw [e]
  refine sin_pos_of_pos_of_lt_pi (by positivity) ?_
  rw [div_lt_iff₀ (by linarith)]
  nlinarith [pi_pos]

theorem Faces.turn {p q s : V3 ℝ} (h : Faces p q s) : Faces q s p := by
  unfold Faces at *
  simp only [V3.cross, V3.dot, V3.sub_x, V3.sub_y, V3.sub_z] at *
  linarith

theorem hull_subset {S : Set (V3 ℝ)} (hS : ConvexSet S) {l : List (V3 ℝ)} (h : ∀ p ∈ l, p ∈ S) {x : V3 ℝ} (hx : HullOf l x) : x ∈ S := by
  induction hx with
  | pt hp => exact h _ hp
  | seg t h0 h1 _ _ ih1 ih2 => exact hS _ ih1 _ ih2 t h0 h1

/-- The triangles of a mesh whose vertices are in a convex set are in the set. -/
theorem inside_of {S : Set (V3 ℝ)} (hS : ConvexSet S) {M : SMesh} (h : ∀ p ∈ M.points, OnSurface S p) (t : ℕ × ℕ × ℕ) (p q s : V3 ℝ)
    (hp : M.points[t.1]? = some p) (hq : M.points[t.2.1]? = some q) (hs : M.points[t.2.2]? = some s) (x : V3 ℝ)
    (hx : HullOf [p, q, s] x) : x ∈ S := by
  refine hull_subset hS (fun y hy => ?_) hx
  simp only [List.mem_cons, List.not_mem_nil, or_false] at hy
  rcases hy with rfl | rfl | rfl
  · exact (h _ (List.mem_of_getElem? hp)).1
  · exact (h _ (List.mem_of_getElem? hq)).1
  · exact (h _ (List.mem_of_getElem? hs)).1

theorem meshOf_globe {S : Set (V3 ℝ)} (hS : ConvexSet S) (hn : 1 ≤ n) (hm : 3 ≤ m) {ts : List (ℕ × ℕ × ℕ)} (hg : IsGlobe n m ts)
    (hl : ts.length = 2 * (n * m)) (hp : ∀ t ∈ ts, ∃ g, Piece n m g ∧ Turned t g) {k : V3 ℝ} (k0 : 0 < k.x ∧ 0 < k.y ∧ 0 < k.z)
    {ρ z : ℕ → ℝ} {zt zb : ℝ} {ps : List (V3 ℝ)}
    (hps : ps = rows n m (fun i j => lathe k (π * 2 / m) (ρ i) (z i) j) ++ [⟨0, 0, k.z * zt⟩, ⟨0, 0, k.z * zb⟩])
    (hρ : ∀ i < n, 0 < ρ i) (hz : ∀ i, i + 1 < n → 0 < ρ (i + 1) * z i - ρ i * z (i + 1)) (ht : 0 < zt) (hb : zb < 0)
    (hs1 : ∀ i < n, ∀ x, OnSurface S (lathe k (π * 2 / m) (ρ i) (z i) x)) (hs2 : OnSurface S ⟨0, 0, k.z * zt⟩)
    (hs3 : OnSurface S ⟨0, 0, k.z * zb⟩) : MeshOf S ⟨ps, ts⟩ := by
  have hlen : ps.length = n * m + 2 := by rw [hps]; simp [length_rows]
  have hsurf : ∀ p ∈ ps, OnSurface S p := by
    intro p hp
    rw [hps] at hp
    simp only [rows, List.mem_append, List.mem_flatMap, List.mem_map, List.mem_range, List.mem_cons, List.not_mem_nil, or_false] at hp
    rcases hp with ⟨i, hi, j, hj, rfl⟩ | rfl | rfl
    · exact hs1 i hi j
    · exact hs2
    · exact hs3
  have hface : ∀ g, Piece n m g → ∃ p q s, ps[g.1]? = some p ∧ ps[g.2.1]? = some q ∧ ps[g.2.2]? = some s ∧ Faces p q s := by
    rintro g ⟨j, hj, h⟩
    have hsin := sin_step (j := j) hm
    have hk : 0 < k.x * k.y * k.z := mul_pos (mul_pos k0.1 k0.2.1) k0.2.2
    subst hps
    rcases h with rfl | rfl | ⟨i, hi, rfl | rfl⟩
    · refine ⟨_, _, _, get_top, by simpa [topT] using get_row (i := 0) (by omega) hj,
        by simpa [topT] using get_row (i := 0) (by omega) (nx_lt hj), ?_⟩
      rw [lathe_nx _ _ _ hj]
      have h0 := hρ 0 (by omega)
      refine lt_of_lt_of_eq (mul_pos (mul_pos (mul_pos hk ht) (mul_pos h0 h0)) hsin) ?_
      simp only [V3.cross, V3.dot, V3.sub_x, V3.sub_y, V3.sub_z, lathe]
      ring
    · refine ⟨_, _, _, get_row (i := n - 1) (by omega) hj, get_bot, get_row (i := n - 1) (by omega) (nx_lt hj), ?_⟩
      rw [lathe_nx _ _ _ hj]
      have h0 := hρ (n - 1) (by omega)
      refine lt_of_lt_of_eq (mul_pos (mul_pos (mul_pos hk (neg_pos.2 hb)) (mul_pos h0 h0)) hsin) ?_
      simp only [V3.cross, V3.dot, V3.sub_x, V3.sub_y, V3.sub_z, lathe]
      ring
    · refine ⟨_, _, _, get_row (i := i) (by omega) hj, get_row (i := i + 1) (by omega) hj,
        get_row (i := i) (by omega) (nx_lt hj), ?_⟩
      rw [lathe_nx _ _ _ hj]
      have h0 := hρ i (by omega)
      refine lt_of_lt_of_eq (mul_pos (mul_pos (mul_pos hk h0) (hz i (by omega))) hsin) ?_
      simp only [V3.cross, V3.dot, V3.sub_x, V3.sub_y, V3.sub_z, lathe]
      ring
    · refine ⟨_, _, _, get_row (i := i) (by omega) (nx_lt hj), get_row (i := i + 1) (by omega) hj,
        get_row (i := i + 1) (by omega) (nx_lt hj), ?_⟩
      rw [lathe_nx _ _ _ hj, lathe_nx _ _ _ hj]
      have h0 := hρ (i + 1) (by omega)
      refine lt_of_lt_of_eq (mul_pos (mul_pos (mul_pos hk h0) (hz i (by omega))) hsin) ?_
      simp only [V3.cross, V3.dot, V3.sub_x, V3.sub_y, V3.sub_z, lathe]
      ring
  refine ⟨?_, hsurf, ?_, hg.closed hn hm, ?_, ?_, ?_⟩
  · simpa only [hlen] using hg.inRange hn
  · intro i hi
    exact hg.used hn hm (hlen ▸ hi)
  · show 2 * ps.length = ts.length + 4
    rw [hlen, hl]; ring
  · intro t _
    exact inside_of hS hsurf t
  · intro t htm p q s hp' hq' hs'
    obtain ⟨g, hg1, hg2⟩ := hp t htm
    obtain ⟨p1, q1, s1, e1, e2, e3, hf⟩ := hface g hg1
    dsimp only at hp' hq' hs'
    rcases hg2 with rfl | rfl | rfl
    · rw [e1] at hp'; rw [e2] at hq'; rw [e3] at hs'
      cases hp'; cases hq'; cases hs'
      exact hf
    · dsimp only at hp' hq' hs'
      rw [e2] at hp'; rw [e3] at hq'; rw [e1] at hs'
      cases hp'; cases hq'; cases hs'
      exact hf.turn
    · dsimp only at hp' hq' hs'
      rw [e3] at hp'; rw [e1] at hq'; rw [e2] at hs'
      cases hp'; cases hq'; cases hs'
      exact hf.turn.turn

/-! ## Sphere and ellipsoid -/

theorem theta_mem {i : ℕ} (hi : i < n) : 0 < π / (n + 1) * (i + 1) ∧ π / (n + 1) * (i + 1) < π := by
  have hi' : (i : ℝ) + 1 < n + 1 := by exact_mod_cast Nat.succ_lt_succ hi
  have h0 : (0 : ℝ) < n + 1 := by positivity
  refine ⟨by have := pi_pos; positivity, ?_⟩
  rw [div_mul_eq_mul_div, div_lt_iff₀ h0]
  exact mul_lt_mul_of_pos_left hi' pi_pos

theorem onSurface_ellipsoid {k u : V3 ℝ} (k0 : 0 < k.x ∧ 0 < k.y ∧ 0 < k.z) (hu : u.x * u.x + u.y * u.y + u.z * u.z = 1) :
    OnSurface (Geo.ellipsoid k).pts ⟨k.x * u.x, k.y * u.y, k.z * u.z⟩ := by
  refine ⟨⟨u, hu.le, rfl⟩, ?_⟩
  rintro s hs ⟨q, hq, e⟩
  have ex := congrArg V3.x e
  have ey := congrArg V3.y e
  have ez := congrArg V3.z e
  simp only [V3.smul_x, V3.smul_y, V3.smul_z] at ex ey ez
  have ex : q.x = s * u.x := mul_left_cancel₀ k0.1.ne' (by linarith)
  have ey : q.y = s * u.y := mul_left_cancel₀ k0.2.1.ne' (by linarith)
  have ez : q.z = s * u.z := mul_left_cancel₀ k0.2.2.ne' (by linarith)
  rw [ex, ey, ez] at hq
  have : s * u.x * (s * u.x) + s * u.y * (s * u.y) + s * u.z * (s * u.z) = s * s := by linear_combination s * s * hu
  nlinarith

theorem meshOf_ellipsoid {k : V3 ℝ} (k0 : 0 < k.x ∧ 0 < k.y ∧ 0 < k.z) (hn : 1 ≤ n) (hm : 3 ≤ m) :
    MeshOf (Geo.ellipsoid k).pts ⟨ellipsoidPoints k m n, sphereTris m n⟩ := by
  refine meshOf_globe (Geo.pts_convex _) hn hm (sphereTris_globe hn) (length_sphereTris hn) (fun t => sphereTris_piece) k0
    (ρ := fun i => sin (π / (n + 1) * (i + 1))) (z := fun i => cos (π / (n + 1) * (i + 1))) (zt := 1) (zb := -1) ?_ ?_ ?_ one_pos
    (by norm_num) ?_ ?_ ?_
  · unfold ellipsoidPoints
    simp only [lathe, mul_one, mul_neg, rows]
    simp only [mul_comm (π * 2 / (m : ℝ))]
  · intro i hi
    exact sin_pos_of_pos_of_lt_pi (theta_mem hi).1 (theta_mem hi).2
  · intro i hi
    have e : sin (π / (n + 1) * ((i + 1 : ℕ) + 1)) * cos (π / (n + 1) * (i + 1)) -
        sin (π / (n + 1) * (i + 1)) * cos (π / (n + 1) * ((i + 1 : ℕ) + 1)) = sin (π / (n + 1) * ((0 : ℕ) + 1)) := by
      rw [show π / (n + 1) * (((0 : ℕ) : ℝ) + 1) = π / (n + 1) * ((i + 1 : ℕ) + 1) - π / (n + 1) * (i + 1) by push_cast; ring, sin_sub]
      ring
    rw [e]
    exact sin_pos_of_pos_of_lt_pi (theta_mem (by omega)).1 (theta_mem (by omega)).2
  · intro i hi x
    have := onSurface_ellipsoid (u := ⟨sin (π / (n + 1) * (i + 1)) * cos (π * 2 / m * x),
      sin (π / (n + 1) * (i + 1)) * sin (π * 2 / m * x), cos (π / (n + 1) * (i + 1))⟩) k0 ?_
    · simpa only [lathe, mul_assoc] using this
    · have h1 := sin_sq_add_cos_sq (π / (n + 1) * (i + 1))
      have h2 := sin_sq_add_cos_sq (π * 2 / m * x)
      dsimp only
      linear_combination h1 + sin (π / (n + 1) * (i + 1)) ^ 2 * h2
  · have := onSurface_ellipsoid (u := ⟨0, 0, 1⟩) k0 (by norm_num)
    simpa using this
  · have := onSurface_ellipsoid (u := ⟨0, 0, -1⟩) k0 (by norm_num)
    simpa using this

theorem pts_sphere_ellipsoid {r : ℝ} (hr : 0 < r) : (Geo.ellipsoid ⟨r, r, r⟩ : Geo ℝ).pts = (Geo.sphere r).pts := by
  ext p
  constructor
  · rintro ⟨q, hq, rfl⟩
    show r * q.x * (r * q.x) + r * q.y * (r * q.y) + r * q.z * (r * q.z) ≤ r * r
    nlinarith [mul_le_mul_of_nonneg_left hq (mul_pos hr hr).le]
  · intro h
    have h : p.x * p.x + p.y * p.y + p.z * p.z ≤ r * r := h
    refine ⟨⟨p.x / r, p.y / r, p.z / r⟩, ?_, ?_⟩
    · show p.x / r * (p.x / r) + p.y / r * (p.y / r) + p.z / r * (p.z / r) ≤ 1
      rw [show p.x / r * (p.x / r) + p.y / r * (p.y / r) + p.z / r * (p.z / r) = (p.x * p.x + p.y * p.y + p.z * p.z) / (r * r) by
        field_simp]
      exact (div_le_one (mul_pos hr hr)).2 h
    · apply V3.ext' <;> simp <;> field_simp

theorem meshOf_sphere {r : ℝ} (hr : 0 < r) (hn : 1 ≤ n) (hm : 3 ≤ m) :
    MeshOf (Geo.sphere r).pts ⟨spherePoints r m n, sphereTris m n⟩ := by
  rw [← pts_sphere_ellipsoid hr]
  exact meshOf_ellipsoid ⟨hr, hr, hr⟩ hn hm

/-! ## Cylinder and cone -/

theorem onSurface_side {r h z x : ℝ} (hr : 0 < r) (h1 : -(h / 2) ≤ z) (h2 : z ≤ h / 2) :
    OnSurface (Geo.cylinder r h).pts ⟨r * cos x, r * sin x, z⟩ := by
  have e := sin_sq_add_cos_sq x
  refine ⟨⟨?_, h1, h2⟩, ?_⟩
  · show r * cos x * (r * cos x) + r * sin x * (r * sin x) ≤ r * r
    nlinarith [congrArg (r * r * ·) e]
  · rintro s hs ⟨h3, -, -⟩
    simp only [V3.smul_x, V3.smul_y] at h3
    have : s * (r * cos x) * (s * (r * cos x)) + s * (r * sin x) * (s * (r * sin x)) = s * s * (r * r) := by
      linear_combination s * s * (r * r) * e
    rw [this] at h3
    have : r * r * 1 < r * r * (s * s) := mul_lt_mul_of_pos_left (by nlinarith) (mul_pos hr hr)
    linarith

theorem onSurface_axis {r h z : ℝ} (hh : 0 < h) (hz : z = h / 2 ∨ z = -h / 2) : OnSurface (Geo.cylinder r h).pts ⟨0, 0, z⟩ := by
  refine ⟨⟨?_, ?_, ?_⟩, ?_⟩
  · show (0 : ℝ) * 0 + 0 * 0 ≤ r * r
    nlinarith [mul_self_nonneg r]
  · show -(h / 2) ≤ z
    rcases hz with rfl | rfl <;> linarith
  · show z ≤ h / 2
    rcases hz with rfl | rfl <;> linarith
  · rintro s hs ⟨-, h3, h4⟩
    simp only [V3.smul_z] at h3 h4
    rcases hz with rfl | rfl <;> nlinarith

theorem cylinderPoints_eq {r h : ℝ} {N : ℕ} (hN : 1 ≤ N) : cylinderPoints r h m N =
    rows (N + 1) m (fun i j => lathe ⟨1, 1, 1⟩ (π * 2 / m) r (h / 2 - i * (h / N)) j) ++ [⟨0, 0, 1 * (h / 2)⟩, ⟨0, 0, 1 * (-h / 2)⟩] := by
  obtain ⟨N, rfl⟩ : ∃ k, N = k + 1 := ⟨N - 1, by omega⟩
  have e : h / 2 - ((N + 1 : ℕ) : ℝ) * (h / ((N + 1 : ℕ) : ℝ)) = -h / 2 := by
    have : ((N + 1 : ℕ) : ℝ) ≠ 0 := by positivity
    field_simp
    ring
  rw [rows_succ, rows_cons]
  unfold cylinderPoints rows
  simp only [lathe, one_mul, e, Nat.add_sub_cancel]
  simp

theorem meshOf_cylinder {r h : ℝ} {N : ℕ} (hr : 0 < r) (hh : 0 < h) (hN : 1 ≤ N) (hm : 3 ≤ m) :
    MeshOf (Geo.cylinder r h).pts ⟨cylinderPoints r h m N, cylinderTris m N⟩ := by
  have hN0 : (0 : ℝ) < N := by exact_mod_cast hN
  have hd : 0 < h / N := by positivity
  refine meshOf_globe (n := N + 1) (Geo.pts_convex _) (by omega) hm (coneTris_globe (by omega)) (length_coneTris (by omega))
    (fun t => coneTris_piece) (k := ⟨1, 1, 1⟩) ⟨one_pos, one_pos, one_pos⟩ (ρ := fun _ => r) (z := fun i => h / 2 - i * (h / N)) (zt := h / 2)
    (zb := -h / 2) (cylinderPoints_eq hN) (fun _ _ => hr) ?_ (by linarith) (by linarith) ?_ ?_ ?_
  · intro i _
    push_cast
    nlinarith [mul_pos hr hd]
  · intro i hi x
    have hi' : (i : ℝ) ≤ N := by exact_mod_cast Nat.lt_succ_iff.1 hi
    have h1 : (i : ℝ) * (h / N) ≤ N * (h / N) := mul_le_mul_of_nonneg_right hi' hd.le
    have h2 : (N : ℝ) * (h / N) = h := by field_simp
    have h3 : 0 ≤ (i : ℝ) * (h / N) := by positivity
    simpa only [lathe, one_mul] using onSurface_side hr (by linarith) (by linarith)
  · rw [one_mul]; exact onSurface_axis hh (.inl rfl)
  · rw [one_mul]; exact onSurface_axis hh (.inr rfl)

theorem onSurface_slant {r h σ x : ℝ} (hr : 0 < r) (hh : 0 < h) (h0 : 0 ≤ σ) (h1 : σ ≤ 1) :
    OnSurface (Geo.cone r h).pts ⟨r * σ * cos x, r * σ * sin x, h / 2 - σ * h⟩ := by
  have e := sin_sq_add_cos_sq x
  refine ⟨⟨σ, r * cos x, r * sin x, h0, h1, ?_, ?_⟩, ?_⟩
  · nlinarith [congrArg (r * r * ·) e]
  · apply V3.ext' <;> ring
  · rintro s hs ⟨τ, a, b, t0, t1, hab, e'⟩
    have ex := congrArg V3.x e'
    have ey := congrArg V3.y e'
    have ez := congrArg V3.z e'
    simp only [V3.smul_x, V3.smul_y, V3.smul_z] at ex ey ez
    have k1 : (s * σ * r) * (s * σ * r) = τ * τ * (a * a + b * b) := by
      rw [show τ * τ * (a * a + b * b) = (τ * a) * (τ * a) + (τ * b) * (τ * b) by ring, ← ex, ← ey]
      linear_combination -(s * σ * r) ^ 2 * e
    have k2 : (s * σ * r) * (s * σ * r) ≤ (τ * r) * (τ * r) := by
      rw [k1]
      nlinarith [mul_le_mul_of_nonneg_left hab (mul_nonneg t0 t0)]
    have k3 : s * σ * r ≤ τ * r := abs_le_of_sq_le_sq' (by nlinarith) (by positivity) |>.2
    have k4 : s * σ ≤ τ := le_of_mul_le_mul_right k3 hr
    nlinarith [mul_le_mul_of_nonneg_right k4 hh.le]

theorem onSurface_base {r h : ℝ} (hh : 0 < h) : OnSurface (Geo.cone r h).pts ⟨0, 0, -h / 2⟩ := by
  refine ⟨⟨1, 0, 0, by norm_num, by norm_num, by nlinarith [mul_self_nonneg r], ?_⟩, ?_⟩
  · apply V3.ext' <;> ring
  · rintro s hs ⟨τ, a, b, t0, t1, -, e'⟩
    have ez := congrArg V3.z e'
    simp only [V3.smul_z] at ez
    nlinarith

theorem conePoints_eq {r h : ℝ} (hh : 0 < h) {N : ℕ} (hN : 1 ≤ N) : conePoints r h m N =
    rows N m (fun i j => lathe ⟨1, 1, 1⟩ (π * 2 / m) (r * ((i + 1) / N)) (h / 2 - (i + 1) / N * h) j) ++
      [⟨0, 0, 1 * (h / 2)⟩, ⟨0, 0, 1 * (-h / 2)⟩] := by
  obtain ⟨N, rfl⟩ : ∃ k, N = k + 1 := ⟨N - 1, by omega⟩
  have hN0 : ((N + 1 : ℕ) : ℝ) ≠ 0 := by positivity
  have e : ((N : ℝ) + 1) / ((N + 1 : ℕ) : ℝ) = 1 := by push_cast; field_simp
  have e1 : ∀ i : ℕ, h / 2 - ((i : ℝ) + 1) * (h / ((N + 1 : ℕ) : ℝ)) = h / 2 - ((i : ℝ) + 1) / ((N + 1 : ℕ) : ℝ) * h := by
    intro i; ring
  have e2 : ∀ i : ℕ, r * (0.5 - (h / 2 - ((i : ℝ) + 1) / ((N + 1 : ℕ) : ℝ) * h) / h) = r * (((i : ℝ) + 1) / ((N + 1 : ℕ) : ℝ)) := by
    intro i; field_simp; ring
  have e3 : h / 2 - h = -h / 2 := by ring
  rw [rows_succ]
  unfold conePoints rows
  simp only [lathe, one_mul, e, Nat.add_sub_cancel, e1, e2, mul_one, e3]

theorem meshOf_cone {r h : ℝ} {N : ℕ} (hr : 0 < r) (hh : 0 < h) (hN : 1 ≤ N) (hm : 3 ≤ m) :
    MeshOf (Geo.cone r h).pts ⟨conePoints r h m N, coneTris m N⟩ := by
  have hN0 : (0 : ℝ) < N := by exact_mod_cast hN
  refine meshOf_globe (n := N) (Geo.pts_convex _) hN hm (coneTris_globe hN) (length_coneTris hN)
    (fun t => coneTris_piece) (k := ⟨1, 1, 1⟩) ⟨one_pos, one_pos, one_pos⟩ (ρ := fun i => r * ((i + 1) / N)) (z := fun i => h / 2 - (i + 1) / N * h)
    (zt := h / 2) (zb := -h / 2) (conePoints_eq hh hN) (fun _ _ => by positivity) ?_ (by linarith) (by linarith) ?_ ?_ ?_
  · intro i _
    have : 0 < r * (1 / N) * (h / 2) := by positivity
    refine lt_of_lt_of_eq this ?_
    push_cast
    ring
  · intro i hi x
    have hi' : (i : ℝ) + 1 ≤ N := by exact_mod_cast hi
    have := onSurface_slant (x := π * 2 / m * x) hr hh (σ := (i + 1) / N) (by positivity) ((div_le_one hN0).2 hi')
    simpa only [lathe, one_mul] using this
  · have := onSurface_slant (x := 0) hr hh (σ := 0) le_rfl zero_le_one
    simpa using this
  · rw [one_mul]; exact onSurface_base hh

/-! ## Box -/

theorem onSurface_box {k p : V3 ℝ} (h : p ∈ (Geo.box k).pts) (hk : 0 < k.x) (hx : p.x = k.x / 2 ∨ p.x = -(k.x / 2)) :
    OnSurface (Geo.box k).pts p := by
  refine ⟨h, ?_⟩
  rintro s hs ⟨⟨h1, h2⟩, -⟩
  simp only [V3.smul_x] at h1 h2
  rcases hx with hx | hx <;> rw [hx] at h1 h2 <;> nlinarith

theorem box_closed : Closed boxTris where
  once := by decide
  back := by
    intro u v h
    have : ∀ e ∈ sides boxTris, e.swap ∈ sides boxTris := by decide
    exact this _ h
  proper := by
    intro u v h
    have : ∀ e ∈ sides boxTris, e.1 ≠ e.2 := by decide
    exact this _ h

theorem meshOf_box {k : V3 ℝ} (k0 : 0 < k.x ∧ 0 < k.y ∧ 0 < k.z) : MeshOf (Geo.box k).pts (box k) := by
  obtain ⟨hx, hy, hz⟩ := k0
  have hsurf : ∀ p ∈ (box k).points, OnSurface (Geo.box k).pts p := by
    intro p hp
    simp only [box, List.mem_cons, List.not_mem_nil, or_false] at hp
    rcases hp with rfl | rfl | rfl | rfl | rfl | rfl | rfl | rfl
    all_goals
      refine onSurface_box ⟨⟨?_, ?_⟩, ⟨?_, ?_⟩, ?_, ?_⟩ hx ?_
      · dsimp only; linarith
      · dsimp only; linarith
      · dsimp only; linarith
      · dsimp only; linarith
      · dsimp only; linarith
      · dsimp only; linarith
      · dsimp only
        first | (left; ring; done) | (right; ring; done)
  refine ⟨?_, hsurf, ?_, box_closed, rfl, fun t _ => inside_of (Geo.pts_convex _) hsurf t, ?_⟩
  · have : ∀ t ∈ boxTris, t.1 < 8 ∧ t.2.1 < 8 ∧ t.2.2 < 8 := by decide
    exact this
  · have : ∀ i < 8, ∃ t ∈ boxTris, i = t.1 ∨ i = t.2.1 ∨ i = t.2.2 := by decide
    exact this
  · intro t ht p q s hp hq hs
    have hv : 0 < k.x * k.y * k.z := by positivity
    simp only [box, boxTris, List.mem_cons, List.not_mem_nil, or_false] at ht
    rcases ht with rfl | rfl | rfl | rfl | rfl | rfl | rfl | rfl | rfl | rfl | rfl | rfl
    all_goals
      simp only [box, List.getElem?_cons_succ, List.getElem?_cons_zero, Option.some.injEq] at hp hq hs
      subst hp hq hs
      simp only [Faces, V3.cross, V3.dot, V3.sub_x, V3.sub_y, V3.sub_z]
      norm_num
      nlinarith

end ToMesh
end Fcl
