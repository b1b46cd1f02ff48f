import Verif.OBB.MergeLemmas
import Verif.OBB.Eigen

/-!
# The quaternion of a rotation, and the directions of `merge_largedist`
-/

namespace Fcl
namespace OBB
namespace Quat

/-- A proper rotation: what the algebra below uses. -/
structure Rot (a b c d e f g k l : ℝ) : Prop where
  rows : (a * a + b * b + c * c = 1 ∧ d * d + e * e + f * f = 1 ∧ g * g + k * k + l * l = 1) ∧
    (a * d + b * e + c * f = 0 ∧ a * g + b * k + c * l = 0 ∧ d * g + e * k + f * l = 0)
  cols : (a * a + d * d + g * g = 1 ∧ b * b + e * e + k * k = 1 ∧ c * c + f * f + l * l = 1) ∧
    (a * b + d * e + g * k = 0 ∧ a * c + d * f + g * l = 0 ∧ b * c + e * f + k * l = 0)
  cof : (e * l - f * k = a ∧ c * k - b * l = d ∧ b * f - c * e = g) ∧
    (f * g - d * l = b ∧ a * l - c * g = e ∧ c * d - a * f = k) ∧
    (d * k - e * g = c ∧ b * g - a * k = f ∧ a * e - b * d = l)

theorem rank_w {a b c d e f g k l : ℝ} (h : Rot a b c d e f g k l) :
    (k - f) * (k - f) = (1 + a + e + l) * (1 + a - e - l) ∧
    (k - f) * (c - g) = (1 + a + e + l) * (d + b) ∧
    (k - f) * (d - b) = (1 + a + e + l) * (g + c) ∧
    (c - g) * (c - g) = (1 + a + e + l) * (1 - a + e - l) ∧
    (c - g) * (d - b) = (1 + a + e + l) * (k + f) ∧
    (d - b) * (d - b) = (1 + a + e + l) * (1 - a - e + l) := by
  obtain ⟨⟨⟨g1, g2, g3⟩, g4, g5, g6⟩, ⟨⟨h1, h2, h3⟩, h4, h5, h6⟩, ⟨c1, c2, c3⟩, ⟨c4, c5, c6⟩, c7, c8, c9⟩ := h
  refine ⟨?_, ?_, ?_, ?_, ?_, ?_⟩ <;> grind

theorem rank_x {a b c d e f g k l : ℝ} (h : Rot a b c d e f g k l) :
    (k - f) * (k - f) = (1 + a - e - l) * (1 + a + e + l) ∧
    (k - f) * (d + b) = (1 + a - e - l) * (c - g) ∧
    (k - f) * (g + c) = (1 + a - e - l) * (d - b) ∧
    (d + b) * (d + b) = (1 + a - e - l) * (1 - a + e - l) ∧
    (d + b) * (g + c) = (1 + a - e - l) * (k + f) ∧
    (g + c) * (g + c) = (1 + a - e - l) * (1 - a - e + l) := by
  obtain ⟨⟨⟨g1, g2, g3⟩, g4, g5, g6⟩, ⟨⟨h1, h2, h3⟩, h4, h5, h6⟩, ⟨c1, c2, c3⟩, ⟨c4, c5, c6⟩, c7, c8, c9⟩ := h
  refine ⟨?_, ?_, ?_, ?_, ?_, ?_⟩ <;> grind

theorem rank_y {a b c d e f g k l : ℝ} (h : Rot a b c d e f g k l) :
    (c - g) * (c - g) = (1 - a + e - l) * (1 + a + e + l) ∧
    (c - g) * (d + b) = (1 - a + e - l) * (k - f) ∧
    (c - g) * (k + f) = (1 - a + e - l) * (d - b) ∧
    (d + b) * (d + b) = (1 - a + e - l) * (1 + a - e - l) ∧
    (d + b) * (k + f) = (1 - a + e - l) * (g + c) ∧
    (k + f) * (k + f) = (1 - a + e - l) * (1 - a - e + l) := by
  obtain ⟨⟨⟨g1, g2, g3⟩, g4, g5, g6⟩, ⟨⟨h1, h2, h3⟩, h4, h5, h6⟩, ⟨c1, c2, c3⟩, ⟨c4, c5, c6⟩, c7, c8, c9⟩ := h
  refine ⟨?_, ?_, ?_, ?_, ?_, ?_⟩ <;> grind

theorem rank_z {a b c d e f g k l : ℝ} (h : Rot a b c d e f g k l) :
    (d - b) * (d - b) = (1 - a - e + l) * (1 + a + e + l) ∧
    (d - b) * (g + c) = (1 - a - e + l) * (k - f) ∧
    (d - b) * (k + f) = (1 - a - e + l) * (c - g) ∧
    (g + c) * (g + c) = (1 - a - e + l) * (1 + a - e - l) ∧
    (g + c) * (k + f) = (1 - a - e + l) * (d + b) ∧
    (k + f) * (k + f) = (1 - a - e + l) * (1 - a + e - l) := by
  obtain ⟨⟨⟨g1, g2, g3⟩, g4, g5, g6⟩, ⟨⟨h1, h2, h3⟩, h4, h5, h6⟩, ⟨c1, c2, c3⟩, ⟨c4, c5, c6⟩, c7, c8, c9⟩ := h
  refine ⟨?_, ?_, ?_, ?_, ?_, ?_⟩ <;> grind

/-- Ten products determine the rotation. -/
theorem toMat_of_products {w x y z a b c d e f g k l : ℝ}
    (ww : 4 * (w * w) = 1 + a + e + l) (xx : 4 * (x * x) = 1 + a - e - l) (yy : 4 * (y * y) = 1 - a + e - l)
    (zz : 4 * (z * z) = 1 - a - e + l) (wx : 4 * (w * x) = k - f) (wy : 4 * (w * y) = c - g) (wz : 4 * (w * z) = d - b)
    (xy : 4 * (x * y) = d + b) (xz : 4 * (x * z) = g + c) (yz : 4 * (y * z) = k + f) :
    (⟨w, x, y, z⟩ : Quat).dot ⟨w, x, y, z⟩ = 1 ∧ (⟨w, x, y, z⟩ : Quat).toMat = ⟨⟨a, b, c⟩, ⟨d, e, f⟩, ⟨g, k, l⟩⟩ := by
  refine ⟨?_, ?_⟩
  · simp only [dot]; linarith
  · simp only [toMat, M3.mk.injEq, V3.mk.injEq]
    refine ⟨⟨?_, ?_, ?_⟩, ⟨?_, ?_, ?_⟩, ?_, ?_, ?_⟩ <;> linarith

/-- One off-pivot product. -/
theorem prod_of_rank {t i p q r : ℝ} (ht : t * t = r) (hi : t * i = 1/2) {n : ℝ} (h : p * q = r * n) :
    4 * ((p * i) * (q * i)) = n := by
  have : 4 * ((p * i) * (q * i)) = (4 * n) * (t * i) * (t * i) := by
    linear_combination 4 * i * i * h - 4 * i * i * n * ht
  rw [this, hi]; ring

/-- The quaternion of a proper rotation has length one and gives the rotation back. -/
theorem ofMat_rotation {m : M3 ℝ} (ho : m.Orthonormal) (hd : m.det = 1) :
    (ofMat m).dot (ofMat m) = 1 ∧ (ofMat m).toMat = m := by
  obtain ⟨t, ht, hc⟩ := ofMat_cases m
  obtain ⟨⟨a, b, c⟩, ⟨d, e, f⟩, ⟨g, k, l⟩⟩ := m
  have hR : Rot a b c d e f g k l := by
    obtain ⟨h1, h2⟩ := ho.eqs
    obtain ⟨D, -, hD, hc⟩ := ho.cofactors
    have : D = 1 := by
      rw [hD, ← hd]; simp only [M3.det, M3.col, V3.get, V3.dot, V3.cross]; ring
    rw [this] at hc
    simp only [_root_.one_mul] at hc
    exact ⟨h2, h1, hc⟩
  obtain ⟨i, hi⟩ : ∃ i, 1/2 / t = i := ⟨_, rfl⟩
  have hti : t * i = 1/2 := by rw [← hi]; field_simp
  simp only [M3.get, M3.row, V3.get, hi] at hc
  obtain ⟨htt, hq⟩ | ⟨htt, hq⟩ | ⟨htt, hq⟩ | ⟨htt, hq⟩ := hc <;> rw [hq]

  · obtain ⟨r1, r2, r3, r4, r5, r6⟩ := rank_w hR
    apply toMat_of_products
    · linear_combination htt
    · exact prod_of_rank htt hti (by linear_combination r1)
    · exact prod_of_rank htt hti (by linear_combination r4)
    · exact prod_of_rank htt hti (by linear_combination r6)
    · linear_combination 2 * (k - f) * hti
    · linear_combination 2 * (c - g) * hti
    · linear_combination 2 * (d - b) * hti
    · exact prod_of_rank htt hti (by linear_combination r2)
    · exact prod_of_rank htt hti (by linear_combination r3)
    · exact prod_of_rank htt hti (by linear_combination r5)
  · obtain ⟨r1, r2, r3, r4, r5, r6⟩ := rank_x hR
    apply toMat_of_products
    · exact prod_of_rank htt hti (by linear_combination r1)
    · linear_combination htt
    · exact prod_of_rank htt hti (by linear_combination r4)
    · exact prod_of_rank htt hti (by linear_combination r6)
    · linear_combination 2 * (k - f) * hti
    · exact prod_of_rank htt hti (by linear_combination r2)
    · exact prod_of_rank htt hti (by linear_combination r3)
    · linear_combination 2 * (d + b) * hti
    · linear_combination 2 * (g + c) * hti
    · exact prod_of_rank htt hti (by linear_combination r5)
  · obtain ⟨r1, r2, r3, r4, r5, r6⟩ := rank_y hR
    apply toMat_of_products
    · exact prod_of_rank htt hti (by linear_combination r1)
    · exact prod_of_rank htt hti (by linear_combination r4)
    · linear_combination htt
    · exact prod_of_rank htt hti (by linear_combination r6)
    · exact prod_of_rank htt hti (by linear_combination r2)
    · linear_combination 2 * (c - g) * hti
    · exact prod_of_rank htt hti (by linear_combination r3)
    · linear_combination 2 * (b + d) * hti
    · exact prod_of_rank htt hti (by linear_combination r5)
    · linear_combination 2 * (k + f) * hti
  · obtain ⟨r1, r2, r3, r4, r5, r6⟩ := rank_z hR
    apply toMat_of_products
    · exact prod_of_rank htt hti (by linear_combination r1)
    · exact prod_of_rank htt hti (by linear_combination r4)
    · exact prod_of_rank htt hti (by linear_combination r6)
    · linear_combination htt
    · exact prod_of_rank htt hti (by linear_combination r2)
    · exact prod_of_rank htt hti (by linear_combination r3)
    · linear_combination 2 * (d - b) * hti
    · exact prod_of_rank htt hti (by linear_combination r5)
    · linear_combination 2 * (c + g) * hti
    · linear_combination 2 * (f + k) * hti

theorem add_self_normalize {q : Quat} (h : q.dot q = 1) : (q.add q).normalize = q := by
  have e : (q.add q).dot (q.add q) = 2 * 2 := by simp only [dot, add] at *; linarith
  have hp : (q.add q).dot (q.add q) > 0 := by rw [e]; norm_num
  rw [normalize, if_pos hp, e, Real.sqrt_mul_self (by norm_num)]
  obtain ⟨w, x, y, z⟩ := q
  simp only [add, mk.injEq]
  refine ⟨?_, ?_, ?_, ?_⟩ <;> ring

end Quat

/-- Merging with the same directions keeps them. -/
theorem mergedAxis_self {m : M3 ℝ} (ho : m.Orthonormal) (hd : m.det = 1) : mergedAxis m m = m := by
  obtain ⟨h1, h2⟩ := Quat.ofMat_rotation ho hd
  rw [mergedAxis, if_neg (by rw [h1]; norm_num), Quat.add_self_normalize h1, h2]

/-! ## `merge_largedist` -/

theorem foldl_add (l : List ℝ) : l.foldl (· + ·) 0 = l.sum := by rw [List.sum_eq_foldl]

theorem sum_map_add (f g : V3 ℝ → ℝ) : ∀ ps : List (V3 ℝ), (ps.map fun p => f p + g p).sum = (ps.map f).sum + (ps.map g).sum
  | [] => by simp
  | p :: ps => by simp [sum_map_add f g ps]; ring
theorem sum_map_mul (f : V3 ℝ → ℝ) (c : ℝ) : ∀ ps : List (V3 ℝ), (ps.map fun p => f p * c).sum = (ps.map f).sum * c
  | [] => by simp
  | p :: ps => by simp [sum_map_mul f c ps]; ring
theorem sum_map_zero (f : V3 ℝ → ℝ) : ∀ ps : List (V3 ℝ), (∀ p ∈ ps, f p = 0) → (ps.map f).sum = 0
  | [], _ => by simp
  | p :: ps, h => by
    simp [sum_map_zero f ps fun q hq => h q (List.mem_cons_of_mem _ hq), h p (List.mem_cons_self)]

/-- The sum along `u`. -/
theorem sum_dot (ps : List (V3 ℝ)) (w : V3 ℝ → ℝ) (u : V3 ℝ) : (ps.map fun p => w p * p.dot u).sum =
    (ps.map fun p => w p * p.x).sum * u.x + (ps.map fun p => w p * p.y).sum * u.y + (ps.map fun p => w p * p.z).sum * u.z := by
  rw [← sum_map_mul, ← sum_map_mul, ← sum_map_mul, ← sum_map_add, ← sum_map_add]
  congr 1
  refine List.map_congr_left fun p _ => ?_
  simp only [V3.dot]; ring

theorem covariance_symm (ps : List (V3 ℝ)) : (covariance ps).tr = covariance ps := rfl

/-- The covariance as a bilinear form. -/
theorem covariance_form (ps : List (V3 ℝ)) (u v : V3 ℝ) : ((covariance ps).mulVec u).dot v =
    (ps.map fun p => p.dot u * p.dot v).sum - (ps.map fun p => p.dot u).sum * (ps.map fun p => p.dot v).sum / ps.length := by
  have e1 : ∀ u, (ps.map fun p => p.dot u).sum = (ps.map (·.x)).sum * u.x + (ps.map (·.y)).sum * u.y + (ps.map (·.z)).sum * u.z :=
    fun u => by simpa using sum_dot ps (fun _ => 1) u
  have c1 : (ps.map fun p => p.y * p.x).sum = (ps.map fun p => p.x * p.y).sum := by simp only [mul_comm]
  have c2 : (ps.map fun p => p.z * p.x).sum = (ps.map fun p => p.x * p.z).sum := by simp only [mul_comm]
  have c3 : (ps.map fun p => p.z * p.y).sum = (ps.map fun p => p.y * p.z).sum := by simp only [mul_comm]
  have e2 : ∀ w : V3 ℝ → ℝ, (ps.map fun p => p.dot u * w p).sum = (ps.map fun p => w p * p.dot u).sum := fun w => by
    simp only [mul_comm]
  rw [sum_dot ps (fun p => p.dot u) v, e2, e2, e2, sum_dot ps (·.x) u, sum_dot ps (·.y) u, sum_dot ps (·.z) u, e1, e1, c1, c2, c3]
  simp only [covariance, foldl_add, M3.mulVec, V3.dot]
  ring

/-- A direction along which all the points agree is in the kernel. -/
theorem covariance_kernel {ps : List (V3 ℝ)} {u : V3 ℝ} (h : ∀ p ∈ ps, p.dot u = 0) (v : V3 ℝ) :
    ((covariance ps).mulVec u).dot v = 0 := by
  rw [covariance_form, sum_map_zero (fun p => p.dot u * p.dot v) ps fun p hp => by rw [h p hp]; ring,
    sum_map_zero (fun p => p.dot u) ps h]; ring

theorem sum_sq (ps : List (V3 ℝ)) (f : V3 ℝ → ℝ) (c : ℝ) : (ps.map fun p => (f p - c) * (f p - c)).sum =
    (ps.map fun p => f p * f p).sum - 2 * c * (ps.map f).sum + c * c * ps.length := by
  induction ps with
  | nil => simp
  | cons p ps ih => simp only [List.map_cons, List.sum_cons, List.length_cons, Nat.cast_add, Nat.cast_one, ih]; ring

theorem sum_nonneg_zero (f : V3 ℝ → ℝ) : ∀ ps : List (V3 ℝ), (∀ p ∈ ps, 0 ≤ f p) → 0 ≤ (ps.map f).sum ∧
    ((ps.map f).sum = 0 → ∀ p ∈ ps, f p = 0)
  | [], _ => ⟨by simp, fun _ p hp => by cases hp⟩
  | p :: ps, h => by
    obtain ⟨h1, h2⟩ := sum_nonneg_zero f ps fun q hq => h q (List.mem_cons_of_mem _ hq)
    have h0 := h p List.mem_cons_self
    simp only [List.map_cons, List.sum_cons]
    refine ⟨by linarith, fun e q hq => ?_⟩
    obtain rfl | hq := List.mem_cons.1 hq
    · linarith
    · exact h2 (by linarith) q hq

/-- Conversely, along a direction of the kernel all the points agree. -/
theorem covariance_flat {ps : List (V3 ℝ)} (hn : ps ≠ []) {u : V3 ℝ} (h : ((covariance ps).mulVec u).dot u = 0) :
    ∃ c, ∀ p ∈ ps, p.dot u = c := by
  have hl : (0 : ℝ) < ps.length := by exact_mod_cast List.length_pos_of_ne_nil hn
  refine ⟨(ps.map fun p => p.dot u).sum / ps.length, fun p hp => ?_⟩
  generalize hc : (ps.map fun p => p.dot u).sum / ps.length = c
  have hS : (ps.map fun p => p.dot u).sum = c * ps.length := by rw [← hc]; field_simp
  rw [covariance_form, hS] at h
  have e := sum_sq ps (fun p => p.dot u) c
  rw [hS] at e
  have e0 : (ps.map fun p => (p.dot u - c) * (p.dot u - c)).sum = 0 := by
    rw [e]
    have : c * ps.length * (c * ps.length) / ps.length = c * c * ps.length := by field_simp
    rw [this] at h
    linarith
  have := (sum_nonneg_zero (fun p => (p.dot u - c) * (p.dot u - c)) ps fun q _ => mul_self_nonneg _).2 e0 p hp
  linarith [mul_self_eq_zero.1 this]

end OBB
end Fcl
