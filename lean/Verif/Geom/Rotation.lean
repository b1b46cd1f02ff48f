import Verif.Geom.Space
import Mathlib.LinearAlgebra.Matrix.NonsingularInverse
import Mathlib.LinearAlgebra.Matrix.Notation
import Mathlib.Tactic.FinCases

/-!
# Orthonormal 3x3 matrices
-/

namespace Fcl
namespace M3
variable {K : Type*} [Field K]

/-- As a Mathlib matrix. -/
def toMatrix (m : M3 K) : Matrix (Fin 3) (Fin 3) K := fun i j => m.get i j

theorem toMatrix_injective {m n : M3 K} (h : m.toMatrix = n.toMatrix) : m = n := by
  obtain ⟨⟨_, _, _⟩, ⟨_, _, _⟩, ⟨_, _, _⟩⟩ := m
  obtain ⟨⟨_, _, _⟩, ⟨_, _, _⟩, ⟨_, _, _⟩⟩ := n
  have e := fun i j => congrFun (congrFun h i) j
  have e00 := e 0 0; have e01 := e 0 1; have e02 := e 0 2
  have e10 := e 1 0; have e11 := e 1 1; have e12 := e 1 2
  have e20 := e 2 0; have e21 := e 2 1; have e22 := e 2 2
  simp only [toMatrix, get, row, V3.get] at e00 e01 e02 e10 e11 e12 e20 e21 e22
  simp [*]

theorem toMatrix_one : (one : M3 K).toMatrix = 1 := by
  ext i j; fin_cases i <;> fin_cases j <;> simp [toMatrix, get, row, V3.get, one]

theorem toMatrix_mul (m n : M3 K) : (m.mul n).toMatrix = m.toMatrix * n.toMatrix := by
  ext i j
  fin_cases i <;> fin_cases j <;>
    simp [toMatrix, get, row, V3.get, mul, Matrix.mul_apply, Fin.sum_univ_three, V3.dot, col]

theorem mul_eq_one_comm {m n : M3 K} (h : m.mul n = one) : n.mul m = one := by
  apply toMatrix_injective
  have := congrArg toMatrix h
  rw [toMatrix_mul, toMatrix_one] at this
  rw [toMatrix_mul, toMatrix_one]
  exact _root_.mul_eq_one_comm.1 this

theorem mul_one (m : M3 K) : m.mul one = m := by
  obtain ⟨⟨_, _, _⟩, ⟨_, _, _⟩, ⟨_, _, _⟩⟩ := m
  simp [mul, one, V3.dot, col, V3.get]
theorem one_mul (m : M3 K) : (one : M3 K).mul m = m := by
  obtain ⟨⟨_, _, _⟩, ⟨_, _, _⟩, ⟨_, _, _⟩⟩ := m
  simp [mul, one, V3.dot, col, V3.get]
theorem mul_assoc (a b c : M3 K) : (a.mul b).mul c = a.mul (b.mul c) := by
  apply toMatrix_injective
  simp only [toMatrix_mul, Matrix.mul_assoc]
theorem tr_mul (m n : M3 K) : (m.mul n).tr = n.tr.mul m.tr := by
  obtain ⟨⟨_, _, _⟩, ⟨_, _, _⟩, ⟨_, _, _⟩⟩ := m
  obtain ⟨⟨_, _, _⟩, ⟨_, _, _⟩, ⟨_, _, _⟩⟩ := n
  simp only [mul, tr, col, V3.get, V3.dot, mk.injEq, V3.mk.injEq]
  refine ⟨⟨?_, ?_, ?_⟩, ⟨?_, ?_, ?_⟩, ?_, ?_, ?_⟩ <;> ring

/-- A square matrix with orthonormal columns has orthonormal rows. -/
theorem orthonormal_of_cols {m : M3 K} (h : m.tr.mul m = one) : m.Orthonormal := ⟨mul_eq_one_comm h, h⟩
/-- A square matrix with orthonormal rows has orthonormal columns. -/
theorem orthonormal_of_rows {m : M3 K} (h : m.mul m.tr = one) : m.Orthonormal := ⟨h, mul_eq_one_comm h⟩

theorem Orthonormal.mul {m n : M3 K} (hm : m.Orthonormal) (hn : n.Orthonormal) : (m.mul n).Orthonormal := by
  apply orthonormal_of_cols
  rw [M3.tr_mul, mul_assoc, ← mul_assoc m.tr, hm.cols, one_mul, hn.cols]

/-- The determinant. -/
def det (m : M3 K) : K := (m.col 0).dot ((m.col 1).cross (m.col 2))

/-- The nine scalar products of the columns, and those of the rows. -/
theorem Orthonormal.eqs {a b c d e f g k l : K}
    (h : (⟨⟨a, b, c⟩, ⟨d, e, f⟩, ⟨g, k, l⟩⟩ : M3 K).Orthonormal) :
    ((a * a + d * d + g * g = 1 ∧ b * b + e * e + k * k = 1 ∧ c * c + f * f + l * l = 1) ∧
      (a * b + d * e + g * k = 0 ∧ a * c + d * f + g * l = 0 ∧ b * c + e * f + k * l = 0)) ∧
    ((a * a + b * b + c * c = 1 ∧ d * d + e * e + f * f = 1 ∧ g * g + k * k + l * l = 1) ∧
      (a * d + b * e + c * f = 0 ∧ a * g + b * k + c * l = 0 ∧ d * g + e * k + f * l = 0)) := by
  obtain ⟨hr, hc⟩ := h
  simp only [M3.tr, M3.mul, col, V3.get, V3.dot, one, mk.injEq, V3.mk.injEq] at hr hc
  tauto

/-- The cofactors of an orthonormal matrix are its entries times the determinant. -/
theorem Orthonormal.cofactors {a b c d e f g k l : K}
    (h : (⟨⟨a, b, c⟩, ⟨d, e, f⟩, ⟨g, k, l⟩⟩ : M3 K).Orthonormal) :
    ∃ D : K, D * D = 1 ∧ D = a * (e * l - f * k) - b * (d * l - f * g) + c * (d * k - e * g) ∧
      (e * l - f * k = D * a ∧ c * k - b * l = D * d ∧ b * f - c * e = D * g) ∧
      (f * g - d * l = D * b ∧ a * l - c * g = D * e ∧ c * d - a * f = D * k) ∧
      (d * k - e * g = D * c ∧ b * g - a * k = D * f ∧ a * e - b * d = D * l) := by
  obtain ⟨⟨⟨h1, h2, h3⟩, h4, h5, h6⟩, ⟨g1, g2, g3⟩, g4, g5, g6⟩ := h.eqs
  have ca : e * l - f * k = (a * (e * l - f * k) - b * (d * l - f * g) + c * (d * k - e * g)) * a := by
    linear_combination (-(e * l - f * k)) * g1 - (c * k - b * l) * g4 - (b * f - c * e) * g5
  have cd : c * k - b * l = (a * (e * l - f * k) - b * (d * l - f * g) + c * (d * k - e * g)) * d := by
    linear_combination (-(e * l - f * k)) * g4 - (c * k - b * l) * g2 - (b * f - c * e) * g6
  have cg : b * f - c * e = (a * (e * l - f * k) - b * (d * l - f * g) + c * (d * k - e * g)) * g := by
    linear_combination (-(e * l - f * k)) * g5 - (c * k - b * l) * g6 - (b * f - c * e) * g3
  have cb : f * g - d * l = (a * (e * l - f * k) - b * (d * l - f * g) + c * (d * k - e * g)) * b := by
    linear_combination (-(f * g - d * l)) * g1 - (a * l - c * g) * g4 - (c * d - a * f) * g5
  have ce : a * l - c * g = (a * (e * l - f * k) - b * (d * l - f * g) + c * (d * k - e * g)) * e := by
    linear_combination (-(f * g - d * l)) * g4 - (a * l - c * g) * g2 - (c * d - a * f) * g6
  have ck : c * d - a * f = (a * (e * l - f * k) - b * (d * l - f * g) + c * (d * k - e * g)) * k := by
    linear_combination (-(f * g - d * l)) * g5 - (a * l - c * g) * g6 - (c * d - a * f) * g3
  have cc : d * k - e * g = (a * (e * l - f * k) - b * (d * l - f * g) + c * (d * k - e * g)) * c := by
    linear_combination (-(d * k - e * g)) * g1 - (b * g - a * k) * g4 - (a * e - b * d) * g5
  have cf : b * g - a * k = (a * (e * l - f * k) - b * (d * l - f * g) + c * (d * k - e * g)) * f := by
    linear_combination (-(d * k - e * g)) * g4 - (b * g - a * k) * g2 - (a * e - b * d) * g6
  have cl : a * e - b * d = (a * (e * l - f * k) - b * (d * l - f * g) + c * (d * k - e * g)) * l := by
    linear_combination (-(d * k - e * g)) * g5 - (b * g - a * k) * g6 - (a * e - b * d) * g3
  refine ⟨_, ?_, rfl, ⟨ca, cd, cg⟩, ⟨cb, ce, ck⟩, cc, cf, cl⟩
  generalize hD : a * (e * l - f * k) - b * (d * l - f * g) + c * (d * k - e * g) = D at *
  have : D * a * (D * a) + D * d * (D * d) + D * g * (D * g) = 1 := by
    rw [← ca, ← cd, ← cg]
    linear_combination (c * c + f * f + l * l) * h2 + h3 - (b * c + e * f + k * l) * h6
  linear_combination this - D * D * h1

end M3
end Fcl
