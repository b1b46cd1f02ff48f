import Verif.AABB.Model
import Mathlib.Tactic.Ring
import Mathlib.Tactic.Linarith

/-!
# Vectors and matrices

The parts of Eigen used by the modelled code: `Vector3<S>`, `Matrix3<S>` and `Transform3<S>`
(include/fcl/common/types.h 70-100). Exact arithmetic over a field.
-/

namespace Fcl
namespace V3
variable {K : Type*} [Field K]

instance : Add (V3 K) := ⟨fun a b => ⟨a.x + b.x, a.y + b.y, a.z + b.z⟩⟩
instance : Sub (V3 K) := ⟨fun a b => ⟨a.x - b.x, a.y - b.y, a.z - b.z⟩⟩
instance : Neg (V3 K) := ⟨fun a => ⟨-a.x, -a.y, -a.z⟩⟩
instance : Zero (V3 K) := ⟨⟨0, 0, 0⟩⟩
instance : SMul K (V3 K) := ⟨fun c a => ⟨c * a.x, c * a.y, c * a.z⟩⟩

@[simp] theorem add_x (a b : V3 K) : (a + b).x = a.x + b.x := rfl
@[simp] theorem add_y (a b : V3 K) : (a + b).y = a.y + b.y := rfl
@[simp] theorem add_z (a b : V3 K) : (a + b).z = a.z + b.z := rfl
@[simp] theorem sub_x (a b : V3 K) : (a - b).x = a.x - b.x := rfl
@[simp] theorem sub_y (a b : V3 K) : (a - b).y = a.y - b.y := rfl
@[simp] theorem sub_z (a b : V3 K) : (a - b).z = a.z - b.z := rfl
@[simp] theorem neg_x (a : V3 K) : (-a).x = -a.x := rfl
@[simp] theorem neg_y (a : V3 K) : (-a).y = -a.y := rfl
@[simp] theorem neg_z (a : V3 K) : (-a).z = -a.z := rfl
@[simp] theorem zero_x : (0 : V3 K).x = 0 := rfl
@[simp] theorem zero_y : (0 : V3 K).y = 0 := rfl
@[simp] theorem zero_z : (0 : V3 K).z = 0 := rfl
@[simp] theorem smul_x (c : K) (a : V3 K) : (c • a).x = c * a.x := rfl
@[simp] theorem smul_y (c : K) (a : V3 K) : (c • a).y = c * a.y := rfl
@[simp] theorem smul_z (c : K) (a : V3 K) : (c • a).z = c * a.z := rfl

theorem ext' {a b : V3 K} (h0 : a.x = b.x) (h1 : a.y = b.y) (h2 : a.z = b.z) : a = b := by
  cases a; cases b; simp_all

/-- Eigen `a.dot(b)`. -/
def dot (a b : V3 K) : K := a.x * b.x + a.y * b.y + a.z * b.z
/-- Eigen `a.cross(b)`. -/
def cross (a b : V3 K) : V3 K := ⟨a.y * b.z - a.z * b.y, a.z * b.x - a.x * b.z, a.x * b.y - a.y * b.x⟩

end V3

/-- `Matrix3<S>`: three rows. -/
structure M3 (K : Type*) where
  r0 : V3 K
  r1 : V3 K
  r2 : V3 K
deriving DecidableEq, Repr

namespace M3
variable {K : Type*}

/-- Eigen `m.row(i)`. -/
def row (m : M3 K) (i : Fin 3) : V3 K :=
  match i with
  | 0 => m.r0
  | 1 => m.r1
  | 2 => m.r2
/-- Eigen `m(i, j)`. -/
def get (m : M3 K) (i j : Fin 3) : K := (m.row i).get j
/-- Eigen `m.col(j)`. -/
def col (m : M3 K) (j : Fin 3) : V3 K := ⟨m.r0.get j, m.r1.get j, m.r2.get j⟩
/-- Eigen `m.transpose()`. -/
def tr (m : M3 K) : M3 K := ⟨m.col 0, m.col 1, m.col 2⟩

variable [Field K]
/-- Eigen `m * v`. -/
def mulVec (m : M3 K) (v : V3 K) : V3 K := ⟨m.r0.dot v, m.r1.dot v, m.r2.dot v⟩
/-- Eigen `m * n`. -/
def mul (m n : M3 K) : M3 K :=
  ⟨⟨m.r0.dot (n.col 0), m.r0.dot (n.col 1), m.r0.dot (n.col 2)⟩,
   ⟨m.r1.dot (n.col 0), m.r1.dot (n.col 1), m.r1.dot (n.col 2)⟩,
   ⟨m.r2.dot (n.col 0), m.r2.dot (n.col 1), m.r2.dot (n.col 2)⟩⟩
/-- The identity. -/
def one : M3 K := ⟨⟨1, 0, 0⟩, ⟨0, 1, 0⟩, ⟨0, 0, 1⟩⟩
/-- Orthonormal rows (hence columns): an isometry. -/
structure Orthonormal (m : M3 K) : Prop where
  rows : m.mul m.tr = one
  cols : m.tr.mul m = one
end M3

end Fcl
