import Verif.OBB.Fit

/-!
# Model of rectangle swept spheres

`RSS<S>` and `rectDistance`, math/bv/RSS-inl.h, and the functions that fit such a volume to points, math/geometry-inl.h
711-991 and math/bv/utility-inl.h 170-262. The volume is the set of points that are at most `r` from a rectangle.
-/

namespace Fcl

/-- `RSS<S>`, math/bv/RSS.h 50-80: the directions, a corner of the rectangle, its sides and the radius. -/
structure RSS (K : Type*) where
  axis : M3 K
  To : V3 K
  l0 : K
  l1 : K
  r : K

namespace RSS
section
variable {K : Type*} [Field K] [LinearOrder K]

/-- `clipToRange`, RSS-inl.h 449-454. -/
def clip (val a b : K) : K := if val < a then a else if val > b then b else val

/-- `segCoords`, 457-482: the parameters `t` and `u`. -/
def segCoords (a b A_dot_B A_dot_T B_dot_T : K) : K × K :=
  let denom := 1 - A_dot_B * A_dot_B
  let t := if denom = 0 then 0 else clip ((A_dot_T - B_dot_T * A_dot_B) / denom) 0 a
  let u := t * A_dot_B - B_dot_T
  if u < 0 then (clip A_dot_T 0 a, 0)
  else if u > b then (clip (b * A_dot_B + A_dot_T) 0 a, b)
  else (t, u)

/-- `inVoronoi`, 485-509. `eps` is `1e-7`. -/
def inVoronoi (eps a b Anorm_dot_B Anorm_dot_T A_dot_B A_dot_T B_dot_T : K) : Bool :=
  if |Anorm_dot_B| < eps then false
  else
    let u := clip (-Anorm_dot_T / Anorm_dot_B) 0 b
    let t := clip (u * A_dot_B + A_dot_T) 0 a
    let v := t * A_dot_B - B_dot_T
    if Anorm_dot_B > 0 then decide (v > u + eps) else decide (v < u - eps)

/-- The arguments of `rectDistance`: the second rectangle relative to the first, `Rab` and `Tab`, and the sides of
both. -/
structure Rects (K : Type*) where
  R : M3 K
  T : V3 K
  a0 : K
  a1 : K
  b0 : K
  b1 : K

/-- The answer of one of the parts for a pair of sides: the point `*P` of the first rectangle and the vector `D` to the
point `*Q = D + (*P)` of the second. -/
structure Edge (K : Type*) where
  P : V3 K
  D : V3 K

namespace Rects
variable (q : Rects K)

/-- Line 534. -/
def Tba : V3 K := q.R.tr.mulVec q.T

/-- Line 517. -/
def A0_dot_B0 : K := q.R.r0.x

/-- Line 518. -/
def A0_dot_B1 : K := q.R.r0.y

/-- Line 519. -/
def A1_dot_B0 : K := q.R.r1.x

/-- Line 520. -/
def A1_dot_B1 : K := q.R.r1.y

/-- Line 525. -/
def aA0_dot_B0 : K := q.a0 * q.A0_dot_B0

/-- Line 526. -/
def aA0_dot_B1 : K := q.a0 * q.A0_dot_B1

/-- Line 527. -/
def aA1_dot_B0 : K := q.a1 * q.A1_dot_B0

/-- Line 528. -/
def aA1_dot_B1 : K := q.a1 * q.A1_dot_B1

/-- Line 529. -/
def bA0_dot_B0 : K := q.b0 * q.A0_dot_B0

/-- Line 530. -/
def bA1_dot_B0 : K := q.b0 * q.A1_dot_B0

/-- Line 531. -/
def bA0_dot_B1 : K := q.b1 * q.A0_dot_B1

/-- Line 532. -/
def bA1_dot_B1 : K := q.b1 * q.A1_dot_B1

/-- Line 545. -/
def ALL_x : K := -q.Tba.x

/-- Line 546. -/
def ALU_x : K := q.ALL_x + q.aA1_dot_B0

/-- Line 547. -/
def AUL_x : K := q.ALL_x + q.aA0_dot_B0

/-- Line 548. -/
def AUU_x : K := q.ALU_x + q.aA0_dot_B0

/-- Line 565. -/
def BLL_x : K := q.T.x

/-- Line 566. -/
def BLU_x : K := q.BLL_x + q.bA0_dot_B1

/-- Line 567. -/
def BUL_x : K := q.BLL_x + q.bA0_dot_B0

/-- Line 568. -/
def BUU_x : K := q.BLU_x + q.bA0_dot_B0

/-- Line 702. -/
def ALL_y : K := -q.Tba.y

/-- Line 703. -/
def ALU_y : K := q.ALL_y + q.aA1_dot_B1

/-- Line 704. -/
def AUL_y : K := q.ALL_y + q.aA0_dot_B1

/-- Line 705. -/
def AUU_y : K := q.ALU_y + q.aA0_dot_B1

/-- Line 856. -/
def BLL_y : K := q.T.y

/-- Line 857. -/
def BLU_y : K := q.BLL_y + q.bA1_dot_B1

/-- Line 858. -/
def BUL_y : K := q.BLL_y + q.bA1_dot_B0

/-- Line 859. -/
def BUU_y : K := q.BLU_y + q.bA1_dot_B0

/-- Lines 550-563. -/
def LA1_lx : K := if q.ALL_x < q.ALU_x then q.ALL_x else q.ALU_x

/-- Lines 550-563. -/
def LA1_ux : K := if q.ALL_x < q.ALU_x then q.ALU_x else q.ALL_x

/-- Lines 550-563. -/
def UA1_lx : K := if q.ALL_x < q.ALU_x then q.AUL_x else q.AUU_x

/-- Lines 550-563. -/
def UA1_ux : K := if q.ALL_x < q.ALU_x then q.AUU_x else q.AUL_x

/-- Lines 570-583. -/
def LB1_lx : K := if q.BLL_x < q.BLU_x then q.BLL_x else q.BLU_x

/-- Lines 570-583. -/
def LB1_ux : K := if q.BLL_x < q.BLU_x then q.BLU_x else q.BLL_x

/-- Lines 570-583. -/
def UB1_lx : K := if q.BLL_x < q.BLU_x then q.BUL_x else q.BUU_x

/-- Lines 570-583. -/
def UB1_ux : K := if q.BLL_x < q.BLU_x then q.BUU_x else q.BUL_x

/-- Lines 709-722. -/
def LA1_ly : K := if q.ALL_y < q.ALU_y then q.ALL_y else q.ALU_y

/-- Lines 709-722. -/
def LA1_uy : K := if q.ALL_y < q.ALU_y then q.ALU_y else q.ALL_y

/-- Lines 709-722. -/
def UA1_ly : K := if q.ALL_y < q.ALU_y then q.AUL_y else q.AUU_y

/-- Lines 709-722. -/
def UA1_uy : K := if q.ALL_y < q.ALU_y then q.AUU_y else q.AUL_y

/-- Lines 724-737. -/
def LB0_lx : K := if q.BLL_x < q.BUL_x then q.BLL_x else q.BUL_x

/-- Lines 724-737. -/
def LB0_ux : K := if q.BLL_x < q.BUL_x then q.BUL_x else q.BLL_x

/-- Lines 724-737. -/
def UB0_lx : K := if q.BLL_x < q.BUL_x then q.BLU_x else q.BUU_x

/-- Lines 724-737. -/
def UB0_ux : K := if q.BLL_x < q.BUL_x then q.BUU_x else q.BLU_x

/-- Lines 863-876. -/
def LA0_lx : K := if q.ALL_x < q.AUL_x then q.ALL_x else q.AUL_x

/-- Lines 863-876. -/
def LA0_ux : K := if q.ALL_x < q.AUL_x then q.AUL_x else q.ALL_x

/-- Lines 863-876. -/
def UA0_lx : K := if q.ALL_x < q.AUL_x then q.ALU_x else q.AUU_x

/-- Lines 863-876. -/
def UA0_ux : K := if q.ALL_x < q.AUL_x then q.AUU_x else q.ALU_x

/-- Lines 878-891. -/
def LB1_ly : K := if q.BLL_y < q.BLU_y then q.BLL_y else q.BLU_y

/-- Lines 878-891. -/
def LB1_uy : K := if q.BLL_y < q.BLU_y then q.BLU_y else q.BLL_y

/-- Lines 878-891. -/
def UB1_ly : K := if q.BLL_y < q.BLU_y then q.BUL_y else q.BUU_y

/-- Lines 878-891. -/
def UB1_uy : K := if q.BLL_y < q.BLU_y then q.BUU_y else q.BUL_y

/-- Lines 1008-1021. -/
def LA0_ly : K := if q.ALL_y < q.AUL_y then q.ALL_y else q.AUL_y

/-- Lines 1008-1021. -/
def LA0_uy : K := if q.ALL_y < q.AUL_y then q.AUL_y else q.ALL_y

/-- Lines 1008-1021. -/
def UA0_ly : K := if q.ALL_y < q.AUL_y then q.ALU_y else q.AUU_y

/-- Lines 1008-1021. -/
def UA0_uy : K := if q.ALL_y < q.AUL_y then q.AUU_y else q.ALU_y

/-- Lines 1023-1036. -/
def LB0_ly : K := if q.BLL_y < q.BUL_y then q.BLL_y else q.BUL_y

/-- Lines 1023-1036. -/
def LB0_uy : K := if q.BLL_y < q.BUL_y then q.BUL_y else q.BLL_y

/-- Lines 1023-1036. -/
def UB0_ly : K := if q.BLL_y < q.BUL_y then q.BLU_y else q.BUU_y

/-- Lines 1023-1036. -/
def UB0_uy : K := if q.BLL_y < q.BUL_y then q.BUU_y else q.BLU_y

/-- `UA1, UB1`: lines 585-613. -/
def UA1UB1 (eps : K) : Option (Edge K) :=
  if (q.UA1_ux > q.b0 ∧ q.UB1_ux > q.a0) ∧
    (q.UA1_lx > q.b0 ∨ inVoronoi eps q.b1 q.a1 q.A1_dot_B0 (q.aA0_dot_B0 - q.b0 - q.Tba.x) q.A1_dot_B1 (q.aA0_dot_B1 - q.Tba.y) (-q.T.y - q.bA1_dot_B0) = true) ∧
    (q.UB1_lx > q.a0 ∨ inVoronoi eps q.a1 q.b1 q.A0_dot_B1 (q.T.x + q.bA0_dot_B0 - q.a0) q.A1_dot_B1 (q.T.y + q.bA1_dot_B0) (q.Tba.y - q.aA0_dot_B1) = true) then
    let (t, u) := segCoords q.a1 q.b1 q.A1_dot_B1 (q.T.y + q.bA1_dot_B0) (q.Tba.y - q.aA0_dot_B1)
    let P : V3 K := ⟨q.a0, t, 0⟩
    let D : V3 K := ⟨q.T.x + q.R.r0.x * q.b0 + q.R.r0.y * u - q.a0,
      q.T.y + q.R.r1.x * q.b0 + q.R.r1.y * u - t,
      q.T.z + q.R.r2.x * q.b0 + q.R.r2.y * u⟩
    some ⟨P, D⟩
  else none

/-- `UA1, LB1`: lines 616-642. -/
def UA1LB1 (eps : K) : Option (Edge K) :=
  if (q.UA1_lx < 0 ∧ q.LB1_ux > q.a0) ∧
    (q.UA1_ux < 0 ∨ inVoronoi eps q.b1 q.a1 (-q.A1_dot_B0) (q.Tba.x - q.aA0_dot_B0) q.A1_dot_B1 (q.aA0_dot_B1 - q.Tba.y) (-q.T.y) = true) ∧
    (q.LB1_lx > q.a0 ∨ inVoronoi eps q.a1 q.b1 q.A0_dot_B1 (q.T.x - q.a0) q.A1_dot_B1 q.T.y (q.Tba.y - q.aA0_dot_B1) = true) then
    let (t, u) := segCoords q.a1 q.b1 q.A1_dot_B1 q.T.y (q.Tba.y - q.aA0_dot_B1)
    let P : V3 K := ⟨q.a0, t, 0⟩
    let D : V3 K := ⟨q.T.x + q.R.r0.y * u - q.a0,
      q.T.y + q.R.r1.y * u - t,
      q.T.z + q.R.r2.y * u⟩
    some ⟨P, D⟩
  else none

/-- `LA1, UB1`: lines 644-670. -/
def LA1UB1 (eps : K) : Option (Edge K) :=
  if (q.LA1_ux > q.b0 ∧ q.UB1_lx < 0) ∧
    (q.LA1_lx > q.b0 ∨ inVoronoi eps q.b1 q.a1 q.A1_dot_B0 (-q.Tba.x - q.b0) q.A1_dot_B1 (-q.Tba.y) (-q.T.y - q.bA1_dot_B0) = true) ∧
    (q.UB1_ux < 0 ∨ inVoronoi eps q.a1 q.b1 (-q.A0_dot_B1) (-q.T.x - q.bA0_dot_B0) q.A1_dot_B1 (q.T.y + q.bA1_dot_B0) q.Tba.y = true) then
    let (t, u) := segCoords q.a1 q.b1 q.A1_dot_B1 (q.T.y + q.bA1_dot_B0) q.Tba.y
    let P : V3 K := ⟨0, t, 0⟩
    let D : V3 K := ⟨q.T.x + q.R.r0.x * q.b0 + q.R.r0.y * u,
      q.T.y + q.R.r1.x * q.b0 + q.R.r1.y * u - t,
      q.T.z + q.R.r2.x * q.b0 + q.R.r2.y * u⟩
    some ⟨P, D⟩
  else none

/-- `LA1, LB1`: lines 672-698. -/
def LA1LB1 (eps : K) : Option (Edge K) :=
  if (q.LA1_lx < 0 ∧ q.LB1_lx < 0) ∧
    (q.LA1_ux < 0 ∨ inVoronoi eps q.b1 q.a1 (-q.A1_dot_B0) q.Tba.x q.A1_dot_B1 (-q.Tba.y) (-q.T.y) = true) ∧
    (q.LB1_ux < 0 ∨ inVoronoi eps q.a1 q.b1 (-q.A0_dot_B1) (-q.T.x) q.A1_dot_B1 q.T.y q.Tba.y = true) then
    let (t, u) := segCoords q.a1 q.b1 q.A1_dot_B1 q.T.y q.Tba.y
    let P : V3 K := ⟨0, t, 0⟩
    let D : V3 K := ⟨q.T.x + q.R.r0.y * u,
      q.T.y + q.R.r1.y * u - t,
      q.T.z + q.R.r2.y * u⟩
    some ⟨P, D⟩
  else none

/-- `UA1, UB0`: lines 739-766. -/
def UA1UB0 (eps : K) : Option (Edge K) :=
  if (q.UA1_uy > q.b1 ∧ q.UB0_ux > q.a0) ∧
    (q.UA1_ly > q.b1 ∨ inVoronoi eps q.b0 q.a1 q.A1_dot_B1 (q.aA0_dot_B1 - q.Tba.y - q.b1) q.A1_dot_B0 (q.aA0_dot_B0 - q.Tba.x) (-q.T.y - q.bA1_dot_B1) = true) ∧
    (q.UB0_lx > q.a0 ∨ inVoronoi eps q.a1 q.b0 q.A0_dot_B0 (q.T.x - q.a0 + q.bA0_dot_B1) q.A1_dot_B0 (q.T.y + q.bA1_dot_B1) (q.Tba.x - q.aA0_dot_B0) = true) then
    let (t, u) := segCoords q.a1 q.b0 q.A1_dot_B0 (q.T.y + q.bA1_dot_B1) (q.Tba.x - q.aA0_dot_B0)
    let P : V3 K := ⟨q.a0, t, 0⟩
    let D : V3 K := ⟨q.T.x + q.R.r0.y * q.b1 + q.R.r0.x * u - q.a0,
      q.T.y + q.R.r1.y * q.b1 + q.R.r1.x * u - t,
      q.T.z + q.R.r2.y * q.b1 + q.R.r2.x * u⟩
    some ⟨P, D⟩
  else none

/-- `UA1, LB0`: lines 768-794. -/
def UA1LB0 (eps : K) : Option (Edge K) :=
  if (q.UA1_ly < 0 ∧ q.LB0_ux > q.a0) ∧
    (q.UA1_uy < 0 ∨ inVoronoi eps q.b0 q.a1 (-q.A1_dot_B1) (q.Tba.y - q.aA0_dot_B1) q.A1_dot_B0 (q.aA0_dot_B0 - q.Tba.x) (-q.T.y) = true) ∧
    (q.LB0_lx > q.a0 ∨ inVoronoi eps q.a1 q.b0 q.A0_dot_B0 (q.T.x - q.a0) q.A1_dot_B0 q.T.y (q.Tba.x - q.aA0_dot_B0) = true) then
    let (t, u) := segCoords q.a1 q.b0 q.A1_dot_B0 q.T.y (q.Tba.x - q.aA0_dot_B0)
    let P : V3 K := ⟨q.a0, t, 0⟩
    let D : V3 K := ⟨q.T.x + q.R.r0.x * u - q.a0,
      q.T.y + q.R.r1.x * u - t,
      q.T.z + q.R.r2.x * u⟩
    some ⟨P, D⟩
  else none

/-- `LA1, UB0`: lines 796-824. -/
def LA1UB0 (eps : K) : Option (Edge K) :=
  if (q.LA1_uy > q.b1 ∧ q.UB0_lx < 0) ∧
    (q.LA1_ly > q.b1 ∨ inVoronoi eps q.b0 q.a1 q.A1_dot_B1 (-q.Tba.y - q.b1) q.A1_dot_B0 (-q.Tba.x) (-q.T.y - q.bA1_dot_B1) = true) ∧
    (q.UB0_ux < 0 ∨ inVoronoi eps q.a1 q.b0 (-q.A0_dot_B0) (-q.T.x - q.bA0_dot_B1) q.A1_dot_B0 (q.T.y + q.bA1_dot_B1) q.Tba.x = true) then
    let (t, u) := segCoords q.a1 q.b0 q.A1_dot_B0 (q.T.y + q.bA1_dot_B1) q.Tba.x
    let P : V3 K := ⟨0, t, 0⟩
    let D : V3 K := ⟨q.T.x + q.R.r0.y * q.b1 + q.R.r0.x * u,
      q.T.y + q.R.r1.y * q.b1 + q.R.r1.x * u - t,
      q.T.z + q.R.r2.y * q.b1 + q.R.r2.x * u⟩
    some ⟨P, D⟩
  else none

/-- `LA1, LB0`: lines 826-852. -/
def LA1LB0 (eps : K) : Option (Edge K) :=
  if (q.LA1_ly < 0 ∧ q.LB0_lx < 0) ∧
    (q.LA1_uy < 0 ∨ inVoronoi eps q.b0 q.a1 (-q.A1_dot_B1) q.Tba.y q.A1_dot_B0 (-q.Tba.x) (-q.T.y) = true) ∧
    (q.LB0_ux < 0 ∨ inVoronoi eps q.a1 q.b0 (-q.A0_dot_B0) (-q.T.x) q.A1_dot_B0 q.T.y q.Tba.x = true) then
    let (t, u) := segCoords q.a1 q.b0 q.A1_dot_B0 q.T.y q.Tba.x
    let P : V3 K := ⟨0, t, 0⟩
    let D : V3 K := ⟨q.T.x + q.R.r0.x * u,
      q.T.y + q.R.r1.x * u - t,
      q.T.z + q.R.r2.x * u⟩
    some ⟨P, D⟩
  else none

/-- `UA0, UB1`: lines 893-920. -/
def UA0UB1 (eps : K) : Option (Edge K) :=
  if (q.UA0_ux > q.b0 ∧ q.UB1_uy > q.a1) ∧
    (q.UA0_lx > q.b0 ∨ inVoronoi eps q.b1 q.a0 q.A0_dot_B0 (q.aA1_dot_B0 - q.Tba.x - q.b0) q.A0_dot_B1 (q.aA1_dot_B1 - q.Tba.y) (-q.T.x - q.bA0_dot_B0) = true) ∧
    (q.UB1_ly > q.a1 ∨ inVoronoi eps q.a0 q.b1 q.A1_dot_B1 (q.T.y - q.a1 + q.bA1_dot_B0) q.A0_dot_B1 (q.T.x + q.bA0_dot_B0) (q.Tba.y - q.aA1_dot_B1) = true) then
    let (t, u) := segCoords q.a0 q.b1 q.A0_dot_B1 (q.T.x + q.bA0_dot_B0) (q.Tba.y - q.aA1_dot_B1)
    let P : V3 K := ⟨t, q.a1, 0⟩
    let D : V3 K := ⟨q.T.x + q.R.r0.x * q.b0 + q.R.r0.y * u - t,
      q.T.y + q.R.r1.x * q.b0 + q.R.r1.y * u - q.a1,
      q.T.z + q.R.r2.x * q.b0 + q.R.r2.y * u⟩
    some ⟨P, D⟩
  else none

/-- `UA0, LB1`: lines 922-948. -/
def UA0LB1 (eps : K) : Option (Edge K) :=
  if (q.UA0_lx < 0 ∧ q.LB1_uy > q.a1) ∧
    (q.UA0_ux < 0 ∨ inVoronoi eps q.b1 q.a0 (-q.A0_dot_B0) (q.Tba.x - q.aA1_dot_B0) q.A0_dot_B1 (q.aA1_dot_B1 - q.Tba.y) (-q.T.x) = true) ∧
    (q.LB1_ly > q.a1 ∨ inVoronoi eps q.a0 q.b1 q.A1_dot_B1 (q.T.y - q.a1) q.A0_dot_B1 q.T.x (q.Tba.y - q.aA1_dot_B1) = true) then
    let (t, u) := segCoords q.a0 q.b1 q.A0_dot_B1 q.T.x (q.Tba.y - q.aA1_dot_B1)
    let P : V3 K := ⟨t, q.a1, 0⟩
    let D : V3 K := ⟨q.T.x + q.R.r0.y * u - t,
      q.T.y + q.R.r1.y * u - q.a1,
      q.T.z + q.R.r2.y * u⟩
    some ⟨P, D⟩
  else none

/-- `LA0, UB1`: lines 950-976. -/
def LA0UB1 (eps : K) : Option (Edge K) :=
  if (q.LA0_ux > q.b0 ∧ q.UB1_ly < 0) ∧
    (q.LA0_lx > q.b0 ∨ inVoronoi eps q.b1 q.a0 q.A0_dot_B0 (-q.b0 - q.Tba.x) q.A0_dot_B1 (-q.Tba.y) (-q.bA0_dot_B0 - q.T.x) = true) ∧
    (q.UB1_uy < 0 ∨ inVoronoi eps q.a0 q.b1 (-q.A1_dot_B1) (-q.T.y - q.bA1_dot_B0) q.A0_dot_B1 (q.T.x + q.bA0_dot_B0) q.Tba.y = true) then
    let (t, u) := segCoords q.a0 q.b1 q.A0_dot_B1 (q.T.x + q.bA0_dot_B0) q.Tba.y
    let P : V3 K := ⟨t, 0, 0⟩
    let D : V3 K := ⟨q.T.x + q.R.r0.x * q.b0 + q.R.r0.y * u - t,
      q.T.y + q.R.r1.x * q.b0 + q.R.r1.y * u,
      q.T.z + q.R.r2.x * q.b0 + q.R.r2.y * u⟩
    some ⟨P, D⟩
  else none

/-- `LA0, LB1`: lines 978-1004. -/
def LA0LB1 (eps : K) : Option (Edge K) :=
  if (q.LA0_lx < 0 ∧ q.LB1_ly < 0) ∧
    (q.LA0_ux < 0 ∨ inVoronoi eps q.b1 q.a0 (-q.A0_dot_B0) q.Tba.x q.A0_dot_B1 (-q.Tba.y) (-q.T.x) = true) ∧
    (q.LB1_uy < 0 ∨ inVoronoi eps q.a0 q.b1 (-q.A1_dot_B1) (-q.T.y) q.A0_dot_B1 q.T.x q.Tba.y = true) then
    let (t, u) := segCoords q.a0 q.b1 q.A0_dot_B1 q.T.x q.Tba.y
    let P : V3 K := ⟨t, 0, 0⟩
    let D : V3 K := ⟨q.T.x + q.R.r0.y * u - t,
      q.T.y + q.R.r1.y * u,
      q.T.z + q.R.r2.y * u⟩
    some ⟨P, D⟩
  else none

/-- `UA0, UB0`: lines 1038-1065. -/
def UA0UB0 (eps : K) : Option (Edge K) :=
  if (q.UA0_uy > q.b1 ∧ q.UB0_uy > q.a1) ∧
    (q.UA0_ly > q.b1 ∨ inVoronoi eps q.b0 q.a0 q.A0_dot_B1 (q.aA1_dot_B1 - q.Tba.y - q.b1) q.A0_dot_B0 (q.aA1_dot_B0 - q.Tba.x) (-q.T.x - q.bA0_dot_B1) = true) ∧
    (q.UB0_ly > q.a1 ∨ inVoronoi eps q.a0 q.b0 q.A1_dot_B0 (q.T.y - q.a1 + q.bA1_dot_B1) q.A0_dot_B0 (q.T.x + q.bA0_dot_B1) (q.Tba.x - q.aA1_dot_B0) = true) then
    let (t, u) := segCoords q.a0 q.b0 q.A0_dot_B0 (q.T.x + q.bA0_dot_B1) (q.Tba.x - q.aA1_dot_B0)
    let P : V3 K := ⟨t, q.a1, 0⟩
    let D : V3 K := ⟨q.T.x + q.R.r0.y * q.b1 + q.R.r0.x * u - t,
      q.T.y + q.R.r1.y * q.b1 + q.R.r1.x * u - q.a1,
      q.T.z + q.R.r2.y * q.b1 + q.R.r2.x * u⟩
    some ⟨P, D⟩
  else none

/-- `UA0, LB0`: lines 1067-1093. -/
def UA0LB0 (eps : K) : Option (Edge K) :=
  if (q.UA0_ly < 0 ∧ q.LB0_uy > q.a1) ∧
    (q.UA0_uy < 0 ∨ inVoronoi eps q.b0 q.a0 (-q.A0_dot_B1) (q.Tba.y - q.aA1_dot_B1) q.A0_dot_B0 (q.aA1_dot_B0 - q.Tba.x) (-q.T.x) = true) ∧
    (q.LB0_ly > q.a1 ∨ inVoronoi eps q.a0 q.b0 q.A1_dot_B0 (q.T.y - q.a1) q.A0_dot_B0 q.T.x (q.Tba.x - q.aA1_dot_B0) = true) then
    let (t, u) := segCoords q.a0 q.b0 q.A0_dot_B0 q.T.x (q.Tba.x - q.aA1_dot_B0)
    let P : V3 K := ⟨t, q.a1, 0⟩
    let D : V3 K := ⟨q.T.x + q.R.r0.x * u - t,
      q.T.y + q.R.r1.x * u - q.a1,
      q.T.z + q.R.r2.x * u⟩
    some ⟨P, D⟩
  else none

/-- `LA0, UB0`: lines 1095-1122. -/
def LA0UB0 (eps : K) : Option (Edge K) :=
  if (q.LA0_uy > q.b1 ∧ q.UB0_ly < 0) ∧
    (q.LA0_ly > q.b1 ∨ inVoronoi eps q.b0 q.a0 q.A0_dot_B1 (-q.Tba.y - q.b1) q.A0_dot_B0 (-q.Tba.x) (-q.T.x - q.bA0_dot_B1) = true) ∧
    (q.UB0_uy < 0 ∨ inVoronoi eps q.a0 q.b0 (-q.A1_dot_B0) (-q.T.y - q.bA1_dot_B1) q.A0_dot_B0 (q.T.x + q.bA0_dot_B1) q.Tba.x = true) then
    let (t, u) := segCoords q.a0 q.b0 q.A0_dot_B0 (q.T.x + q.bA0_dot_B1) q.Tba.x
    let P : V3 K := ⟨t, 0, 0⟩
    let D : V3 K := ⟨q.T.x + q.R.r0.y * q.b1 + q.R.r0.x * u - t,
      q.T.y + q.R.r1.y * q.b1 + q.R.r1.x * u,
      q.T.z + q.R.r2.y * q.b1 + q.R.r2.x * u⟩
    some ⟨P, D⟩
  else none

/-- `LA0, LB0`: lines 1124-1150. -/
def LA0LB0 (eps : K) : Option (Edge K) :=
  if (q.LA0_ly < 0 ∧ q.LB0_ly < 0) ∧
    (q.LA0_uy < 0 ∨ inVoronoi eps q.b0 q.a0 (-q.A0_dot_B1) q.Tba.y q.A0_dot_B0 (-q.Tba.x) (-q.T.x) = true) ∧
    (q.LB0_uy < 0 ∨ inVoronoi eps q.a0 q.b0 (-q.A1_dot_B0) (-q.T.y) q.A0_dot_B0 q.T.x q.Tba.x = true) then
    let (t, u) := segCoords q.a0 q.b0 q.A0_dot_B0 q.T.x q.Tba.x
    let P : V3 K := ⟨t, 0, 0⟩
    let D : V3 K := ⟨q.T.x + q.R.r0.x * u - t,
      q.T.y + q.R.r1.x * u,
      q.T.z + q.R.r2.x * u⟩
    some ⟨P, D⟩
  else none
/-- The sixteen parts for pairs of sides in their order, 585-1150. -/
def edges (eps : K) : Option (Edge K) :=
  (q.UA1UB1 eps).orElse fun _ => (q.UA1LB1 eps).orElse fun _ => (q.LA1UB1 eps).orElse fun _ => (q.LA1LB1 eps).orElse fun _ =>
  (q.UA1UB0 eps).orElse fun _ => (q.UA1LB0 eps).orElse fun _ => (q.LA1UB0 eps).orElse fun _ => (q.LA1LB0 eps).orElse fun _ =>
  (q.UA0UB1 eps).orElse fun _ => (q.UA0LB1 eps).orElse fun _ => (q.LA0UB1 eps).orElse fun _ => (q.LA0LB1 eps).orElse fun _ =>
  (q.UA0UB0 eps).orElse fun _ => (q.UA0LB0 eps).orElse fun _ => (q.LA0UB0 eps).orElse fun _ => q.LA0LB0 eps

/-- `sep1`, 1156-1167. -/
def sep1 : K :=
  if q.T.z > 0 then
    q.T.z + (if q.R.r2.x < 0 then q.b0 * q.R.r2.x else 0) + (if q.R.r2.y < 0 then q.b1 * q.R.r2.y else 0)
  else
    -q.T.z - (if q.R.r2.x > 0 then q.b0 * q.R.r2.x else 0) - (if q.R.r2.y > 0 then q.b1 * q.R.r2.y else 0)

/-- `sep2`, 1169-1180. -/
def sep2 : K :=
  if q.Tba.z < 0 then
    -q.Tba.z + (if q.R.r0.z < 0 then q.a0 * q.R.r0.z else 0) + (if q.R.r1.z < 0 then q.a1 * q.R.r1.z else 0)
  else
    q.Tba.z - (if q.R.r0.z > 0 then q.a0 * q.R.r0.z else 0) - (if q.R.r1.z > 0 then q.a1 * q.R.r1.z else 0)

/-- `return (sep > 0 ? sep : 0)`, 1220-1221. -/
def sep : K :=
  let s := if q.sep1 > q.sep2 then q.sep1 else q.sep2
  if s > 0 then s else 0

/-- What is written to `*P` and `*Q` when no pair of sides is found, 1182-1218; `none`: nothing. -/
def sepPoints : Option (V3 K × V3 K) :=
  let w1 : Option (V3 K × V3 K) :=
    if q.sep1 ≥ q.sep2 ∧ q.sep1 ≥ 0 then some (0, ⟨0, 0, if q.T.z > 0 then q.sep1 else -q.sep1⟩) else none
  if q.sep2 ≥ q.sep1 ∧ q.sep2 ≥ 0 then
    some (if q.Tba.z < 0 then q.sep2 • q.R.col 2 + q.T else (-q.sep2) • q.R.col 2 + q.T, q.T)
  else w1

end Rects
end

/-- `rectDistance`, 513-1222; the overload with a transform, 1228-1932, is the same text with `tfab.linear()` for `Rab`
and `tfab.translation()` for `Tab`. -/
noncomputable def rectDistance (eps : ℝ) (q : Rects ℝ) : ℝ :=
  match q.edges eps with
  | some e => e.D.nrm
  | none => q.sep

/-- The points `*P` and `*Q` of `rectDistance`, in the frame of the first rectangle; `none`: they are not written. -/
def rectPoints {K : Type*} [Field K] [LinearOrder K] (eps : K) (q : Rects K) : Option (V3 K × V3 K) :=
  match q.edges eps with
  | some e => some (e.P, e.D + e.P)
  | none => q.sepPoints

section
variable {K : Type*} [Field K] [LinearOrder K]

/-- The arguments computed by `overlap`, 111-114, and `distance`, 438-441. -/
def rects (b1 b2 : RSS K) : Rects K :=
  ⟨b1.axis.tr.mul b2.axis, b1.axis.tr.mulVec (b2.To - b1.To), b1.l0, b1.l1, b2.l0, b2.l1⟩

/-- The arguments computed by the two functions with a pose, 1945-1949 and 1965-1969. -/
def rectsAt (R0 : M3 K) (T0 : V3 K) (b1 b2 : RSS K) : Rects K :=
  ⟨b1.axis.tr.mul (R0.mul b2.axis), b1.axis.tr.mulVec (R0.mulVec b2.To + T0 - b1.To), b1.l0, b1.l1, b2.l0, b2.l1⟩

/-- `RSS::contain`, 129-162. -/
def contain (b : RSS K) (p : V3 K) : Bool :=
  let proj := b.axis.tr.mulVec (p - b.To)
  let near (v : V3 K) : Bool := decide ((proj - v).dot (proj - v) < b.r * b.r)
  if (proj.x < b.l0 ∧ proj.x > 0) ∧ proj.y < b.l1 ∧ proj.y > 0 then decide (|proj.z| < b.r)
  else if (proj.x < b.l0 ∧ proj.x > 0) ∧ (proj.y < 0 ∨ proj.y > b.l1) then near ⟨proj.x, if proj.y > 0 then b.l1 else 0, 0⟩
  else if (proj.y < b.l1 ∧ proj.y > 0) ∧ (proj.x < 0 ∨ proj.x > b.l0) then near ⟨if proj.x > 0 then b.l0 else 0, proj.y, 0⟩
  else near ⟨if proj.x > 0 then b.l0 else 0, if proj.y > 0 then b.l1 else 0, 0⟩

/-- `translate`, 1977-1983. -/
def translate (b : RSS K) (t : V3 K) : RSS K := { b with To := b.To + t }

/-- `RSS::center`, 415-421. -/
def center (b : RSS K) : V3 K := b.To + b.axis.mulVec ⟨b.l0 * (1 / 2), b.l1 * (1 / 2), 0⟩

/-- `RSS::setToFromCenter`, 423-428. -/
def setToFromCenter (b : RSS K) (c : V3 K) : RSS K := { b with To := c - b.axis.mulVec ⟨b.l0 * (1 / 2), b.l1 * (1 / 2), 0⟩ }

/-- The corners that `operator +` takes from one volume, 319-351. -/
def corners (b : RSS K) : List (V3 K) :=
  let d0p := (b.l0 + b.r) • b.axis.col 0
  let d1p := (b.l1 + b.r) • b.axis.col 1
  let d0n := (-b.r) • b.axis.col 0
  let d1n := (-b.r) • b.axis.col 1
  let d2p := b.r • b.axis.col 2
  let d2n := (-b.r) • b.axis.col 2
  [b.To + d0p + d1p + d2p, b.To + d0p + d1p + d2n, b.To + d0p + d1n + d2p, b.To + d0p + d1n + d2n,
    b.To + d0n + d1p + d2p, b.To + d0n + d1p + d2n, b.To + d0n + d1n + d2p, b.To + d0n + d1n + d2n]

end

/-- `To[2]` moved by half of what `|proj[2]|` exceeds the radius, 184-188, 213-216, 245-248 and 297-300. -/
noncomputable def shiftZ (b : RSS ℝ) (pz : ℝ) : RSS ℝ :=
  { b with To := ⟨b.To.x, b.To.y, if pz > 0 then b.To.z + (1 / 2) * (|pz| - b.r) else b.To.z - (1 / 2) * (|pz| - b.r)⟩ }

/-- `RSS::operator += (const Vector3<S>&)`, 166-303. -/
noncomputable def addPoint (b : RSS ℝ) (p : V3 ℝ) : RSS ℝ :=
  let proj : V3 ℝ := ⟨(b.axis.col 0).dot (p - b.To), (b.axis.col 1).dot (p - b.To), (b.axis.col 2).dot (p - b.To)⟩
  let x := if proj.x > 0 then b.l0 else 0
  let y := if proj.y > 0 then b.l1 else 0
  if (proj.x < b.l0 ∧ proj.x > 0) ∧ proj.y < b.l1 ∧ proj.y > 0 then
    if |proj.z| < b.r then b else { b with r := (1 / 2) * (b.r + |proj.z|) }.shiftZ proj.z
  else if (proj.x < b.l0 ∧ proj.x > 0) ∧ (proj.y < 0 ∨ proj.y > b.l1) then
    if (proj - ⟨proj.x, y, 0⟩).dot (proj - ⟨proj.x, y, 0⟩) < b.r * b.r then b
    else
      let dy := if |proj.z| < b.r then -Real.sqrt (b.r * b.r - proj.z * proj.z) + |proj.y - y| else |proj.y - y|
      let b' := { b with l1 := b.l1 + dy, To := if proj.y < 0 then ⟨b.To.x, b.To.y - dy, b.To.z⟩ else b.To }
      if |proj.z| < b.r then b' else b'.shiftZ proj.z
  else if (proj.y < b.l1 ∧ proj.y > 0) ∧ (proj.x < 0 ∨ proj.x > b.l0) then
    if (proj - ⟨x, proj.y, 0⟩).dot (proj - ⟨x, proj.y, 0⟩) < b.r * b.r then b
    else
      let dx := if |proj.z| < b.r then -Real.sqrt (b.r * b.r - proj.z * proj.z) + |proj.x - x| else |proj.x - x|
      let b' := { b with l0 := b.l0 + dx, To := if proj.x < 0 then ⟨b.To.x - dx, b.To.y, b.To.z⟩ else b.To }
      if |proj.z| < b.r then b' else b'.shiftZ proj.z
  else
    let s := (proj - ⟨x, y, 0⟩).dot (proj - ⟨x, y, 0⟩)
    if s < b.r * b.r then b
    else
      let diag := Real.sqrt (s - proj.z * proj.z)
      let f := if |proj.z| < b.r then (-Real.sqrt (b.r * b.r - proj.z * proj.z) + diag) / diag else 1
      let dx := f * |proj.x - x|
      let dy := f * |proj.y - y|
      let b' := { b with
        l0 := b.l0 + dx
        l1 := b.l1 + dy
        To := if proj.x < 0 ∧ proj.y < 0 then ⟨b.To.x - dx, b.To.y - dy, b.To.z⟩ else b.To }
      if |proj.z| < b.r then b' else b'.shiftZ proj.z

/-! ## Fitting -/

/-- `minz` and `maxz`, geometry-inl.h 790-801. -/
noncomputable def rangeZ (P0 : V3 ℝ) (P : List (V3 ℝ)) : ℝ × ℝ :=
  P.foldl (fun s p => if p.z < s.1 then (p.z, s.2) else if p.z > s.2 then (s.1, p.z) else s) (P0.z, P0.z)

/-- The points with the least and the greatest coordinate, 810-832 and 864-882: `P[minindex]` and `P[maxindex]`. -/
noncomputable def extremes (c : V3 ℝ → ℝ) (P0 : V3 ℝ) (P : List (V3 ℝ)) : V3 ℝ × V3 ℝ :=
  P.foldl (fun s p => if c p < c s.1 then (p, s.2) else if c p > c s.2 then (s.1, p) else s) (P0, P0)

/-- `std::sqrt(std::max<S>(radsqr - dz * dz, 0))`. -/
noncomputable def reach (radsqr cz : ℝ) (p : V3 ℝ) : ℝ := Real.sqrt (max (radsqr - (p.z - cz) * (p.z - cz)) 0)

/-- The range of the rectangle along one direction before the corners are looked at, 834-862 and 884-911. -/
noncomputable def range (c : V3 ℝ → ℝ) (radsqr cz : ℝ) (P0 : V3 ℝ) (P : List (V3 ℝ)) : ℝ × ℝ :=
  let e := extremes c P0 P
  let lo := (P0 :: P).foldl (fun m p => if c p < m then (if c p + reach radsqr cz p < m then c p + reach radsqr cz p else m) else m)
    (c e.1 + reach radsqr cz e.1)
  let hi := (P0 :: P).foldl (fun m p => if c p > m then (if c p - reach radsqr cz p > m then c p - reach radsqr cz p else m) else m)
    (c e.2 - reach radsqr cz e.2)
  (lo, hi)

/-- `minx`, `maxx`, `miny`, `maxy`. -/
structure Box where
  minx : ℝ
  maxx : ℝ
  miny : ℝ
  maxy : ℝ

/-- The growth `u` at a corner, 925-932 and the other three: `dx`, `dy` are the distances from the corner outwards. -/
noncomputable def growth (radsqr dx dy dz : ℝ) : ℝ :=
  let a := Real.sqrt (1 / 2)
  let u := dx * a + dy * a
  let t := (a * u - dx) * (a * u - dx) + (a * u - dy) * (a * u - dy) + dz * dz
  u - Real.sqrt (max (radsqr - t) 0)

/-- One round of the loop over the corners, 917-984. The code has `dx` and `dy` with the sign of the direction, which
changes `t` and `u` in the same way. -/
noncomputable def cornerStep (radsqr cz : ℝ) (b : Box) (p : V3 ℝ) : Box :=
  let a := Real.sqrt (1 / 2)
  if p.x > b.maxx then
    if p.y > b.maxy then
      let u := growth radsqr (p.x - b.maxx) (p.y - b.maxy) (cz - p.z)
      if u > 0 then { b with maxx := b.maxx + u * a, maxy := b.maxy + u * a } else b
    else if p.y < b.miny then
      let u := growth radsqr (p.x - b.maxx) (-(p.y - b.miny)) (cz - p.z)
      if u > 0 then { b with maxx := b.maxx + u * a, miny := b.miny - u * a } else b
    else b
  else if p.x < b.minx then
    if p.y > b.maxy then
      let u := growth radsqr (-(p.x - b.minx)) (p.y - b.maxy) (cz - p.z)
      if u > 0 then { b with minx := b.minx - u * a, maxy := b.maxy + u * a } else b
    else if p.y < b.miny then
      let u := growth radsqr (-(p.x - b.minx)) (-(p.y - b.miny)) (cz - p.z)
      if u > 0 then { b with minx := b.minx - u * a, miny := b.miny - u * a } else b
    else b
  else b

/-- `getRadiusAndOriginAndRectangleSize`, geometry-inl.h 713-991, as a function of the points read: for a mesh the
vertices of the triangles of the list, in both frames if there is a previous one. (`ps` has at least one element; the
code reads `P[0]`.) -/
noncomputable def fitAxis (axis : M3 ℝ) (p0 : V3 ℝ) (ps : List (V3 ℝ)) : RSS ℝ :=
  let P0 := axis.tr.mulVec p0
  let P := ps.map axis.tr.mulVec
  let z := rangeZ P0 P
  let r := (1 / 2) * (z.2 - z.1)
  let radsqr := r * r
  let cz := (1 / 2) * (z.2 + z.1)
  let x := range V3.x radsqr cz P0 P
  let y := range V3.y radsqr cz P0 P
  let b := (P0 :: P).foldl (cornerStep radsqr cz) ⟨x.1, x.2, y.1, y.2⟩
  let l0 := b.maxx - b.minx
  let l1 := b.maxy - b.miny
  ⟨axis, b.minx • axis.col 0 + b.miny • axis.col 1 + cz • axis.col 2, if l0 < 0 then 0 else l0, if l1 < 0 then 0 else l1, r⟩

/-- `fit1`, utility-inl.h 175-182. -/
noncomputable def fit1 (p : V3 ℝ) : RSS ℝ := ⟨M3.one, p, 0, 0, 0⟩

/-- `fit2`, 187-201. -/
noncomputable def fit2 (prec : ℝ) (p1 p2 : V3 ℝ) : Option (RSS ℝ) :=
  match OBB.coordinateSystem prec (p1 - p2) with
  | none => none
  | some axis => some ⟨axis, p2, (p1 - p2).nrm, 0, 0⟩

/-- `fit3`, 206-231. -/
noncomputable def fit3 (p1 p2 p3 : V3 ℝ) : RSS ℝ := fitAxis (OBB.axes3 p1 p2 p3) p1 [p2, p3]

/-- `fitn`, 246-259, and `FitImpl<S, RSS<S>>::run`, geometry/bvh/detail/BV_fitter-inl.h 331-356. `none`: `eigen_old`
leaves its outputs unset. -/
noncomputable def fitn (eig : OBB.EigenFn ℝ) (p0 : V3 ℝ) (ps : List (V3 ℝ)) : Option (RSS ℝ) :=
  match eig (OBB.covariance (p0 :: ps)) with
  | none => none
  | some (s, E) => some (fitAxis (OBB.axisFromEigen E s) p0 ps)

/-- `RSS::operator +`, RSS-inl.h 312-378. The third direction of the sum is computed from the first two of `*this`
(line 371), not from those of the sum. -/
noncomputable def add (eig : OBB.EigenFn ℝ) (b1 b2 : RSS ℝ) : Option (RSS ℝ) :=
  match b2.corners ++ b1.corners with
  | [] => none
  | p0 :: ps =>
    match eig (OBB.covariance (p0 :: ps)) with
    | none => none
    | some (s, E) =>
      let (mid, max) := OBB.midMax s
      some (fitAxis (OBB.ofCols (E.col max) (E.col mid) ((b1.axis.col 0).cross (b1.axis.col 1))) p0 ps)

/-- `fit6`, utility-inl.h 234-243. -/
noncomputable def fit6 (eig : OBB.EigenFn ℝ) (p1 p2 p3 p4 p5 p6 : V3 ℝ) : Option (RSS ℝ) :=
  add eig (fit3 p1 p2 p3) (fit3 p4 p5 p6)

/-- `fit(ps, n, bv)` for RSS: `Fitter<S, RSS<S>>`, utility-inl.h 580-602. (`none` for `n = 0` too: the code reads `P[0]`.) -/
noncomputable def fit (prec : ℝ) (eig : OBB.EigenFn ℝ) : List (V3 ℝ) → Option (RSS ℝ)
  | [] => none
  | [p1] => some (fit1 p1)
  | [p1, p2] => fit2 prec p1 p2
  | [p1, p2, p3] => some (fit3 p1 p2 p3)
  | p0 :: ps => fitn eig p0 ps

/-- `RSS::overlap`, RSS-inl.h 107-118. -/
noncomputable def overlap (eps : ℝ) (b1 b2 : RSS ℝ) : Bool := decide (rectDistance eps (rects b1 b2) ≤ b1.r + b2.r)

/-- `overlap(R0, T0, b1, b2)`, 1938-1953. -/
noncomputable def overlapAt (eps : ℝ) (R0 : M3 ℝ) (T0 : V3 ℝ) (b1 b2 : RSS ℝ) : Bool :=
  decide (rectDistance eps (rectsAt R0 T0 b1 b2) ≤ b1.r + b2.r)

/-- `RSS::distance`, 432-446. -/
noncomputable def distance (eps : ℝ) (b1 b2 : RSS ℝ) : ℝ :=
  let dist := rectDistance eps (rects b1 b2) - (b1.r + b2.r)
  if dist < 0 then 0 else dist

/-- `distance(R0, T0, b1, b2)`, 1956-1974. -/
noncomputable def distanceAt (eps : ℝ) (R0 : M3 ℝ) (T0 : V3 ℝ) (b1 b2 : RSS ℝ) : ℝ :=
  let dist := rectDistance eps (rectsAt R0 T0 b1 b2) - (b1.r + b2.r)
  if dist < 0 then 0 else dist

end RSS
end Fcl
