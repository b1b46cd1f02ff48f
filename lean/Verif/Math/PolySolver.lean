import Mathlib.Analysis.SpecialFunctions.Trigonometric.Inverse
import Mathlib.Analysis.Real.Sqrt
import Mathlib.Analysis.SpecialFunctions.Pow.Real

/-!
# Model of `PolySolver` (`include/fcl/math/detail/polysolver-inl.h`)

Over the reals. `eps` is `getNearZeroThreshold()` (lines 192-196, `1e-9`). The result is the list of the
first `num` entries of `s`. The literal `PI` is the number `π`.
-/

namespace Fcl
namespace PolySolver

/-- `isZero(v)`, lines 178-182. -/
noncomputable def isZero (eps v : ℝ) : Bool := decide (v < eps) && decide (v > -eps)

/-- `cbrt(v)`, lines 185-189: the declared return type is `bool`, so the result of `std::pow(v, 1.0 / 3.0)`
is converted to `bool` (and back to a number where it is used): 0 for 0, and 1 for everything else,
including the NaN which `pow` returns for a negative base. -/
noncomputable def cbrt (v : ℝ) : ℝ := if v = 0 then 0 else 1

/-- `solveLinear(c, s)`, lines 56-63: `c0 + c1 x = 0`. -/
noncomputable def solveLinear (eps c0 c1 : ℝ) : List ℝ := if isZero eps c1 then [] else [-c0 / c1]

/-- `solveQuadric(c, s)`, lines 66-99: `c0 + c1 x + c2 x² = 0`. -/
noncomputable def solveQuadric (eps c0 c1 c2 : ℝ) : List ℝ :=
  if isZero eps c2 then solveLinear eps c0 c1
  else
    let p := c1 / (2 * c2)
    let q := c0 / c2
    let D := p * p - q
    if isZero eps D then [-p]
    else if D < 0 then []
    else [Real.sqrt D - p, -Real.sqrt D - p]

/-- `solveCubic(c, s)`, lines 102-175: `c0 + c1 x + c2 x² + c3 x³ = 0`. -/
noncomputable def solveCubic (eps c0 c1 c2 c3 : ℝ) : List ℝ :=
  if isZero eps c3 then solveQuadric eps c0 c1 c2
  else
    let third : ℝ := 1 / 3
    let A := c2 / c3
    let B := c1 / c3
    let C := c0 / c3
    let sqA := A * A
    let p := (-third * sqA + B) * third
    let q := (1 / 2) * (2 / 27 * A * sqA - third * A * B + C)
    let cbp := p * p * p
    let D := q * q + cbp
    let ys : List ℝ :=
      if isZero eps D then
        if isZero eps q then [0]
        else [2 * cbrt (-q), -cbrt (-q)]
      else if D < 0 then
        let phi := third * Real.arccos (-q / Real.sqrt (-cbp))
        let t := 2 * Real.sqrt (-p)
        [t * Real.cos phi, -t * Real.cos (phi + Real.pi / 3), -t * Real.cos (phi - Real.pi / 3)]
      else
        let u := cbrt (Real.sqrt D + |q|)
        if q > 0 then [-u + p / u] else [u - p / u]
    ys.map (· - third * A)

end PolySolver
end Fcl
