import Verif.Gjk.Project
import Verif.BVH.MeshSpec

/-!
# What the projection on a simplex must give
-/

namespace Fcl.Proj

/-- `w k • v₀ + w (k+1) • v₁ + …`. -/
noncomputable def mix (w : ℕ → ℝ) : List (V3 ℝ) → ℕ → V3 ℝ
  | [], _ => 0
  | v :: l, k => w k • v + mix w l (k + 1)

/-- `r` describes the point nearest to `p` among the points of the simplex of vertices `vs`: the weights are those of a convex
combination, the value is the squared distance of that combination, no point of the simplex is nearer, and the vertices
that are not in the code have no weight. Those in the code are on the plane through the nearest point at a right angle to
the line to `p`. -/
structure Nearest (vs : List (V3 ℝ)) (p : V3 ℝ) (r : Proj) : Prop where
  weights : ∀ k < vs.length, 0 ≤ r.par k
  total : ((List.range vs.length).map r.par).sum = 1
  value : r.dist = (mix r.par vs 0 - p).dot (mix r.par vs 0 - p)
  least : ∀ x, HullOf vs x → r.dist ≤ (x - p).dot (x - p)
  coded : ∀ k < vs.length, r.bit k = false → r.par k = 0
  flat : ∀ k (h : k < vs.length), r.bit k = true → (mix r.par vs 0 - p).dot (vs[k] - mix r.par vs 0) = 0
  bits : ∀ k, vs.length ≤ k → r.bit k = false

end Fcl.Proj
