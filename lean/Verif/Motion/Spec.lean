import Verif.Motion.Model
import Verif.RSS.Spec
import Verif.BVH.MeshSpec

/-!
# What is asked of motions
-/

namespace Fcl

/-- `aa` (angle, axis) is what `AngleAxis<S>(r)` has to give: less than a full turn about a unit vector, and the turn is `r`. -/
structure IsAngleAxis (r : M3 ℝ) (aa : ℝ × V3 ℝ) : Prop where
  unit : aa.2.nrm = 1
  turn : |aa.1| < 2 * Real.pi
  eq : M3.angleAxis aa.1 aa.2 = r

namespace Motion

/-- The motion leads from `tf1` at time 0 to `tf2` at time 1, and keeps the body rigid in between. -/
structure Leads (m : Motion) (tf1 tf2 : Pose ℝ) : Prop where
  init : m.init.tf = tf1
  start : (m.integrate 0).tf = tf1
  stop : (m.integrate 1).tf = tf2
  rigid : ∀ t, 0 ≤ t → t ≤ 1 → (m.integrate t).tf.Rigid

/-- The bounds are upper bounds of the speed along any direction `n`: from a time `t` to a later time `u` no point of the volume,
and no point of the triangle, moves further along `n` than `u - t` times the bound at `t`. -/
structure Bounds (m : Motion) : Prop where
  bv : ∀ t u, 0 ≤ t → t ≤ u → u ≤ 1 → ∀ (b : RSS ℝ), b.WF → ∀ (n : V3 ℝ), ∀ x ∈ b.pts,
    n.dot ((m.integrate u).tf.apply x - (m.integrate t).tf.apply x) ≤ (u - t) * m.bvBound (m.integrate t) b n
  tri : ∀ t u, 0 ≤ t → t ≤ u → u ≤ 1 → ∀ (p q r n : V3 ℝ), ∀ x, HullOf [p, q, r] x →
    n.dot ((m.integrate u).tf.apply x - (m.integrate t).tf.apply x) ≤ (u - t) * m.triBound (m.integrate t) p q r n

end Motion
end Fcl
