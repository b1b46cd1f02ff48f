import Verif.Motion.Continuous
import Verif.Motion.Spec

/-!
# What is asked of continuous collision queries
-/

namespace Fcl

/-- Where the motion has the body `A` at time `t`. -/
def Motion.bodyAt (m : Motion) (A : Set (V3 ℝ)) (t : ℝ) : Set (V3 ℝ) := Placed (m.integrate t).tf.R (m.integrate t).tf.t A

/-- The bodies touch at time `t`. -/
def TouchAt (m1 m2 : Motion) (A B : Set (V3 ℝ)) (t : ℝ) : Prop := Touch (m1.bodyAt A t) (m2.bodyAt B t)

/-- A motion as conservative advancement needs it. -/
structure Motion.Good (m : Motion) : Prop where
  init : m.init = m.integrate 0
  rigid : ∀ t, 0 ≤ t → t ≤ 1 → (m.integrate t).tf.Rigid
  bounds : m.Bounds
  still : ∀ s b, m.bvBound s b 0 = 0

namespace Continuous

/-- The answer never is too late: the bodies are apart at every time before the reported one, which is 1 if no contact is reported; a
contact at the start is reported at time 0; and the poses reported with a contact are those at its time. -/
structure Safe (m1 m2 : Motion) (A B : Set (V3 ℝ)) (r : CCResult) : Prop where
  range : 0 ≤ r.toc ∧ r.toc ≤ 1
  free : ∀ t, 0 ≤ t → t < r.toc → ¬ TouchAt m1 m2 A B t
  miss : r.isCollide = false → r.toc = 1
  start : TouchAt m1 m2 A B 0 → r.isCollide = true ∧ r.toc = 0
  poses : r.isCollide = true → r.tf1 = (m1.integrate r.toc).tf ∧ r.tf2 = (m2.integrate r.toc).tf

/-- A reported contact is one up to a gap `e`. -/
def Near (m1 m2 : Motion) (A B : Set (V3 ℝ)) (e : ℝ) (r : CCResult) : Prop :=
  r.isCollide = true → ∃ p ∈ m1.bodyAt A r.toc, ∃ q ∈ m2.bodyAt B r.toc, p.dist q ≤ e

/-- The time of the `i`-th of `n` samples. -/
noncomputable def sample (n i : ℕ) : ℝ := (i : ℝ) / ((n : ℝ) - 1)

/-- What sampling at `n` times can tell: a contact is reported if and only if the bodies touch at a sample, with the first such time and
the poses at that time; otherwise the time is 1 and the poses are as before. -/
structure Sampled (m1 m2 : Motion) (A B : Set (V3 ℝ)) (n : ℕ) (r0 r : CCResult) : Prop where
  iff : r.isCollide = true ↔ ∃ i < n, TouchAt m1 m2 A B (sample n i)
  hit : r.isCollide = true → ∃ i < n, r.toc = sample n i ∧ TouchAt m1 m2 A B r.toc ∧ (∀ j < i, ¬ TouchAt m1 m2 A B (sample n j)) ∧
    r.tf1 = (m1.integrate r.toc).tf ∧ r.tf2 = (m2.integrate r.toc).tf
  miss : r.isCollide = false → r.toc = 1 ∧ r.tf1 = r0.tf1 ∧ r.tf2 = r0.tf2

/-- The shapes whose queries with a sphere are modelled. -/
def Simple : Geo ℝ → Prop
  | .sphere _ | .capsule _ _ | .box _ | .cylinder _ _ => True
  | _ => False

end Continuous
end Fcl
