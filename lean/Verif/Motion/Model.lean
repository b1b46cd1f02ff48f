import Verif.RSS.Model
import Verif.Geom.Space
import Verif.Math.PolySolver
import Mathlib.Analysis.SpecialFunctions.Trigonometric.Basic

/-!
# Model of the motions (include/fcl/math/motion)

A motion is a `const` object with a mutable current transform. The model keeps the current transform (and, for splines, the current
time) in a `MotionState`; `integrate(dt)` gives the new state, which does not depend on the old one.

Simplification: the code turns rotation matrices into unit quaternions and back (`Quaternion<S>(R).toRotationMatrix()`), which
is the identity on rotation matrices; the model multiplies the matrices.
-/

namespace Fcl

/-- Eigen `AngleAxis<S>(theta, a).toRotationMatrix()`. -/
noncomputable def M3.angleAxis (theta : ℝ) (a : V3 ℝ) : M3 ℝ :=
  let s := Real.sin theta
  let c := Real.cos theta
  let k := 1 - c
  ⟨⟨k * a.x * a.x + c, k * a.x * a.y - s * a.z, k * a.x * a.z + s * a.y⟩,
   ⟨k * a.x * a.y + s * a.z, k * a.y * a.y + c, k * a.y * a.z - s * a.x⟩,
   ⟨k * a.x * a.z - s * a.y, k * a.y * a.z + s * a.x, k * a.z * a.z + c⟩⟩

/-- The mutable members of a motion: `tf` and, in `SplineMotion`, `tf_t`. -/
structure MotionState where
  tf : Pose ℝ
  time : ℝ

/-- `MotionBase<S>`, motion_base.h 55-110: the state after construction, `integrate`, and `computeMotionBound` with a
`TBVMotionBoundVisitor<RSS<S>>` and with a `TriangleMotionBoundVisitor<S>`, in the current state. -/
structure Motion where
  init : MotionState
  integrate : ℝ → MotionState
  bvBound : MotionState → RSS ℝ → V3 ℝ → ℝ
  triBound : MotionState → V3 ℝ → V3 ℝ → V3 ℝ → V3 ℝ → ℝ

namespace Motion

/-- `if(dt > 1) dt = 1`, the first line of every `integrate`. -/
noncomputable def clip (dt : ℝ) : ℝ := if dt > 1 then 1 else dt

/-- The running maximum of the visitors: `if(tmp > m) m = tmp`. -/
noncomputable def largest (m : ℝ) (l : List ℝ) : ℝ := l.foldl (fun m x => if x > m then x else m) m

/-- The four corners `c1` to `c4` of the rectangle of an RSS, tbv_motion_bound_visitor-inl.h 120-123. -/
noncomputable def corners (b : RSS ℝ) : V3 ℝ × List (V3 ℝ) :=
  (b.To, [b.To + b.l0 • b.axis.col 0, b.To + b.l1 • b.axis.col 1, b.To + b.l0 • b.axis.col 0 + b.l1 • b.axis.col 1])

/-- `c_proj_max`: the square root of the greatest squared norm of `f` on the first corner and the others. -/
noncomputable def projMax (f : V3 ℝ → V3 ℝ) (c : V3 ℝ × List (V3 ℝ)) : ℝ :=
  Real.sqrt (largest ((f c.1).dot (f c.1)) (c.2.map fun x => (f x).dot (f x)))

/-- `TranslationMotion(tf1, tf2)`, translation_motion-inl.h 54-63, `integrate` 80-90, `getVelocity` 129-132, the bounds:
tbv_motion_bound_visitor-inl.h 262-271 and triangle_motion_bound_visitor-inl.h 217-226. -/
noncomputable def translation (tf1 tf2 : Pose ℝ) : Motion where
  init := ⟨tf1, 0⟩
  integrate dt := ⟨⟨tf1.R, tf1.t + clip dt • (tf2.t - tf1.t)⟩, 0⟩
  bvBound _ _ n := (tf2.t - tf1.t).dot n
  triBound _ _ _ _ n := (tf2.t - tf1.t).dot n

/-- The members of `InterpMotion`, interp_motion.h 100-120. -/
structure Interp where
  tf1 : Pose ℝ
  linVel : V3 ℝ
  angVel : ℝ
  axis : V3 ℝ
  ref : V3 ℝ

/-- `computeVelocity()`, interp_motion-inl.h 178-192. `aa` is what Eigen's `AngleAxis<S>(tf2.linear() * tf1.linear().transpose())`
gives: angle and axis. `ref` is `reference_p`, which the constructors without a point `O` leave uninitialised. -/
noncomputable def Interp.make (tf1 tf2 : Pose ℝ) (ref : V3 ℝ) (aa : ℝ × V3 ℝ) : Interp :=
  { tf1 := tf1
    linVel := tf2.apply ref - tf1.apply ref
    angVel := if aa.1 < 0 then -aa.1 else aa.1
    axis := if aa.1 < 0 then -aa.2 else aa.2
    ref := ref }

/-- `InterpMotion(tf1, tf2, O)`, interp_motion-inl.h 115-121: `computeVelocity` is not called, the velocities keep what the memory
held. -/
def Interp.makeAt (tf1 : Pose ℝ) (o : V3 ℝ) (junkLin : V3 ℝ) (junkAng : ℝ) (junkAxis : V3 ℝ) : Interp :=
  ⟨tf1, junkLin, junkAng, junkAxis, o⟩

/-- `InterpMotion`: `integrate`, interp_motion-inl.h 124-133 with `deltaRotation` and `absoluteRotation` 195-207; the bounds,
tbv_motion_bound_visitor-inl.h 224-258 and triangle_motion_bound_visitor-inl.h 153-184. -/
noncomputable def interp (m : Interp) : Motion where
  init := ⟨m.tf1, 0⟩
  integrate dt :=
    let r := (M3.angleAxis (clip dt * m.angVel) m.axis).mul m.tf1.R
    ⟨⟨r, clip dt • m.linVel + m.tf1.apply m.ref - r.mulVec m.ref⟩, 0⟩
  bvBound s b n :=
    m.linVel.dot n + (m.axis.cross n).nrm * m.angVel *
      (b.r + projMax (fun c => (s.tf.R.mulVec (c - m.ref)).cross m.axis) (corners b))
  triBound s p q r n :=
    m.linVel.dot n + (m.axis.cross n).nrm * m.angVel *
      projMax (fun c => (s.tf.R.mulVec (c - m.ref)).cross m.axis) (p, [q, r])

/-- The members of `ScrewMotion`, screw_motion.h 88-108. -/
structure Screw where
  tf1 : Pose ℝ
  linVel : ℝ
  angVel : ℝ
  axis : V3 ℝ
  p : V3 ℝ

/-- `computeScrewParameter()`, screw_motion-inl.h 150-177, with `aa` as for `Interp.make`. -/
noncomputable def Screw.make (tf1 tf2 : Pose ℝ) (aa : ℝ × V3 ℝ) : Screw :=
  let angle := if aa.1 < 0 then -aa.1 else aa.1
  let axis := if aa.1 < 0 then -aa.2 else aa.2
  if angle < 1 / 10 ^ 10 then
    { tf1 := tf1, angVel := 0, axis := tf2.t - tf1.t, linVel := (tf2.t - tf1.t).nrm, p := tf1.t }
  else
    let o := tf2.t - tf1.t
    { tf1 := tf1, angVel := angle, axis := axis, linVel := o.dot axis
      p := (1 / 2 : ℝ) • (tf1.t + tf2.t + (1 / Real.tan (angle / 2)) • axis.cross o) }

/-- `ScrewMotion`: `integrate`, screw_motion-inl.h 87-98; the bounds, tbv_motion_bound_visitor-inl.h 180-213 and
triangle_motion_bound_visitor-inl.h 117-145. -/
noncomputable def screw (m : Screw) : Motion where
  init := ⟨m.tf1, 0⟩
  integrate dt :=
    let d := M3.angleAxis (clip dt * m.angVel) m.axis
    ⟨⟨d.mul m.tf1.R, m.p + (clip dt * m.linVel) • m.axis + d.mulVec (m.tf1.t - m.p)⟩, 0⟩
  bvBound s b n :=
    m.axis.dot n * m.linVel + (m.axis.cross n).nrm * m.angVel *
      (projMax (fun c => (s.tf.R.mulVec c).cross m.axis) (corners b) + b.r + ((s.tf.t - m.p).cross m.axis).nrm)
  triBound s p q r n :=
    m.axis.dot n * m.linVel + (m.axis.cross n).nrm * m.angVel *
      projMax (fun c => (s.tf.R.mulVec c + s.tf.t - m.p).cross m.axis) (p, [q, r])

/-- The control points of `SplineMotion`, spline_motion-inl.h 55-90. -/
structure Spline where
  t0 : V3 ℝ
  t1 : V3 ℝ
  t2 : V3 ℝ
  t3 : V3 ℝ
  r0 : V3 ℝ
  r1 : V3 ℝ
  r2 : V3 ℝ
  r3 : V3 ℝ

namespace Spline

/-- The weights `getWeight0` to `getWeight3`, spline_motion-inl.h 377-403, applied to four points. -/
noncomputable def blend (t : ℝ) (a b c d : V3 ℝ) : V3 ℝ :=
  ((1 - 3 * t + 3 * t * t - t * t * t) / 6) • a + ((4 - 6 * t * t + 3 * t * t * t) / 6) • b +
    ((1 + 3 * t + 3 * t * t - 3 * t * t * t) / 6) • c + (t * t * t / 6) • d

/-- `integrate`, spline_motion-inl.h 121-138. -/
noncomputable def integrate (m : Spline) (dt : ℝ) : MotionState :=
  let t := clip dt
  let w := blend t m.r0 m.r1 m.r2 m.r3
  ⟨⟨M3.angleAxis w.nrm (if w.nrm > 0 then (1 / w.nrm) • w else w), blend t m.t0 m.t1 m.t2 m.t3⟩, t⟩

/-- `computeTBound(n)`, spline_motion-inl.h 250-296, at the time `tf_t`. -/
noncomputable def tBound (m : Spline) (time : ℝ) (n : V3 ℝ) : ℝ :=
  let ta := ((3 : ℝ) • m.t1 - (3 : ℝ) • m.t2 + m.t3 - m.t0).dot n
  let tb := ((3 : ℝ) • (m.t0 - (2 : ℝ) • m.t1 + m.t2)).dot n
  let tc := ((3 : ℝ) • (m.t2 - m.t0)).dot n
  let inside := fun (t : ℝ) => if t < 1 ∧ t > time then [t] else []
  let more : List ℝ :=
    if tb * tb - 3 * ta * tc ≥ 0 then
      if ta = 0 then if tb ≠ 0 then inside (-tc / (2 * tb)) else []
      else inside ((-tb + Real.sqrt (tb * tb - 3 * ta * tc)) / (3 * ta)) ++ inside ((-tb - Real.sqrt (tb * tb - 3 * ta * tc)) / (3 * ta))
    else []
  let f := fun (t : ℝ) => ta * t * t * t + tb * t * t + tc * t
  (largest (f time) ((1 :: more).map f) - f time) / 6

/-- `computeDWMax()`, spline_motion-inl.h 300-367, at the time `tf_t`. As in the code: the value at `tf_t` has one power of the
time too few, and `solveCubic`, which takes the constant coefficient first, gets the leading one first. `eps` as in `PolySolver`. -/
noncomputable def dwMax (m : Spline) (eps time : ℝ) : ℝ :=
  let comb := fun (k00 k01 k02 k03 k11 k12 k13 k22 k23 k33 : ℝ) =>
    (m.r0.dot m.r0 * k00 + m.r0.dot m.r1 * k01 + m.r0.dot m.r2 * k02 + m.r0.dot m.r3 * k03
      + m.r0.dot m.r1 * k01 + m.r1.dot m.r1 * k11 + m.r1.dot m.r2 * k12 + m.r1.dot m.r3 * k13
      + m.r0.dot m.r2 * k02 + m.r1.dot m.r2 * k12 + m.r2.dot m.r2 * k22 + m.r2.dot m.r3 * k23
      + m.r0.dot m.r3 * k03 + m.r1.dot m.r3 * k13 + m.r2.dot m.r3 * k23 + m.r3.dot m.r3 * k33) / 4
  let a0 := comb 1 (-3) 3 (-1) 9 (-9) 3 9 (-3) 1
  let a1 := comb (-4) 10 (-8) 2 (-24) 18 (-4) (-12) 2 0
  let a2 := comb 6 (-11) 6 (-1) 16 (-5) 0 (-2) 1 0
  let a3 := comb (-4) 4 0 0 0 (-4) 0 4 0 0
  let a4 := comb 1 0 (-1) 0 0 0 0 1 0 0
  let d0 := comb 4 (-12) 12 (-4) 36 (-36) 12 36 (-12) 4
  let d1 := comb (-12) 30 (-24) 6 (-72) 54 (-12) (-36) 6 0
  let d2 := comb 12 (-22) 12 (-2) 32 (-10) 0 (-4) 2 0
  let d3 := comb (-4) 4 0 0 0 (-4) 0 4 0 0
  let roots := PolySolver.solveCubic eps d0 d1 d2 d3
  let first := a0 * time * time * time + a1 * time * time * time + a2 * time * time + a3 * time + a4
  Real.sqrt (largest first ((a0 + a1 + a2 + a3 + a4) ::
    (roots.filter fun v => time ≤ v ∧ v ≤ 1).map fun v => a0 * v * v * v * v + a1 * v * v * v + a2 * v * v + a3 * v + a4))

end Spline

/-- `SplineMotion`; the bounds, tbv_motion_bound_visitor-inl.h 113-166 and triangle_motion_bound_visitor-inl.h 187-214. -/
noncomputable def spline (eps : ℝ) (m : Spline) : Motion where
  init := m.integrate 0
  integrate := m.integrate
  bvBound s b n :=
    let c := corners b
    let cn := largest |c.1.dot n| (c.2.map fun x => |x.dot n|)
    2 * (cn + projMax id c + projMax (fun x => x.cross n) c + 3 * b.r) * min (1 - s.time) (m.dwMax eps s.time) + m.tBound s.time n
  triBound s p q r n :=
    let f := fun (x : V3 ℝ) => |x.dot n| + x.nrm + (x.cross n).nrm
    largest (f p) [f q, f r] * (2 * min (1 - s.time) (m.dwMax eps s.time)) + m.tBound s.time n

end Motion
end Fcl
