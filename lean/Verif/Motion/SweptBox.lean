import Verif.Motion.Model
import Verif.Taylor.Model
import Verif.AABB.Spec

/-!
# Model of the box of a moving object (include/fcl/narrowphase/continuous_collision_object-inl.h) and of the Taylor models of the
motions (`getTaylorModel` in include/fcl/math/motion)
-/

namespace Fcl.Motion

/-- `hat(mat, vec)`, math/geometry-inl.h 453-456. -/
def hat (v : V3 ℝ) : M3 ℝ := ⟨⟨0, -v.z, v.y⟩, ⟨v.z, 0, -v.x⟩, ⟨-v.y, v.x, 0⟩⟩

/-- The time interval of every motion, motion_base-inl.h 52-56. -/
noncomputable def unitTime : TimeIv ℝ := TimeIv.of 0 1

/-- `delta_R` of interp_motion-inl.h 165-175 and screw_motion-inl.h 134-145. -/
noncomputable def deltaR (w : ℝ) (axis : V3 ℝ) : TMat ℝ :=
  let cosM := TM.empty.genCos unitTime w 0
  let sinM := TM.empty.genSin unitTime w 0
  ((TMat.ofScalar (hat axis) sinM).sub (TMat.ofScalar ((hat axis).mul (hat axis)) (cosM.subS 1))).addM M3.one

/-- `InterpMotion::getTaylorModel`, interp_motion-inl.h 162-187. -/
noncomputable def Interp.taylor (m : Interp) : TMat ℝ × TVec ℝ :=
  let d := deltaR m.angVel m.axis
  let dT : TVec ℝ := ⟨.linear 0 m.linVel.x, .linear 0 m.linVel.y, .linear 0 m.linVel.z⟩
  (d.mulMat m.tf1.R, (dT.addV (m.tf1.apply m.ref)).sub (d.mulVec (m.tf1.R.mulVec m.ref)))

/-- `ScrewMotion::getTaylorModel`, screw_motion-inl.h 131-155. -/
noncomputable def Screw.taylor (m : Screw) : TMat ℝ × TVec ℝ :=
  let d := deltaR m.angVel m.axis
  let dT := (TVec.rsubV m.p (d.mulVec m.p)).add
    ⟨.linear 0 (m.linVel * m.axis.x), .linear 0 (m.linVel * m.axis.y), .linear 0 (m.linVel * m.axis.z)⟩
  (d.mulMat m.tf1.R, (d.mulVec m.tf1.t).add dT)

/-- The translation part of `SplineMotion::getTaylorModel`, spline_motion-inl.h 165-178. -/
noncomputable def Spline.taylorT (m : Spline) : TVec ℝ :=
  let c0 := (1 / 6 : ℝ) • (m.t0 + (4 : ℝ) • m.t1 + m.t2 + m.t3)
  let c1 := (1 / 2 : ℝ) • (-m.t0 + m.t2)
  let c2 := (1 / 2 : ℝ) • (m.t0 - (2 : ℝ) • m.t1 + m.t2)
  let c3 := (1 / 6 : ℝ) • (-m.t0 + (3 : ℝ) • m.t1 - (3 : ℝ) • m.t2 + m.t3)
  ⟨⟨c0.x, c1.x, c2.x, c3.x, ⟨0, 0⟩⟩, ⟨c0.y, c1.y, c2.y, c3.y, ⟨0, 0⟩⟩, ⟨c0.z, c1.z, c2.z, c3.z, ⟨0, 0⟩⟩⟩

/-- What `getTaylorModel` writes: the models of rotation and translation, or `none` if it writes nothing, as in `TranslationMotion`,
translation_motion-inl.h 115-123. -/
abbrev TaylorOut := Option (TMat ℝ × TVec ℝ)

/-- `TranslationMotion::getTaylorModel`. -/
def translationTaylor : TaylorOut := none

/-- The corners in the order of continuous_collision_object-inl.h 106-131, without the first. -/
def otherCorners (b : AABB ℝ) : List (V3 ℝ) :=
  [⟨b.lo.x, b.lo.y, b.hi.z⟩, ⟨b.lo.x, b.hi.y, b.lo.z⟩, ⟨b.lo.x, b.hi.y, b.hi.z⟩, ⟨b.hi.x, b.lo.y, b.lo.z⟩, ⟨b.hi.x, b.lo.y, b.hi.z⟩,
    ⟨b.hi.x, b.hi.y, b.lo.z⟩, ⟨b.hi.x, b.hi.y, b.hi.z⟩]

/-- `ContinuousCollisionObject::computeAABB`, continuous_collision_object-inl.h 98-136, for an object with the local box `b`. `none`: if
`getTaylorModel` has written nothing, the models have no time interval, and `getTightBound` (taylor_model-inl.h 448-452) reads through a null
pointer. -/
noncomputable def sweptBox (o : TaylorOut) (b : AABB ℝ) : Option (AABB ℝ) :=
  o.map fun (R, T) =>
    let at_ := fun (p : V3 ℝ) => ((R.mulVec p).add T).tight unitTime
    let box := (otherCorners b).foldl (fun box p => box.bound (at_ p)) (at_ b.lo)
    ⟨box.low, box.high⟩

end Fcl.Motion
