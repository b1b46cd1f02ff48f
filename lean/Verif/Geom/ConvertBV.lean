import Verif.KIOS.Model
import Verif.Geom.Shapes

/-!
# Conversions between volumes, and boxes made from volumes

`convertBV`, `math/bv/utility-inl.h` 676-985, and `constructBox`, `geometry/shape/utility-inl.h` 1064-1211.
-/

namespace Fcl
namespace ConvertBV

/-- `ConvertBVImpl<S, AABB<S>, AABB<S>>`, 699-712. -/
noncomputable def aabbAABB (b : AABB ℝ) (X : Pose ℝ) : AABB ℝ :=
  let r := (b.hi - b.lo).nrm * (1 / 2)
  let c := X.apply b.center
  ⟨c - ⟨r, r, r⟩, c + ⟨r, r, r⟩⟩

/-- `ConvertBVImpl<S, AABB<S>, OBB<S>>`, 716-758. -/
noncomputable def aabbOBB (b : AABB ℝ) (X : Pose ℝ) : OBB ℝ := ⟨X.R, X.apply b.center, (1 / 2 : ℝ) • (b.hi - b.lo)⟩

/-- `ConvertBVImpl<S, OBB<S>, OBB<S>>`, 762-772. -/
noncomputable def obbOBB (b : OBB ℝ) (X : Pose ℝ) : OBB ℝ := ⟨X.R.mul b.axis, X.apply b.To, b.extent⟩

/-- `ConvertBVImpl<S, OBBRSS<S>, OBB<S>>`, 776-784. -/
noncomputable def obbrssOBB (b : OBBRSS ℝ) (X : Pose ℝ) : OBB ℝ := obbOBB b.obb X

/-- `ConvertBVImpl<S, RSS<S>, OBB<S>>`, 788-798. -/
noncomputable def rssOBB (b : RSS ℝ) (X : Pose ℝ) : OBB ℝ :=
  ⟨X.R.mul b.axis, X.apply b.center, ⟨b.l0 * (1 / 2) + b.r, b.l1 * (1 / 2) + b.r, b.r⟩⟩

/-- `ConvertBVImpl<S, BV1, AABB<S>>`, 802-815, from `center`, `width`, `height` and `depth` of the volume. -/
noncomputable def toAABB (center : V3 ℝ) (width height depth : ℝ) (X : Pose ℝ) : AABB ℝ :=
  let r := (⟨width, height, depth⟩ : V3 ℝ).nrm * (1 / 2)
  let c := X.apply center
  ⟨c - ⟨r, r, r⟩, c + ⟨r, r, r⟩⟩

/-- For an OBB. -/
noncomputable def obbAABB (b : OBB ℝ) (X : Pose ℝ) : AABB ℝ := toAABB b.To b.width b.height b.depth X
/-- For an OBBRSS, whose four functions are those of its OBB, OBBRSS-inl.h 103-142. -/
noncomputable def obbrssAABB (b : OBBRSS ℝ) (X : Pose ℝ) : AABB ℝ := toAABB b.obb.To b.obb.width b.obb.height b.obb.depth X
/-- For an RSS: `width`, `height` and `depth` are RSS-inl.h 377-396. -/
noncomputable def rssAABB (b : RSS ℝ) (X : Pose ℝ) : AABB ℝ := toAABB b.center (b.l0 + 2 * b.r) (b.l1 + 2 * b.r) (2 * b.r) X
/-- For a k-DOP. -/
noncomputable def kdopAABB {n : KDopN} (b : KDOP n ℝ) (X : Pose ℝ) : AABB ℝ := toAABB b.center b.width b.height b.depth X
/-- For a kIOS: the centre is that of the first sphere, the sizes are those of the box, kIOS-inl.h 165-190. -/
noncomputable def kiosAABB (b : KIOS ℝ) (X : Pose ℝ) : Option (AABB ℝ) :=
  b.center.map fun c => toAABB c b.obb.width b.obb.height b.obb.depth X

/-- `ConvertBVImpl<S, BV1, OBB<S>>`, 819-829, for a k-DOP. -/
noncomputable def kdopOBB {n : KDopN} (b : KDOP n ℝ) (X : Pose ℝ) : OBB ℝ := aabbOBB (kdopAABB b Pose.id) X
/-- The same for a kIOS. -/
noncomputable def kiosOBB (b : KIOS ℝ) (X : Pose ℝ) : Option (OBB ℝ) := (kiosAABB b Pose.id).map fun a => aabbOBB a X

/-- `ConvertBVImpl<S, OBB<S>, RSS<S>>`, 833-858. -/
noncomputable def obbRSS (b : OBB ℝ) (X : Pose ℝ) : RSS ℝ :=
  (⟨X.R.mul b.axis, 0, 2 * b.extent.x, 2 * b.extent.y, b.extent.z⟩ : RSS ℝ).setToFromCenter (X.apply b.To)

/-- `ConvertBVImpl<S, RSS<S>, RSS<S>>`, 862-875. -/
noncomputable def rssRSS (b : RSS ℝ) (X : Pose ℝ) : RSS ℝ := ⟨X.R.mul b.axis, X.apply b.To, b.l0, b.l1, b.r⟩

/-- `ConvertBVImpl<S, OBBRSS<S>, RSS<S>>`, 879-887. -/
noncomputable def obbrssRSS (b : OBBRSS ℝ) (X : Pose ℝ) : RSS ℝ := rssRSS b.rss X

/-- Three sides with their indices. -/
abbrev Sides := (ℝ × Fin 3) × (ℝ × Fin 3) × (ℝ × Fin 3)
/-- The body of the loops 901-919 with `j = 1`. -/
noncomputable def swap1 (s : Sides) : Sides := if s.2.1.1 > s.1.1 then (s.2.1, s.1, s.2.2) else s
/-- The same with `j = 2`. -/
noncomputable def swap2 (s : Sides) : Sides := if s.2.2.1 > s.2.1.1 then (s.1, s.2.2, s.2.1) else s

/-- `ConvertBVImpl<S, AABB<S>, RSS<S>>`, 891-939. -/
noncomputable def aabbRSS (b : AABB ℝ) (X : Pose ℝ) : RSS ℝ :=
  let s := swap1 (swap2 (swap1 ((b.width, 0), (b.height, 1), (b.depth, 2))))
  let i := s.1.2
  let j := s.2.1.2
  let k := s.2.2.2
  let extent := (1 / 2 : ℝ) • (b.hi - b.lo)
  let c0 := if i = j + 1 then -(X.R.col i) else X.R.col i
  (⟨OBB.ofCols c0 (X.R.col j) (X.R.col k), 0, extent.get i * 2, extent.get j * 2, extent.get k⟩ : RSS ℝ).setToFromCenter (X.apply b.center)

end ConvertBV

namespace ConstructBox

/-- `constructBox(AABB, box, tf)`, shape/utility-inl.h 1065-1070: the sides and the pose of the box. -/
noncomputable def aabb (b : AABB ℝ) : V3 ℝ × Pose ℝ := (b.hi - b.lo, ⟨M3.one, b.center⟩)
/-- `constructBox(OBB, box, tf)`, 1074-1079. -/
noncomputable def obb (b : OBB ℝ) : V3 ℝ × Pose ℝ := ((2 : ℝ) • b.extent, ⟨b.axis, b.To⟩)
/-- `constructBox(OBBRSS, box, tf)`, 1083-1088. -/
noncomputable def obbrss (b : OBBRSS ℝ) : V3 ℝ × Pose ℝ := obb b.obb
/-- `constructBox(kIOS, box, tf)`, 1092-1097. -/
noncomputable def kios (b : KIOS ℝ) : V3 ℝ × Pose ℝ := obb b.obb
/-- `constructBox(RSS, box, tf)`, 1101-1106. -/
noncomputable def rss (b : RSS ℝ) : V3 ℝ × Pose ℝ := (⟨b.l0 + 2 * b.r, b.l1 + 2 * b.r, 2 * b.r⟩, ⟨b.axis, b.To⟩)
/-- `constructBox(KDOP, box, tf)`, 1110-1133. -/
noncomputable def kdop {n : KDopN} (b : KDOP n ℝ) : V3 ℝ × Pose ℝ := (⟨b.width, b.height, b.depth⟩, ⟨M3.one, b.center⟩)

/-- `constructBox(AABB, tf_bv, box, tf)`, 1137-1141. -/
noncomputable def aabbAt (b : AABB ℝ) (X : Pose ℝ) : V3 ℝ × Pose ℝ := (b.hi - b.lo, X.mul ⟨M3.one, b.center⟩)
/-- `constructBox(OBB, tf_bv, box, tf)`, 1145-1152: `tf_bv` is not used. -/
noncomputable def obbAt (b : OBB ℝ) (_ : Pose ℝ) : V3 ℝ × Pose ℝ := ((2 : ℝ) • b.extent, ⟨b.axis, b.To⟩)
/-- `constructBox(OBBRSS, tf_bv, box, tf)`, 1156-1162. -/
noncomputable def obbrssAt (b : OBBRSS ℝ) (X : Pose ℝ) : V3 ℝ × Pose ℝ := ((2 : ℝ) • b.obb.extent, X.mul ⟨b.obb.axis, b.obb.To⟩)
/-- `constructBox(kIOS, tf_bv, box, tf)`, 1166-1173: `tf_bv` is not used. -/
noncomputable def kiosAt (b : KIOS ℝ) (_ : Pose ℝ) : V3 ℝ × Pose ℝ := ((2 : ℝ) • b.obb.extent, ⟨b.obb.axis, b.obb.To⟩)
/-- `constructBox(RSS, tf_bv, box, tf)`, 1177-1183. -/
noncomputable def rssAt (b : RSS ℝ) (X : Pose ℝ) : V3 ℝ × Pose ℝ := (⟨b.l0 + 2 * b.r, b.l1 + 2 * b.r, 2 * b.r⟩, X.mul ⟨b.axis, b.To⟩)
/-- `constructBox(KDOP, tf_bv, box, tf)`, 1187-1208. -/
noncomputable def kdopAt {n : KDopN} (b : KDOP n ℝ) (X : Pose ℝ) : V3 ℝ × Pose ℝ := (⟨b.width, b.height, b.depth⟩, X.mul ⟨M3.one, b.center⟩)

end ConstructBox
end Fcl
