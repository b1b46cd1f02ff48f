import Verif.BVH.MeshDist
import Verif.BVH.Oriented
import Verif.KIOS.Model

/-!
# Meshes with any of the oriented bounding volumes

The functions of `BVH/Oriented.lean` for the other volumes, with the fitters of `geometry/bvh/detail/BV_fitter-inl.h`.
-/

namespace Fcl

/-- What the construction and the queries use of an oriented volume: `BVFitter::fit` on the vertices of some primitives
(`none`: `eigen_old` leaves its outputs unset), `overlap(R, T, b1, b2)` and `distance(R, T, b1, b2)`. -/
structure OVol (V : Type*) where
  fit : List (V3 ℝ) → Option V
  overlapAt : Pose ℝ → V → V → Bool
  distAt : Pose ℝ → V → V → ℝ

namespace OVol

/-- `FitImpl<S, OBB<S>>::run`, BV_fitter-inl.h 301-321, and `overlap`, OBB-inl.h 301-315; there is no distance for OBBs. -/
noncomputable def obb (big : ℝ) (eig : OBB.EigenFn ℝ) : OVol (OBB ℝ) where
  fit := OBB.fitn big eig
  overlapAt X := OBB.overlapAt X.R X.t
  distAt _ _ _ := 0

/-- `FitImpl<S, RSS<S>>::run`, BV_fitter-inl.h 331-356, `overlap` and `distance` of RSS-inl.h. `eps` is the tolerance of
`inVoronoi`. -/
noncomputable def rss (eps : ℝ) (eig : OBB.EigenFn ℝ) : OVol (RSS ℝ) where
  fit
    | [] => none
    | p :: ps => RSS.fitn eig p ps
  overlapAt X := RSS.overlapAt eps X.R X.t
  distAt X := RSS.distanceAt eps X.R X.t

/-- `FitImpl<S, OBBRSS<S>>::run`, BV_fitter-inl.h 449-480, `overlap` and `distance` of OBBRSS-inl.h. -/
noncomputable def obbrss (big eps : ℝ) (eig : OBB.EigenFn ℝ) : OVol (OBBRSS ℝ) where
  fit
    | [] => none
    | p :: ps => OBBRSS.fitn big eig p ps
  overlapAt X := OBBRSS.overlapAt X.R X.t
  distAt X := OBBRSS.distanceAt eps X.R X.t

/-- `FitImpl<S, kIOS<S>>::run`, BV_fitter-inl.h 360-446, `overlap` and `distance` of kIOS-inl.h. -/
noncomputable def kios (big : ℝ) (eig : OBB.EigenFn ℝ) : OVol (KIOS ℝ) where
  fit := KIOS.fitn big eig
  overlapAt X := KIOS.overlapAt X.R X.t
  distAt X := KIOS.distanceAt X.R X.t

variable {V : Type*}

/-- `BVFitter::fit` on some primitives of a mesh. `junk`: what the uninitialised variables hold when `eigen_old` does not
write them. -/
noncomputable def fitPrims (vol : OVol V) (junk : V) (g : Geom ℝ) (l : List ℕ) : V := (vol.fit (l.flatMap g.primVerts)).getD junk

/-- The fitter together with a splitter. -/
noncomputable def builder (vol : OVol V) (junk : V) (g : Geom ℝ) (right : V → List ℕ → ℕ → Bool) : Builder V :=
  ⟨vol.fitPrims junk g, right⟩

/-- `orientedMeshCollide`, collision_func_matrix-inl.h 570-590, for any of the volumes (see `Fcl.orientedMeshCollide`):
`BVHCollideImpl` uses it for OBB, OBBRSS and kIOS, 592-645; the nodes for OBBRSS and kIOS are those of
mesh_collision_traversal_node-inl.h 437-524, whose leaf test and `BVTesting` are the ones for OBB. -/
noncomputable def meshCollide (vol : OVol V) (larger : V → V → Bool) (fuel : ℕ) (g1 : Geom ℝ) (t1 : BT V ℕ) (tf1 : Pose ℝ)
    (g2 : Geom ℝ) (t2 : BT V ℕ) (tf2 : Pose ℝ) (M : MeshPair ℝ) (q : MeshRequest) (r : CollResult (ℕ × ℕ) ℝ) : MeshOutcome ℝ :=
  if q.req.isSatisfied r then .result r
  else if !g1.isMesh || !g2.isMesh then .undefinedBehaviour
  else
    match collisionRecurse (orientedNode (vol.overlapAt (tf1.relative tf2)) M q) (Trav.bvh larger) fuel t1 t2 (r, none) with
    | some (r, _) => .result r
    | none => .outOfFuel

end OVol

/-- `BVHCollideImpl::run`, collision_func_matrix-inl.h 524-552, as it is used for RSS (and AABB, KDOP): the meshes are
copied, the vertices moved and the hierarchies built anew, mesh_collision_traversal_node-inl.h 208-268. `g1` and `g2` are
the moved meshes, `t1` and `t2` their hierarchies. -/
noncomputable def rebuiltCollide {V : Type*} (overlap : V → V → Bool) (larger : V → V → Bool) (fuel : ℕ) (g1 : Geom ℝ) (t1 : BT V ℕ)
    (g2 : Geom ℝ) (t2 : BT V ℕ) (M : MeshPair ℝ) (q : MeshRequest) (r : CollResult (ℕ × ℕ) ℝ) : MeshOutcome ℝ :=
  if q.req.isSatisfied r then .result r
  else if !g1.isMesh || !g2.isMesh then .undefinedBehaviour
  else
    match collisionRecurse (meshNode overlap M q) (Trav.bvh larger) fuel t1 t2 (r, none) with
    | some (r, _) => .result r
    | none => .outOfFuel

end Fcl
