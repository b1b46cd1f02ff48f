import Verif.Props.AABB
import Verif.Props.DynTree
import Verif.Props.Naive
import Verif.Props.SSaP
import Verif.Props.TreeUpdate
import Verif.Props.IntervalTree
import Verif.Props.Results
import Verif.Props.Callbacks
import Verif.Props.Morton
import Verif.Props.Hash
import Verif.Props.SpatialHash
import Verif.Props.Interval
import Verif.Props.Taylor
import Verif.Props.TaylorTight
import Verif.Props.TaylorTrig
import Verif.Props.KDOP
import Verif.Props.Traversal
import Verif.Props.TraversalDist
import Verif.Props.BVH
import Verif.Props.BVHProtocol
import Verif.Props.ShapeBV
import Verif.Props.SphereQueries
import Verif.Props.CapsuleQueries
import Verif.Props.OBB
import Verif.Props.OrientedMesh
import Verif.Props.SaP
import Verif.Props.SaPDist
import Verif.Props.IntervalMgr
import Verif.Props.IntervalMgrDist
import Verif.Props.Support
import Verif.Props.Octree
import Verif.Props.PolySolver
import Verif.Props.Convex
import Verif.Props.Dispatch
import Verif.Props.Halfspace
import Verif.Props.Plane
import Verif.Props.Flats
import Verif.Props.Project
import Verif.Props.Gjk
import Verif.Props.CcdGjk
import Verif.Props.TriTest
import Verif.Motion.TriCcd
import Verif.Motion.TriCcdNewton
import Verif.Motion.TriCcdContact
import Verif.Motion.TriCcdMove
import Verif.Motion.TriCcdLeaf
import Verif.Props.TriCcd
import Verif.Props.TriCcdEx
import Verif.Props.TriDist
import Verif.Props.MeshDist
import Verif.Props.RSS
import Verif.Props.RSSFit
import Verif.Props.KIOS
import Verif.Props.Volumes
import Verif.Props.ShapeVolumes
import Verif.Props.ConvertBV
import Verif.Props.OctreeSolver
import Verif.Geom.SphereTriangle
import Verif.Geom.SphereTriangleLemmas
import Verif.Props.SphereTriangle
import Verif.BVH.MeshShapeSpec
import Verif.Props.MeshShape
import Verif.BVH.MeshShapeDist
import Verif.BVH.MeshShapeDistSpec
import Verif.Props.MeshShapeDist
import Verif.Motion.Model
import Verif.Motion.Spec
import Verif.Motion.Lemmas
import Verif.Motion.Continuous
import Verif.Motion.ContinuousSpec
import Verif.Props.Continuous
import Verif.Props.Motion
import Verif.Geom.Zonotope
import Verif.Narrow.BoxBox
import Verif.Narrow.BoxBoxSpec
import Verif.Narrow.BoxBoxLemmas
import Verif.Props.BoxBox
import Verif.Narrow.ChopLemmas
import Verif.Narrow.FaceLemmas
import Verif.Props.BoxBoxContacts
import Verif.Props.OBBNear
import Verif.Props.TreeOctree
import Verif.Props.ShapeMesh
import Verif.Props.Rand
import Verif.Props.TreeArray
import Verif.Props.Mass
import Verif.Props.MeshMass
import Verif.Epa.Model
import Verif.Epa.Spec
import Verif.Epa.Lists
import Verif.Epa.Expand
import Verif.Epa.Loop
import Verif.Epa.Evaluate
import Verif.Props.Epa
import Verif.Props.EpaTetra
import Verif.Props.MeshShapeAdvance
import Verif.Motion.SweptBox
import Verif.Props.SweptBox
import Verif.Ccd.Polytope
import Verif.Ccd.PolytopeSpec
import Verif.Ccd.PolytopePatch
import Verif.Ccd.PolytopeExpand
import Verif.Ccd.PolytopeBorder
import Verif.Ccd.PolytopeConvex
import Verif.Ccd.PolytopeFace
import Verif.Ccd.PolytopeNormal
import Verif.Ccd.PolytopeHull
import Verif.Ccd.PolytopeVisible
import Verif.Props.Polytope
import Verif.Props.PolytopeEx
import Verif.Ccd.PolytopeBall
import Verif.Ccd.PolytopeFacets
import Verif.Ccd.Epa
import Verif.Ccd.EpaLemmas
import Verif.Ccd.EpaLoop
import Verif.Ccd.EpaTetra
import Verif.Props.PolytopeDepth
import Verif.Props.PolytopeDepthEx
import Verif.Props.PolytopeFlat
import Verif.Ccd.Signed
import Verif.Props.SignedDistance
import Verif.Props.SignedDistanceEx
import Verif.Ccd.EpaTwo
import Verif.Props.SignedTouch
import Verif.Props.Expand
import Verif.Props.ExpandRss
