import Mathlib.Data.Nat.Notation

/-!
# The tables of collision and distance functions

Generated from the assignments in the constructors of `CollisionFunctionMatrix`
(`include/fcl/narrowphase/detail/collision_func_matrix-inl.h:663-893`) and `DistanceFunctionMatrix`
(`distance_func_matrix-inl.h:476-706`), in order, with octomap support.
-/

namespace Fcl
namespace Dispatch

/-- `NODE_TYPE`, `collision_geometry.h:53-54`. -/
inductive Node
  | unknown | aabb | obb | rss | kios | obbrss | kdop16 | kdop18 | kdop24 | box | sphere | ellipsoid | capsule | cone | cylinder | convex | plane | halfspace | triangle | octree
  deriving DecidableEq, Repr

/-- The function templates (`ShapeShapeCollide`, `BVHShapeCollider::collide`, `BVHCollide`, `OcTreeShapeCollide`,
`ShapeOcTreeCollide`, `OcTreeCollide`, `OcTreeBVHCollide`, `BVHOcTreeCollide`, and those for distances)
with their geometry arguments. -/
inductive Routine
  | shapeShape (s1 s2 : Node) | bvhShape (bv s : Node) | bvh (bv : Node) | octreeShape (s : Node)
  | shapeOctree (s : Node) | octree | octreeBvh (bv : Node) | bvhOctree (bv : Node)
  deriving DecidableEq, Repr

/-- The assignments `collision_matrix[i][j] = &f`. -/
def collisionEntries : List (Node × Node × Routine) := [
  (.box, .box, .shapeShape .box .box), (.box, .sphere, .shapeShape .box .sphere), (.box, .ellipsoid, .shapeShape .box .ellipsoid),
  (.box, .capsule, .shapeShape .box .capsule), (.box, .cone, .shapeShape .box .cone), (.box, .cylinder, .shapeShape .box .cylinder),
  (.box, .convex, .shapeShape .box .convex), (.box, .plane, .shapeShape .box .plane), (.box, .halfspace, .shapeShape .box .halfspace),
  (.sphere, .box, .shapeShape .sphere .box), (.sphere, .sphere, .shapeShape .sphere .sphere), (.sphere, .ellipsoid, .shapeShape .sphere .ellipsoid),
  (.sphere, .capsule, .shapeShape .sphere .capsule), (.sphere, .cone, .shapeShape .sphere .cone), (.sphere, .cylinder, .shapeShape .sphere .cylinder),
  (.sphere, .convex, .shapeShape .sphere .convex), (.sphere, .plane, .shapeShape .sphere .plane), (.sphere, .halfspace, .shapeShape .sphere .halfspace),
  (.ellipsoid, .box, .shapeShape .ellipsoid .box), (.ellipsoid, .sphere, .shapeShape .ellipsoid .sphere), (.ellipsoid, .ellipsoid, .shapeShape .ellipsoid .ellipsoid),
  (.ellipsoid, .capsule, .shapeShape .ellipsoid .capsule), (.ellipsoid, .cone, .shapeShape .ellipsoid .cone), (.ellipsoid, .cylinder, .shapeShape .ellipsoid .cylinder),
  (.ellipsoid, .convex, .shapeShape .ellipsoid .convex), (.ellipsoid, .plane, .shapeShape .ellipsoid .plane), (.ellipsoid, .halfspace, .shapeShape .ellipsoid .halfspace),
  (.capsule, .box, .shapeShape .capsule .box), (.capsule, .sphere, .shapeShape .capsule .sphere), (.capsule, .ellipsoid, .shapeShape .capsule .ellipsoid),
  (.capsule, .capsule, .shapeShape .capsule .capsule), (.capsule, .cone, .shapeShape .capsule .cone), (.capsule, .cylinder, .shapeShape .capsule .cylinder),
  (.capsule, .convex, .shapeShape .capsule .convex), (.capsule, .plane, .shapeShape .capsule .plane), (.capsule, .halfspace, .shapeShape .capsule .halfspace),
  (.cone, .box, .shapeShape .cone .box), (.cone, .sphere, .shapeShape .cone .sphere), (.cone, .ellipsoid, .shapeShape .cone .ellipsoid),
  (.cone, .capsule, .shapeShape .cone .capsule), (.cone, .cone, .shapeShape .cone .cone), (.cone, .cylinder, .shapeShape .cone .cylinder),
  (.cone, .convex, .shapeShape .cone .convex), (.cone, .plane, .shapeShape .cone .plane), (.cone, .halfspace, .shapeShape .cone .halfspace),
  (.cylinder, .box, .shapeShape .cylinder .box), (.cylinder, .sphere, .shapeShape .cylinder .sphere), (.cylinder, .ellipsoid, .shapeShape .cylinder .ellipsoid),
  (.cylinder, .capsule, .shapeShape .cylinder .capsule), (.cylinder, .cone, .shapeShape .cylinder .cone), (.cylinder, .cylinder, .shapeShape .cylinder .cylinder),
  (.cylinder, .convex, .shapeShape .cylinder .convex), (.cylinder, .plane, .shapeShape .cylinder .plane), (.cylinder, .halfspace, .shapeShape .cylinder .halfspace),
  (.convex, .box, .shapeShape .convex .box), (.convex, .sphere, .shapeShape .convex .sphere), (.convex, .ellipsoid, .shapeShape .convex .ellipsoid),
  (.convex, .capsule, .shapeShape .convex .capsule), (.convex, .cone, .shapeShape .convex .cone), (.convex, .cylinder, .shapeShape .convex .cylinder),
  (.convex, .convex, .shapeShape .convex .convex), (.convex, .plane, .shapeShape .convex .plane), (.convex, .halfspace, .shapeShape .convex .halfspace),
  (.plane, .box, .shapeShape .plane .box), (.plane, .sphere, .shapeShape .plane .sphere), (.plane, .ellipsoid, .shapeShape .plane .ellipsoid),
  (.plane, .capsule, .shapeShape .plane .capsule), (.plane, .cone, .shapeShape .plane .cone), (.plane, .cylinder, .shapeShape .plane .cylinder),
  (.plane, .convex, .shapeShape .plane .convex), (.plane, .plane, .shapeShape .plane .plane), (.plane, .halfspace, .shapeShape .plane .halfspace),
  (.halfspace, .box, .shapeShape .halfspace .box), (.halfspace, .sphere, .shapeShape .halfspace .sphere), (.halfspace, .ellipsoid, .shapeShape .halfspace .ellipsoid),
  (.halfspace, .capsule, .shapeShape .halfspace .capsule), (.halfspace, .cone, .shapeShape .halfspace .cone), (.halfspace, .cylinder, .shapeShape .halfspace .cylinder),
  (.halfspace, .convex, .shapeShape .halfspace .convex), (.halfspace, .plane, .shapeShape .halfspace .plane), (.halfspace, .halfspace, .shapeShape .halfspace .halfspace),
  (.aabb, .box, .bvhShape .aabb .box), (.aabb, .sphere, .bvhShape .aabb .sphere), (.aabb, .ellipsoid, .bvhShape .aabb .ellipsoid),
  (.aabb, .capsule, .bvhShape .aabb .capsule), (.aabb, .cone, .bvhShape .aabb .cone), (.aabb, .cylinder, .bvhShape .aabb .cylinder),
  (.aabb, .convex, .bvhShape .aabb .convex), (.aabb, .plane, .bvhShape .aabb .plane), (.aabb, .halfspace, .bvhShape .aabb .halfspace),
  (.obb, .box, .bvhShape .obb .box), (.obb, .sphere, .bvhShape .obb .sphere), (.obb, .ellipsoid, .bvhShape .obb .ellipsoid),
  (.obb, .capsule, .bvhShape .obb .capsule), (.obb, .cone, .bvhShape .obb .cone), (.obb, .cylinder, .bvhShape .obb .cylinder),
  (.obb, .convex, .bvhShape .obb .convex), (.obb, .plane, .bvhShape .obb .plane), (.obb, .halfspace, .bvhShape .obb .halfspace),
  (.rss, .box, .bvhShape .rss .box), (.rss, .sphere, .bvhShape .rss .sphere), (.rss, .ellipsoid, .bvhShape .rss .ellipsoid),
  (.rss, .capsule, .bvhShape .rss .capsule), (.rss, .cone, .bvhShape .rss .cone), (.rss, .cylinder, .bvhShape .rss .cylinder),
  (.rss, .convex, .bvhShape .rss .convex), (.rss, .plane, .bvhShape .rss .plane), (.rss, .halfspace, .bvhShape .rss .halfspace),
  (.kdop16, .box, .bvhShape .kdop16 .box), (.kdop16, .sphere, .bvhShape .kdop16 .sphere), (.kdop16, .ellipsoid, .bvhShape .kdop16 .ellipsoid),
  (.kdop16, .capsule, .bvhShape .kdop16 .capsule), (.kdop16, .cone, .bvhShape .kdop16 .cone), (.kdop16, .cylinder, .bvhShape .kdop16 .cylinder),
  (.kdop16, .convex, .bvhShape .kdop16 .convex), (.kdop16, .plane, .bvhShape .kdop16 .plane), (.kdop16, .halfspace, .bvhShape .kdop16 .halfspace),
  (.kdop18, .box, .bvhShape .kdop18 .box), (.kdop18, .sphere, .bvhShape .kdop18 .sphere), (.kdop18, .ellipsoid, .bvhShape .kdop18 .ellipsoid),
  (.kdop18, .capsule, .bvhShape .kdop18 .capsule), (.kdop18, .cone, .bvhShape .kdop18 .cone), (.kdop18, .cylinder, .bvhShape .kdop18 .cylinder),
  (.kdop18, .convex, .bvhShape .kdop18 .convex), (.kdop18, .plane, .bvhShape .kdop18 .plane), (.kdop18, .halfspace, .bvhShape .kdop18 .halfspace),
  (.kdop24, .box, .bvhShape .kdop24 .box), (.kdop24, .sphere, .bvhShape .kdop24 .sphere), (.kdop24, .ellipsoid, .bvhShape .kdop24 .ellipsoid),
  (.kdop24, .capsule, .bvhShape .kdop24 .capsule), (.kdop24, .cone, .bvhShape .kdop24 .cone), (.kdop24, .cylinder, .bvhShape .kdop24 .cylinder),
  (.kdop24, .convex, .bvhShape .kdop24 .convex), (.kdop24, .plane, .bvhShape .kdop24 .plane), (.kdop24, .halfspace, .bvhShape .kdop24 .halfspace),
  (.kios, .box, .bvhShape .kios .box), (.kios, .sphere, .bvhShape .kios .sphere), (.kios, .ellipsoid, .bvhShape .kios .ellipsoid),
  (.kios, .capsule, .bvhShape .kios .capsule), (.kios, .cone, .bvhShape .kios .cone), (.kios, .cylinder, .bvhShape .kios .cylinder),
  (.kios, .convex, .bvhShape .kios .convex), (.kios, .plane, .bvhShape .kios .plane), (.kios, .halfspace, .bvhShape .kios .halfspace),
  (.obbrss, .box, .bvhShape .obbrss .box), (.obbrss, .sphere, .bvhShape .obbrss .sphere), (.obbrss, .ellipsoid, .bvhShape .obbrss .ellipsoid),
  (.obbrss, .capsule, .bvhShape .obbrss .capsule), (.obbrss, .cone, .bvhShape .obbrss .cone), (.obbrss, .cylinder, .bvhShape .obbrss .cylinder),
  (.obbrss, .convex, .bvhShape .obbrss .convex), (.obbrss, .plane, .bvhShape .obbrss .plane), (.obbrss, .halfspace, .bvhShape .obbrss .halfspace),
  (.aabb, .aabb, .bvh .aabb), (.obb, .obb, .bvh .obb), (.rss, .rss, .bvh .rss),
  (.kdop16, .kdop16, .bvh .kdop16), (.kdop18, .kdop18, .bvh .kdop18), (.kdop24, .kdop24, .bvh .kdop24),
  (.kios, .kios, .bvh .kios), (.obbrss, .obbrss, .bvh .obbrss), (.octree, .box, .octreeShape .box),
  (.octree, .sphere, .octreeShape .sphere), (.octree, .ellipsoid, .octreeShape .ellipsoid), (.octree, .capsule, .octreeShape .capsule),
  (.octree, .cone, .octreeShape .cone), (.octree, .cylinder, .octreeShape .cylinder), (.octree, .convex, .octreeShape .convex),
  (.octree, .plane, .octreeShape .plane), (.octree, .halfspace, .octreeShape .halfspace), (.box, .octree, .shapeOctree .box),
  (.sphere, .octree, .shapeOctree .sphere), (.ellipsoid, .octree, .shapeOctree .ellipsoid), (.capsule, .octree, .shapeOctree .capsule),
  (.cone, .octree, .shapeOctree .cone), (.cylinder, .octree, .shapeOctree .cylinder), (.convex, .octree, .shapeOctree .convex),
  (.plane, .octree, .shapeOctree .plane), (.halfspace, .octree, .shapeOctree .halfspace), (.octree, .octree, .octree),
  (.octree, .aabb, .octreeBvh .aabb), (.octree, .obb, .octreeBvh .obb), (.octree, .rss, .octreeBvh .rss),
  (.octree, .obbrss, .octreeBvh .obbrss), (.octree, .kios, .octreeBvh .kios), (.octree, .kdop16, .octreeBvh .kdop16),
  (.octree, .kdop18, .octreeBvh .kdop18), (.octree, .kdop24, .octreeBvh .kdop24), (.aabb, .octree, .bvhOctree .aabb),
  (.obb, .octree, .bvhOctree .obb), (.rss, .octree, .bvhOctree .rss), (.obbrss, .octree, .bvhOctree .obbrss),
  (.kios, .octree, .bvhOctree .kios), (.kdop16, .octree, .bvhOctree .kdop16), (.kdop18, .octree, .bvhOctree .kdop18),
  (.kdop24, .octree, .bvhOctree .kdop24)]

/-- The assignments `distance_matrix[i][j] = &f`. -/
def distanceEntries : List (Node × Node × Routine) := [
  (.box, .box, .shapeShape .box .box), (.box, .sphere, .shapeShape .box .sphere), (.box, .ellipsoid, .shapeShape .box .ellipsoid),
  (.box, .capsule, .shapeShape .box .capsule), (.box, .cone, .shapeShape .box .cone), (.box, .cylinder, .shapeShape .box .cylinder),
  (.box, .convex, .shapeShape .box .convex), (.box, .plane, .shapeShape .box .plane), (.box, .halfspace, .shapeShape .box .halfspace),
  (.sphere, .box, .shapeShape .sphere .box), (.sphere, .sphere, .shapeShape .sphere .sphere), (.sphere, .ellipsoid, .shapeShape .sphere .ellipsoid),
  (.sphere, .capsule, .shapeShape .sphere .capsule), (.sphere, .cone, .shapeShape .sphere .cone), (.sphere, .cylinder, .shapeShape .sphere .cylinder),
  (.sphere, .convex, .shapeShape .sphere .convex), (.sphere, .plane, .shapeShape .sphere .plane), (.sphere, .halfspace, .shapeShape .sphere .halfspace),
  (.ellipsoid, .box, .shapeShape .ellipsoid .box), (.ellipsoid, .sphere, .shapeShape .ellipsoid .sphere), (.ellipsoid, .ellipsoid, .shapeShape .ellipsoid .ellipsoid),
  (.ellipsoid, .capsule, .shapeShape .ellipsoid .capsule), (.ellipsoid, .cone, .shapeShape .ellipsoid .cone), (.ellipsoid, .cylinder, .shapeShape .ellipsoid .cylinder),
  (.ellipsoid, .convex, .shapeShape .ellipsoid .convex), (.ellipsoid, .plane, .shapeShape .ellipsoid .plane), (.ellipsoid, .halfspace, .shapeShape .ellipsoid .halfspace),
  (.capsule, .box, .shapeShape .capsule .box), (.capsule, .sphere, .shapeShape .capsule .sphere), (.capsule, .ellipsoid, .shapeShape .capsule .ellipsoid),
  (.capsule, .capsule, .shapeShape .capsule .capsule), (.capsule, .cone, .shapeShape .capsule .cone), (.capsule, .cylinder, .shapeShape .capsule .cylinder),
  (.capsule, .convex, .shapeShape .capsule .convex), (.capsule, .plane, .shapeShape .capsule .plane), (.capsule, .halfspace, .shapeShape .capsule .halfspace),
  (.cone, .box, .shapeShape .cone .box), (.cone, .sphere, .shapeShape .cone .sphere), (.cone, .ellipsoid, .shapeShape .cone .ellipsoid),
  (.cone, .capsule, .shapeShape .cone .capsule), (.cone, .cone, .shapeShape .cone .cone), (.cone, .cylinder, .shapeShape .cone .cylinder),
  (.cone, .convex, .shapeShape .cone .convex), (.cone, .plane, .shapeShape .cone .plane), (.cone, .halfspace, .shapeShape .cone .halfspace),
  (.cylinder, .box, .shapeShape .cylinder .box), (.cylinder, .sphere, .shapeShape .cylinder .sphere), (.cylinder, .ellipsoid, .shapeShape .cylinder .ellipsoid),
  (.cylinder, .capsule, .shapeShape .cylinder .capsule), (.cylinder, .cone, .shapeShape .cylinder .cone), (.cylinder, .cylinder, .shapeShape .cylinder .cylinder),
  (.cylinder, .convex, .shapeShape .cylinder .convex), (.cylinder, .plane, .shapeShape .cylinder .plane), (.cylinder, .halfspace, .shapeShape .cylinder .halfspace),
  (.convex, .box, .shapeShape .convex .box), (.convex, .sphere, .shapeShape .convex .sphere), (.convex, .ellipsoid, .shapeShape .convex .ellipsoid),
  (.convex, .capsule, .shapeShape .convex .capsule), (.convex, .cone, .shapeShape .convex .cone), (.convex, .cylinder, .shapeShape .convex .cylinder),
  (.convex, .convex, .shapeShape .convex .convex), (.convex, .plane, .shapeShape .convex .plane), (.convex, .halfspace, .shapeShape .convex .halfspace),
  (.plane, .box, .shapeShape .plane .box), (.plane, .sphere, .shapeShape .plane .sphere), (.plane, .ellipsoid, .shapeShape .plane .ellipsoid),
  (.plane, .capsule, .shapeShape .plane .capsule), (.plane, .cone, .shapeShape .plane .cone), (.plane, .cylinder, .shapeShape .plane .cylinder),
  (.plane, .convex, .shapeShape .plane .convex), (.plane, .plane, .shapeShape .plane .plane), (.plane, .halfspace, .shapeShape .plane .halfspace),
  (.halfspace, .box, .shapeShape .halfspace .box), (.halfspace, .sphere, .shapeShape .halfspace .sphere), (.halfspace, .capsule, .shapeShape .halfspace .capsule),
  (.halfspace, .cone, .shapeShape .halfspace .cone), (.halfspace, .cylinder, .shapeShape .halfspace .cylinder), (.halfspace, .convex, .shapeShape .halfspace .convex),
  (.halfspace, .plane, .shapeShape .halfspace .plane), (.halfspace, .halfspace, .shapeShape .halfspace .halfspace), (.aabb, .box, .bvhShape .aabb .box),
  (.aabb, .sphere, .bvhShape .aabb .sphere), (.aabb, .ellipsoid, .bvhShape .aabb .ellipsoid), (.aabb, .capsule, .bvhShape .aabb .capsule),
  (.aabb, .cone, .bvhShape .aabb .cone), (.aabb, .cylinder, .bvhShape .aabb .cylinder), (.aabb, .convex, .bvhShape .aabb .convex),
  (.aabb, .plane, .bvhShape .aabb .plane), (.aabb, .halfspace, .bvhShape .aabb .halfspace), (.obb, .box, .bvhShape .obb .box),
  (.obb, .sphere, .bvhShape .obb .sphere), (.obb, .ellipsoid, .bvhShape .obb .ellipsoid), (.obb, .capsule, .bvhShape .obb .capsule),
  (.obb, .cone, .bvhShape .obb .cone), (.obb, .cylinder, .bvhShape .obb .cylinder), (.obb, .convex, .bvhShape .obb .convex),
  (.obb, .plane, .bvhShape .obb .plane), (.obb, .halfspace, .bvhShape .obb .halfspace), (.rss, .box, .bvhShape .rss .box),
  (.rss, .sphere, .bvhShape .rss .sphere), (.rss, .ellipsoid, .bvhShape .rss .ellipsoid), (.rss, .capsule, .bvhShape .rss .capsule),
  (.rss, .cone, .bvhShape .rss .cone), (.rss, .cylinder, .bvhShape .rss .cylinder), (.rss, .convex, .bvhShape .rss .convex),
  (.rss, .plane, .bvhShape .rss .plane), (.rss, .halfspace, .bvhShape .rss .halfspace), (.kdop16, .box, .bvhShape .kdop16 .box),
  (.kdop16, .sphere, .bvhShape .kdop16 .sphere), (.kdop16, .ellipsoid, .bvhShape .kdop16 .ellipsoid), (.kdop16, .capsule, .bvhShape .kdop16 .capsule),
  (.kdop16, .cone, .bvhShape .kdop16 .cone), (.kdop16, .cylinder, .bvhShape .kdop16 .cylinder), (.kdop16, .convex, .bvhShape .kdop16 .convex),
  (.kdop16, .plane, .bvhShape .kdop16 .plane), (.kdop16, .halfspace, .bvhShape .kdop16 .halfspace), (.kdop18, .box, .bvhShape .kdop18 .box),
  (.kdop18, .sphere, .bvhShape .kdop18 .sphere), (.kdop18, .ellipsoid, .bvhShape .kdop18 .ellipsoid), (.kdop18, .capsule, .bvhShape .kdop18 .capsule),
  (.kdop18, .cone, .bvhShape .kdop18 .cone), (.kdop18, .cylinder, .bvhShape .kdop18 .cylinder), (.kdop18, .convex, .bvhShape .kdop18 .convex),
  (.kdop18, .plane, .bvhShape .kdop18 .plane), (.kdop18, .halfspace, .bvhShape .kdop18 .halfspace), (.kdop24, .box, .bvhShape .kdop24 .box),
  (.kdop24, .sphere, .bvhShape .kdop24 .sphere), (.kdop24, .ellipsoid, .bvhShape .kdop24 .ellipsoid), (.kdop24, .capsule, .bvhShape .kdop24 .capsule),
  (.kdop24, .cone, .bvhShape .kdop24 .cone), (.kdop24, .cylinder, .bvhShape .kdop24 .cylinder), (.kdop24, .convex, .bvhShape .kdop24 .convex),
  (.kdop24, .plane, .bvhShape .kdop24 .plane), (.kdop24, .halfspace, .bvhShape .kdop24 .halfspace), (.kios, .box, .bvhShape .kios .box),
  (.kios, .sphere, .bvhShape .kios .sphere), (.kios, .ellipsoid, .bvhShape .kios .ellipsoid), (.kios, .capsule, .bvhShape .kios .capsule),
  (.kios, .cone, .bvhShape .kios .cone), (.kios, .cylinder, .bvhShape .kios .cylinder), (.kios, .convex, .bvhShape .kios .convex),
  (.kios, .plane, .bvhShape .kios .plane), (.kios, .halfspace, .bvhShape .kios .halfspace), (.obbrss, .box, .bvhShape .obbrss .box),
  (.obbrss, .sphere, .bvhShape .obbrss .sphere), (.obbrss, .ellipsoid, .bvhShape .obbrss .ellipsoid), (.obbrss, .capsule, .bvhShape .obbrss .capsule),
  (.obbrss, .cone, .bvhShape .obbrss .cone), (.obbrss, .cylinder, .bvhShape .obbrss .cylinder), (.obbrss, .convex, .bvhShape .obbrss .convex),
  (.obbrss, .plane, .bvhShape .obbrss .plane), (.obbrss, .halfspace, .bvhShape .obbrss .halfspace), (.aabb, .aabb, .bvh .aabb),
  (.rss, .rss, .bvh .rss), (.kios, .kios, .bvh .kios), (.obbrss, .obbrss, .bvh .obbrss),
  (.octree, .box, .octreeShape .box), (.octree, .sphere, .octreeShape .sphere), (.octree, .ellipsoid, .octreeShape .ellipsoid),
  (.octree, .capsule, .octreeShape .capsule), (.octree, .cone, .octreeShape .cone), (.octree, .cylinder, .octreeShape .cylinder),
  (.octree, .convex, .octreeShape .convex), (.octree, .plane, .octreeShape .plane), (.octree, .halfspace, .octreeShape .halfspace),
  (.box, .octree, .shapeOctree .box), (.sphere, .octree, .shapeOctree .sphere), (.ellipsoid, .octree, .shapeOctree .ellipsoid),
  (.capsule, .octree, .shapeOctree .capsule), (.cone, .octree, .shapeOctree .cone), (.cylinder, .octree, .shapeOctree .cylinder),
  (.convex, .octree, .shapeOctree .convex), (.plane, .octree, .shapeOctree .plane), (.halfspace, .octree, .shapeOctree .halfspace),
  (.octree, .octree, .octree), (.octree, .aabb, .octreeBvh .aabb), (.octree, .obb, .octreeBvh .obb),
  (.octree, .rss, .octreeBvh .rss), (.octree, .obbrss, .octreeBvh .obbrss), (.octree, .kios, .octreeBvh .kios),
  (.octree, .kdop16, .octreeBvh .kdop16), (.octree, .kdop18, .octreeBvh .kdop18), (.octree, .kdop24, .octreeBvh .kdop24),
  (.aabb, .octree, .bvhOctree .aabb), (.obb, .octree, .bvhOctree .obb), (.rss, .octree, .bvhOctree .rss),
  (.obbrss, .octree, .bvhOctree .obbrss), (.kios, .octree, .bvhOctree .kios), (.kdop16, .octree, .bvhOctree .kdop16),
  (.kdop18, .octree, .bvhOctree .kdop18), (.kdop24, .octree, .bvhOctree .kdop24)]

end Dispatch
end Fcl
