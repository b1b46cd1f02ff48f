# Formal model of fcl in Lean 4 — design

## 1. What is modelled, and how

The model follows the C++ sources under `/repo` function by function. Every Lean definition carries
a comment with the file and the lines it models and the simplifications made there. Nothing in
`/repo` is built or run; the only link between model and code is the reading recorded in those
comments.

General conventions

* **Scalars.** Code that only compares and selects coordinates (box overlap, merge, sweeps, interval
  trees, hash cells) is modelled over an arbitrary `LinearOrder K`, so the theorems hold for `float`
  and `double` alike: comparisons, `min` and `max` of non-NaN floating point numbers are exact.
  Code that computes (distances, products, Taylor models, shape predicates) is modelled over an ordered
  field or over `ℝ`; rounding is not modelled there and is part of the trusted base. NaN is excluded
  everywhere; the infinities and `numeric_limits::max()` are modelled where the code uses them as
  sentinels.
* **Heuristics as oracles.** Where a choice affects only performance (which child to descend, which
  side to insert into, which axis to sweep) the model takes the choice as a parameter, or the concrete
  formula is modelled and the theorem does not depend on it. The theorems then hold for every rounding
  of the heuristic.
* **`std::sort`, `nth_element`, `priority_queue`, hash iteration order, pointer order** are modelled as
  any result the standard allows (any sorted permutation, any permutation, any linear order on
  addresses). Theorems quantify over all of them.
* **Callbacks** are arbitrary state transformers `σ → obj → obj → σ × Bool` (and
  `σ → K → obj → obj → σ × K × Bool` for distance). `true` means stop, as in the code.
* **Undefined behaviour and non-termination** are separate outcomes (`none` in an `Option`, or an explicit
  theorem that no amount of fuel makes the loop return), never a default value.
* **Pointers.** Trees are inductive data; parent pointers become paths/zippers. Where the pointer
  structure itself matters (interval tree with its shared `nil` sentinel, BVH arrays, freelists) the
  model uses an explicit heap (array of cells).

Layout of `lean/Verif`

* `*/Model*.lean` — model definitions (cited), `*/Lemmas*.lean` — helper lemmas,
* `*/Spec.lean` — the small independent specification,
* `Props/*.lean` — the property theorems named in MANIFEST.json with their non-vacuity examples.

## 2. Trusted base

* Lean 4.33.0's kernel. No axioms are added; every property theorem depends on at most `propext`,
  `Classical.choice`, `Quot.sound`. No `sorry`, `native_decide`, `bv_decide`.
* The reading of the C++ code recorded in the comments (including the C++ standard library contracts:
  sort, set, map, list, vector).
* The scalar abstraction described above (no NaN; exact arithmetic where arithmetic is used).
* Mathlib definitions used in the specifications (`ℝ`, `Real.sqrt`, `Real.cos`, `List.Perm`, ...).

Not modelled: libccd and octomap (external; the segment and triangle distances of libccd are assumed by the contract `Lib.Exact`), the choice of `ccdPtNearest` and the table `ccd_points_on_sphere` of libccd (parameters; the growth of the polytope of the default solver is modelled for C114, the loop and the start from three and four points for C115, the start from two points and the whole signed distance query for C116), MPR (fcl's own GJK and the GJK distance of the default solver are modelled over the reals), file/time/threads
(profiler, seeds), rounding in the eigen-decomposition, allocation failure.

## 3. Plan per property

(S = how stated, P = how proved, V = known violation by the code.)

| id | what is modelled | statement and proof |
|----|------------------|---------------------|
| C01 | AABB predicates | S: iff over points. P: per-axis interval lemma, three axes. |
| C02 | AABB merge/constructors | S: least upper bound in the inclusion order of point sets. P: lattice lemmas, induction on the point list. |
| C03 | AABB::distance | S: lower bound + attained + zero iff overlap + antitone. P: per-axis gap function, sum of squares, sqrt. |
| C04 | AABB::distance with points | V: in the overlapping branch the chosen coordinate may lie outside one box. Negation by witness; partial theorem for the separated axes and the distance value. |
| C05 | HierarchyTree + manager as state machine | S: abstract state = list of objects; refinement by induction on histories. |
| C06 | same | S: enclosure invariant over histories. P: invariant preserved by each operation. |
| C07 | collisionRecurse(root, query) | S: callback trace = filter of leaves run with stop. P: structural induction with generic "run until stop" fold. |
| C08 | selfCollisionRecurse | same, with pairs. |
| C09 | collisionRecurse(root1, root2) | well-founded recursion on sizes, any heuristic. |
| C10 | distanceRecurse et al. | S: final value = min over pairs. P: pruning lemma: pruned subtree has all d ≥ current. |
| C11 | topdown_0/1, bottomup, init_0..3, Morton | S: terminates, same leaves, enclosing. V: topdown_1 does not terminate on coincident centres. |
| C12 | NaiveCollisionManager | trace equality. |
| C13 | collide(obj) of each manager | per-manager completeness; V: spatial hash cell boundary, interval tree with sentinel. |
| C14 | SSaP self-collide | trace equality for any sort result. |
| C15 | SSaP/SaP/interval/hash distance_ (Search/Model.lean: the loop shared by SaP and the interval tree manager) | V: `while(1)` never exits on singletons. Negation; partial: when it exits the value is the min. |
| C16 | SaP manager: the three end point lists, the overlap pairs, registration, update, unregistration | V: single registration misses enclosing boxes and reports others twice, touching boxes are missed, growing boxes corrupt the lists, unregistration reads freed memory. P: partial for one batch of translated boxes without equal coordinates, by an invariant over histories (lists sorted, pairs exact). |
| C17 | SaP::empty/size/getObjects | V: inverted, for every history. P: size and getObjects by the same invariant. |
| C18 | SimpleIntervalTree::query | stack machine = filter of in-order list. |
| C19 | insert/delete with rotations | invariant by induction. |
| C20 | colours | V: insert recolours wrongly; witness. |
| C21 | interval manager (IMgr/Model.lean): registration, setup, update, update(obj), the sweep | S: the sequence of callbacks is a list in which every pair of overlapping boxes occurs once. V: touching boxes, flat boxes, update(obj), motion before setup(). P: invariant over histories (end points, trees, maps), sweep by induction over the end points; partial for pairs overlapping strictly on the sweep axis. |
| C22 | interval manager unregisterObject | V: decided per axis (iff no box reaches further), witness. P: lower/upper bound of a sorted list, compaction loop. |
| C23 | spatial hash | V: cell boundary; partial: boxes with overlapping interiors. |
| C24 | clear | V: spatial hash; proofs for others. |
| C25 | hash tables | invariant over histories, any hash. |
| C26 | Morton | bit-level theorems on BitVec/Nat. |
| C27 | DistanceResult | fold lemma. |
| C28 | cost sources | sorted-set model, top-k. |
| C29 | default callbacks | trace theorem. |
| C30 | BVH/Protocol.lean: all begin/add/end/replace/update calls and the copy constructor on arrays with capacities; reads of unwritten or out-of-range elements are undefined behaviour. BVH/ProtocolSpec.lean: abstract model without arrays | Simulation: along every allowed history no undefined behaviour, same return codes, same geometry, hierarchy sound (uses C31, C32). Violations for the other calls (C30_violated_*) |
| C31 | Verif/BVH/Model.lean: buildTree, recursiveBuildTree with the arrays bvs and primitive_indices, access outside of them as none | Induction on the number of primitives: C31_build, C31_enclosing |
| C32 | Verif/BVH/Model.lean: refitTree_bottomup, refitTree_topdown | Induction on the tree held by the arrays: C32_bottomup, C32_topdown, C32_after_build |
| C33 | Traversal/Model: collisionRecurse with the descent rules of the nodes; Traversal/Spec: leaves, pairs of leaves, what it means to follow the trees | tested ++ pruned is a permutation of all pairs of leaves, tested is an initial part unless not stopped |
| C34 | Traversal/Model: selfCollisionRecurse | tested ++ pruned is a permutation of the pairs of different leaves |
| C35 | Traversal/Model: distanceRecurse, distanceQueueRecurse, MeshDistanceTraversalNode; volume distances are any lower bounds | result attained by a pair of leaves and within both error bounds of every pair; termination with an explicit bound |
| C36 | Traversal/Model: propagateBVHFrontListCollisionRecurse, collide | front property and completeness preserved along every history of configurations; pairs may be tested twice (witness) |
| C37 | Interval | S: result = hull of the set of results. P: corner lemma for products. V: getAbsUpper, `a -= a`, `a *= a`. |
| C38 | TaylorModel | S: enclosure of arbitrary functions. P: identities plus interval membership; tight bound by extrema on a compact interval. V: getBound(), negative times. |
| C39 | sin/cos models | P: Taylor bound of order four by repeated monotonicity; range of cos between floor/ceil tests. V: straddling sign case, stale remainder for w = 0. |
| C40 | Geom/Primitive.lean: sphereSphereIntersect, sphereSphereDistance; spec in Geom/QuerySpec.lean | HitSpec and DistSpec: answer, penetration depth, separation, witness points; proved from thickened points (Geom/Thick.lean). |
| C41 | Geom/Primitive.lean: lineSegmentPointClosestToPoint, sphereCapsule* | as C40 with a thickened segment; V: contact point. |
| C42 | Geom/Primitive.lean: nearestPointInBox, sphereBox*, tolerance as a parameter | as C40 with a convex set and its nearest point; inside, the ball in the box gives the lower bound on the depth. |
| C43 | Geom/ComputeBV.lean models all ComputeBVImpl<S, AABB<S>, Shape> specialisations, the half space / plane constructors and transform; Geom/Shapes.lean gives the point sets of the shapes. | Enclosure for every shape, pose and point; least box for box, sphere, capsule, triangle, convex (C43_least, C43_least_hull); transform and constructor keep the set. |
| C44 | KDOP/Model: all of KDOP and getDistances for k = 16, 18, 24; KDOP/Spec: the solid as an intersection of slabs whose normals are listed independently | inside = membership; point, two point, merge and insertion enclose and are minimal; overlap true on a common point and false exactly when a normal separates the two point sets; translate exact |
| C45 | OBB/Model.lean: obbDisjoint with its fifteen tests and tolerance, overlap, overlap(R0,T0), contain; spec OBB/Spec.lean | Each test bounds a projection that any common point satisfies (not_disjoint); contain exact; C45_detects for the face axes. |
| C46 | OBB/Model.lean: merge_smalldist with quaternions, merge_largedist, operator+, +=; OBB/Eigen.lean: eigen_old (Jacobi) with the negligibility test as an oracle | S: enclosure of point sets. P: vertex bounds; quaternion round trip; covariance kernel. V: `else if` drops the minimum; flat boxes. |
| C47 | Dispatch/Tables (generated from the two function matrices) and Dispatch/Model: collide(), distance(); the routines behind the tables are parameters | for every pair of node types the routine for exactly these types is run with the right transforms, or nothing happens |
| C48 | as C47; the signed fallback of distance() | C48_plain_partial, C48_signed_partial; two violations |
| C49 | Octree/Cell.lean: getRootBV, computeChildBV, thresholds | children and cells of any depth tile and are disjoint (points of the box); classification for ordered thresholds, negation for the defaults. |
| C50 | Narrow/Support.lean: getSupport, MinkowskiDiff, the libccd supports | IsSupport: the point is in the shape and maximal over it; negations for sphere and capsule. |
| C51 | Convex/Model: constructor of Convex (FindVertexNeighbors, ValidateTopology) on the flat face array, findExtremeVertex with its two strategies; out-of-range reads are errors | C51_constructor, C51_local_max, C51_extreme, C51_polytope: well defined, terminates, local maximum, global maximum where local maxima are global |
| C52 | Math/PolySolver.lean over the reals | membership in the result list iff root, under threshold conditions; negations for the bool cube root and near zero. |
| C53 | dynamic tree update(obj) | exact when the box changed beyond the equality tolerance; V: small moves keep the old box. |
| C54 | SSaP contents | invariant over histories; V: unregister after a move. |
| C55 | SSaP collide(other) | trace equality. |
| C56 | managers with default callbacks | composition of the trace theorems with C29. |
| C57 | spatial hash contents | invariant `SHM.Inv` over all histories. |
| C58 | IVector3, IMatrix3 | S: membership of results. P: from C37. V: IMatrix3::getLow. |
| C59 | TVector3, TMatrix3 | S: componentwise enclosure. P: from C38. V: Matrix3 * TaylorModel, rotationConstrain. |
| C60 | Traversal/Model: ShapeBVHDistanceTraversalNode, which does not override firstOverSecond | no number of steps is enough (by induction); the other order ends |
| C61 | Verif/BVH/Mesh.lean: generic fitter, AABB and k-DOP operations, mesh leafTesting with contact limits; triangle test as a parameter | Composition of C31/C32 with C33: C61_mesh_collide, C61_iff, C61_built |
| C62 | Geom/ComputeBV.lean: computeLocalAABB of all shapes and of BVHModel, CollisionObject::computeAABB with the tolerance of isIdentity as a parameter. | Local box and ball cover the geometry; object box covers the placed geometry unless a non-identity rotation passes isIdentity; quantified slack otherwise; violation for every positive tolerance. |
| C63 | Geom/Primitive.lean: nearestPointInCylinder, sphereCylinder*, tolerance as a parameter | as C42. |
| C64 | Geom/Primitive.lean: closestPtSegmentSegment, capsuleCapsuleDistance, tolerance as a parameter | first order conditions of the clamped minimum (Kkt) give nearest points of the axes; V: lengths within the tolerance. |
| C65 | OBB/Fit.lean: fit1, fit2, fit3, fit6, fitn, Fitter::fit, FitImpl | Directions orthonormal, then projections bound every point. V: collinear triple. |
| C66 | relativeTransform, the oriented leaf test, orientedMeshCollide with its null pointer outcome, the OBB fitter as builder | traversal theorem C33 with box test C45, construction C31 and fitting C65; pose algebra |
| C67 | interval manager collide(other_manager) | V: each pair exactly twice, for all managers. P: count over the end point loop. |
| C68 | interval manager getObjects/size/empty | P: the invariant of C21; partial because of C22. |
| C69 | half-space functions over ℝ with the tolerance as a parameter | P: support points of the shape in the direction of the normal; capsules, cylinders and cones exact outside of the band of the tolerance, and bounds within it; cones partial, three violations |
| C70 | plane functions over ℝ | P: both supports and convexity; spheres, ellipsoids and boxes exact, the others partial with violations |
| C71 | functions for two flat shapes | P: cross product identities; two planes exact, others partial |
| C72 | the same functions with and without contacts | P: case distinction; partial for planes (capsules and cylinders violate it) |
| C73 | project-inl.h (Gjk/Project.lean) | Specification `Nearest` in Gjk/ProjectSpec.lean; case analysis of the barycentric regions |
| C74 | gjk-inl.h `GJK::evaluate` (Gjk/Gjk.lean) and the general queries of gjk_solver_indep-inl.h (Gjk/Solver.lean); EPA is an oracle here, modelled for C110 and C111 | Loop invariant: the simplex is not degenerate, its vertices are support points, `ray` is its point nearest to the origin; composed with C50 and the convexity of the shapes |
| C75 | as C74 | The support point towards the origin bounds the distance from below |
| C76 | as C74 | The relative transformations of `MinkowskiDiff` do not change |
| C77 | as C74, with the queries for triangles | As C74 in the frame of the shape |
| C78 | gjk_libccd-inl.h lines 231-602, 943-998, 1626-1682, 1850-2146, 2280-2291, 2676-2718 and ShapeDistanceLibccdImpl (Ccd/Gjk.lean); segment and triangle distance of libccd by contract | Invariants of the two loops: simplices are made of support points; each way to report the origin inside puts it near the hull |
| C79 | as C78 | The nearest point of the last simplex; barycentric coordinates, longest side of a flat triangle |
| C80 | as C78 | V: false end of progress, lengths of cubic order taken for zero; partial from the support property (C50) |
| C81 | Verif/BVH/TriTest.lean: intersect_Triangle, project6, the variants with a pose, the leaf tests with it; Verif/Geom/SepAxis.lean: choice of a separating direction | Separating direction of the nearest points, moved until it is perpendicular to two edges: exists_axis, C81_exact_partial; composition with C61 and C66: C81_mesh, C81_oriented |
| C82 | Verif/BVH/TriTest.lean: buildTrianglePlane, computeDeepestPoints, the choice of the contact | Invariant of the loop over the vertices: fold_deep, deepest_ok; C82_contact_partial; counterexamples C82_violated_point, C82_violated_degenerate |
| C83 | triDistance and segPoints with all branches, division by zero giving an infinity or no number | V: small triangles, points of touching triangles. P: optimality conditions of segPoints in all nine cases; the sign conditions of the early exit give a separating plane; completeness by cases of where the nearest points lie (edge or interior). |
| C84 | BVHDistance for AABBs and orientedMeshDistance, initialize, pre- and postprocess, DistanceResult with pointers; the traversal of C35 | V: reuse of a result moves its nearest points. P: simulation between the traversal on the full result and the one of C35, then C83 on leaves and C03 on volumes. |
| C85 | RSS/Model: RSS, rectDistance with the 16 blocks of sides, clipToRange, segCoords, inVoronoi, the overlap and distance functions, contain, += a point | V: contain, += a point, points of the fallback. P: each block that answers gives the nearest points of two convex sets (separating plane at the pair of sides); the fallback is a separation along a normal. |
| C86 | getRadiusAndOriginAndRectangleSize, fit1/2/3/n, Fitter, operator +, translate, center | V: three points on a line; operator + with the third direction of the left operand. P: invariant of the slab and corner loops: every point seen is within r of the rectangle, which only grows. |
| C87 | KIOS/Model: OBBRSS, kIOS, encloseSphere, overlap, contain, distance, translate, +, +=, the fitters with maximumDistance and circumCircleComputation | V: contain, translate, points of distance. P: every sphere contains every point (the centre is on the axis through the middle of the box at the distance where the far corners are on the sphere, or the radius is that of the farthest point); lower bound by the triangle inequality for each pair of spheres. |
| C88 | BVH/Volumes: OVol (fit, overlap at a pose, distance at a pose) for OBB, RSS, OBBRSS, kIOS; meshCollide, rebuiltCollide (RSS), orientedMeshDistance | P: fits enclose (C65, C86, C87), volumes are convex so that they enclose the triangles, overlap and distance at a pose are conservative (C45, C85, C87), then the traversal theorems C33, C61, C84 and the exact leaf tests C81-C83. |
| C89 | Geom/BoundVertices: getBoundVertices of the eight bounded shapes, computeBV into OBB, RSS, OBBRSS, kIOS and k-DOPs | P: the bound vertices support the shape in every direction (golden-ratio identities by octants), so their hull has it by geometric Hahn-Banach; then the fit theorems C65, C86-C88 and convexity of the volumes. Half-spaces and planes branch by branch. |
| C90 | Geom/ConvertBV: all specialisations of ConvertBVImpl, and constructBox with and without a pose | P: coordinates in the frame of the volume; the sort of the sides of an AABB by cases. The placed set (Placed, from C43) and the point sets of the volumes are the specification. |
| C91 | Octree/Solver.lean: octree_solver-inl.h 330-481 (shape), 573-761 (mesh), 850-1101 (two octrees), with the collide functions of collision_func_matrix-inl.h 93-221, all as recursions over trees of any depth. The solver for two primitives is a parameter. Approximate costs (183-208) are not modelled. | Reports (Octree/SolverSpec.lean): sound, complete unless the limit is reached, limit kept. Induction over the octree and the hierarchy; pruning by C45, C90 and the octomap invariant. |
| C92 | Octree/Solver.lean: octree_solver-inl.h 272-324 (shape), 485-571 (mesh), 763-848 (two octrees), with the distance functions of distance_func_matrix-inl.h. | Measures (Octree/SolverSpec.lean): -1 and a touching pair, or the least distance with a pair and points that realise it. Induction as for C91; pruning by C03, C43 and C90. |
| C93 | Geom/SphereTriangle.lean: sphere_triangle-inl.h, all functions. Real arithmetic; the machine epsilon is any positive number; an unwritten *dist is none. | TriContact, TriDist and IsDist (Props/SphereTriangle.lean, Geom/QuerySpec.lean) with the sets of points of the sphere and the triangle. The 25 cases by the Karush-Kuhn-Tucker conditions; the collision query by barycentric coordinates of the foot of the centre; the points by C73. |
| C94 | BVH/MeshShape: leaf tests of both kinds (contacts, costs), traversal, preparation, the instances for half-spaces, planes and spheres | BVH/MeshShapeSpec: ShapeFound; Props/MeshShape: theorem for any enclosing volume and any triangle test, then instances from the arrays of a mesh |
| C95 | BVH/MeshShapeDist: leaf test, preprocessing with triangle 0, traversal, uninitialised variables, the instance for spheres | BVH/MeshShapeDistSpec: ShapeDistFound, DistancesSphere; Props/MeshShapeDist: theorem for any enclosing volume and any exact triangle test, then instances for spheres |
| C96 | Motion/Model: integrate and the motion bounds of TranslationMotion, InterpMotion, ScrewMotion, SplineMotion; AngleAxis as a value that describes the rotation | Motion/Spec: IsAngleAxis, Leads, Bounds; Props/Motion: Rodrigues formula, chord at most arc, convexity of distance to the axis over the corners |
| C97 | Motion/Continuous: numIter, naiveLoop, naive | Motion/ContinuousSpec: Sampled; Props/Continuous: induction over the samples |
| C98 | Motion/Continuous: advance, stepTime, shapeRound, meshRound (one triangle each), conservative; Motion/MeshShape: meshShapeRound, shapeMeshRound (one triangle) | Motion/ContinuousSpec: Safe, Near; Props/Continuous: the separating direction of nearest points and the motion bounds give that no contact is before the end of a step; invariant over the rounds; 10001 rounds are enough |
| C99 | boxBoxIntersect and boxBox2 on real numbers, all fifteen tests with their tolerance | no ⇒ no common point; yes ⇔ common point without tolerance; with it up to a slit of explicit width; counterexample with a gap |
| C100 | the same | SeparatesAlong for normal and depth; nothing shorter than depth/1.05 separates; IsDepth for parallel sides; counterexample |
| C101 | Narrow/BoxBox.lean (clipping, culling, line against line), Narrow/ChopLemmas.lean, Narrow/FaceLemmas.lean | Props/BoxBoxContacts.lean: every polygon met while clipping crosses each line at most twice, so each pass adds at most one point and the buffer of eight is enough; each clipped point is a convex combination of corners of the incident face and within the reference face. Spec: IsContact, OnEdgeLine, FurthestCorner, Facing in Narrow/BoxBoxSpec.lean. |
| C102 | OBB/Model.lean (disjoint, overlap, overlapAt) | Props/OBBNear.lean: the tests bound the gap along each of the fifteen directions by the tolerance; if no gap is positive, Geom/Zonotope.lean (fifteen directions are enough) gives a common point, otherwise the direction shows the slit. |
| C103 | Tree/OctreeQuery.lean: broadphase_dynamic_AABB_tree-inl.h 58-489 (both versions of both recursions) and the octree cases of collide and distance, 896-944 | Props/TreeOctree.lean: the calls are a fixed list of pairs without repetition, contained in and containing the pairs of the specification (Tree/OctreeQueryLemmas.lean, induction over the octree and the tree); pruning by C45, C90, C49 and octomap's invariant; the distance by the covering argument of C10 with C03. |
| C104 | generateBVHModel for all shapes (Geom/ShapeMesh.lean): points, triangles, the overloads that compute the tessellation, addTriangles on the model of the BVHModel calls | Geom/ShapeMeshSpec.lean says what a mesh of a shape is (closed, oriented outwards, on the surface). All tessellations but the box are shown to have the sides of one globe, whose closedness is a finite case analysis for symbolic sizes; orientation from determinants of points on circles; the calls by refinement to the protocol of C30 |
| C105 | RNG and the samplers as functions of the sequences that the standard distributions return (Rand/Model.lean); a vector of fixed size with checked writes | Bounds by arithmetic over the reals, trigonometric identities for quaternion, disk and ball; violated cases by one sample |
| C106 | The static variables of Seed and the calls setSeed, getSeed, constructor (Rand/Seed.lean); clock value an argument, the unseeded static generator a fixed sequence | Induction over programs; pigeonhole for different seeds |
| C107 | the tree in an array and its manager as memory: free list, unions parent/next and children[0]/data, growth; all public calls | representation of a tree with addresses by the array (TreeArray/Rep), each operation of the code refines the one on that tree, invariant over histories, queries by C07–C10 on the tree read back; violated: growth, single update, balanceTopdown |
| C108 | computeVolume, computeCOM, computeMomentofInertia of the six primitives and computeMomentofInertiaRelatedToCOM as formulas over ℝ (`Mass/Model.lean`) | equal to Lebesgue integrals over the point set of the shape (`Mass/Spec.lean`); slices by height are ellipses, polar coordinates for the slices, polynomials for the height |
| C109 | the three sums over triangles of BVHModel and over the fans of the polygons of Convex (`Mass/PolyModel.lean`) | equal to Lebesgue integrals over the enclosed solid (`Mass/PolySpec.lean`): change of variables from the standard simplex for each tetrahedron, cancellation over the sides of a surface without border makes the tip of the tetrahedra arbitrary; the inertia of Convex refuted by a tetrahedron |
| C110 | EPA: faces in a store with adjacency, hull and stock lists, expand with fuel, loop, encloseOrigin; a fault is `none` | `evaluate` never faults from any reachable state; Partition of the faces; closed surface; minimal distance |
| C111 | The GJK solver of C74 with the modelled EPA plugged in | answer = GJK; contact normal/place; separation at accuracyReached; wrong sign of the depth refuted on tetrahedra |
| C112 | Motion/SweptBox: getTaylorModel of the four motions (of SplineMotion the translation), computeAABB | Props/SweptBox: affine functions on a box are bounded at the corners; tight bounds of C38, C59; the ends of the box are ends of corner boxes |
| C113 | Motion/TriCcd.lean (intersect_VF, intersect_EE, the interval Newton solver, leafTesting and continuousCollideBVHPolynomial on the traversal of Traversal/Model.lean and the refitting of BVH/RefitLemmas.lean), Motion/TriCcdNewton.lean, TriCcdContact.lean, TriCcdMove.lean, TriCcdLeaf.lean (lemmas) | Props/TriCcd.lean, TriCcdEx.lean: interval arithmetic for the solver; the separating axes of two triangles move linearly, so at the first contact one of them vanishes, and from it a vertex-face or edge-edge hit; near contact from weights above -1e-5/n^2; meshes by C33 and refitting; counterexamples |
| C114 | Ccd/Polytope.lean: `ccd_pt_t` as numbered edges and faces, the recursion of `ComputeVisiblePatch` with fuel and exceptions, `expandPolytope` with the operations of libccd; Ccd/PolytopeFace.lean: the normals and the test of visibility over the reals | No exception for any answers of the tests; the sets of the patch; even degree of the border; closed surface; for convex polytopes: outward normals, exact test, border without self-contact (a pigeonhole on the sides of the outline), connectedness of what is seen (the simplex method on the dual, with a lexicographic order), convexity of the expansion; a pinched octahedron refutes closedness for arbitrary answers |
| C115 | Ccd/Epa.lean: the first polytope, the direction, the test of convergence, the correction of the nearest feature, the loop with fuel, the depth and the points; the element given by `ccdPtNearest` is an oracle with the contract that it is nearest | IsDepth: the shapes meet after every move not longer than the depth (the ball is in the hull of the vertices), and are apart after one longer by the tolerance; no exception; termination by a packing argument |
| C116 | Ccd/Signed.lean, EpaTwo.lean: `ccdGJKSignedDist`, `GJKDistanceImpl`, `shapeSignedDistance` and `simplexToPolytope2` over the models of C78 and C115 | equal to the distance query when that answers; otherwise IsDepth of C115 for the placed shapes; the vertices handed over are extreme points (an invariant of the search) |
| C117 | BVHExpand for all three versions over an arbitrary fit, on the hierarchies of C31 | the loops by induction on the number of steps, the tree by induction on IsTree; refuted by two points given from right to left |

## 4. Where the code does not have the property

Each entry is a theorem about the model with a concrete witness.

- C04: nearest points of `AABB::distance(other, P, Q)` when boxes overlap on an axis.
- C11: `init` with level 1 (top-down median) does not terminate for a suitable axis choice; bottom-up
  on an empty set is undefined.
- C15: SSaP `distance` loops forever on a single object and on flat queries
  (`C15_ssap_diverges_single`, `C15_ssap_diverges_flat`); the spatial hash manager loops forever on a single
  object (`C15_shash_diverges_single`), and so does the sweep-and-prune manager (`C15_sap_diverges_single`), which also
  reads deleted end points right after an object has been unregistered (`C15_sap_violated_unregister`).
- C23, C13: the spatial hash manager misses boxes that touch exactly in a plane between two layers of cells, and a
  flat box lying in such a plane is stored nowhere (`C23_touching_missed`, `C23_flat_missed`).
- C24: `clear()` of the spatial hash manager keeps the list of objects across the scene limit, which are then still
  reported (`C24_shash_stale`).
- C18, C19: `insert` lines 220-221 colour parent and uncle red. `deleteFixup` then meets shapes the
  red-black algorithm excludes and rotates the sentinel into the tree. `C18_delete_loses`: eleven
  lawful calls, after which a query misses two of three stored intervals. `C18_low_end`: a query
  starting at `-DBL_MAX` skips right subtrees.
- C20: decreasing insertions give linear height (`C20_linear_height`, `C20_not_logarithmic`).
- C25: `SimpleHashTable::init` called again with another size keeps the lists but changes the modulus, so
  stored values are not found (`C25_simple_reinit_loses`).
- C26 (domain): the Morton functors are undefined on a flat bounding box (`C26_flat`).
- C27: `update` without points leaves the points of an earlier pair; `clear()` does not reset points
  (`C27_stale_points`, `C27_clear_keeps_points`).
- C28: cost sources with equal total, density and lower corner but different upper corner count as one
  (`C28_same_rank_dropped`).
- C53: `update(obj)` keeps the old box when the new one is equal up to the tolerance of
  `AABB::equal` (`C53_update_misses`).
- C54: SSaP `unregisterObject` after the object moved may leave it registered
  (`C54_ssap_unregister_moved`).
- C37: `getAbsUpper` is negative for every interval with negative middle (`C37_absUpper_wrong`); `a -= a` and `a *= a`
  read the overwritten operand (`C37_subAssign_self_wrong`, `C37_mulAssign_self_wrong`).
- C38: `getBound()` uses the linear coefficient instead of the constant one (`C38_bound_wrong`); products and
  `getBound(t0, t1)` are wrong for times of both signs (`C38_mul_negative_time`, `C38_boundOn_negative_time`).
- C39: the sine and cosine models do not contain the functions when the fourth derivative changes sign
  (`C39_cos_wrong`, `C39_sin_wrong`); for `w == 0` the sine keeps the old remainder (`C39_sin_stale`).
- C58, C59: `IMatrix3::getLow` returns upper ends (`C58_getLow_wrong`); `Matrix3 * TaylorModel` overwrites a column
  (`C59_mat_scalar_wrong`); `TMatrix3::rotationConstrain` clamps remainders (`C59_rotationConstrain_wrong`).
- C44: `KDOP::distance` is a stub that answers 0 for separate k-DOPs (`C44_distance_stub_neg`).
- C60: `ShapeBVHDistanceTraversalNode` inherits `firstOverSecond() == true` and "descends" from the shape to the shape itself: distanceRecurse never ends for a shape and a mesh of more than one triangle. Reached from conservative advancement (continuousCollide) with the shape first; distance() swaps the arguments and avoids it.
- C36: propagateBVHFrontListCollisionRecurse appends the new pairs to the list it is iterating over, so that pairs of leaves below an expanded pair are tested twice in one call (`C36_tested_twice`), which can duplicate contacts. distanceQueueRecurse leaves pairs out of the front list when it stops (`C36_queue_front_incomplete`).
- **C30**: addTriangle and addSubModel only refuse a finished model: before beginModel they write past the end of a new array, during a replace/update or after an update they are accepted and the hierarchy ignores the new geometry. replace*/update* do not check the number of vertices. The copy constructor does not initialise num_vertex_updated, and a copy of a begun model without vertices has capacity 0, which doubling keeps. endModel does not check the indices of triangles, and accepts triangles without vertices. beginModel on a finished model empties it but returns an error and does not begin a new one.
- **C62** CollisionObject::computeAABB uses the local box, only translated, when `t.linear().isIdentity()` holds, and Eigen tests that with a tolerance (1e-12). For a rotation within the tolerance the box does not enclose the geometry (`C62_violated`); the error is at most tolerance × (|x|+|y|+|z|) per coordinate (`C62_object_slack`).
- **C41** sphereCapsuleIntersect reports the point at `segment_point + distance * n`, which is |distance| from the axis and may be outside the sphere (`C41_violated`).
- **C64** closestPtSegmentSegment treats a segment not longer than the tolerance as its first end point; the distance may be too large by the length (`C64_violated`).
- C46: `OBB::operator+` loses a corner of the first operand for near boxes, because the scan of merge_smalldist tests the minimum only when the maximum is not raised (`C46_violated_near`); for distant boxes lying in one plane the directions can be dependent and the sum denies containing points of its operands (`C46_violated_far`).
- C65: `fit` of an OBB to three collinear points leaves two zero directions and a centre off the line (`C65_violated`); two equal points divide by zero (`C65_fit2_total`).
- C66: `collide` on two `BVHModel<OBB>` (also RSS, OBBRSS, kIOS) of which one is a point cloud ignores that `initialize` returned false and reads null pointers (`C66_violated_points`).
- C16: SaP: `registerObject` of a box inside an existing one never reports the pair (`C16_violated_nested`), an enclosing box is reported twice (`C16_violated_twice`), boxes that come to touch are not reported (`C16_violated_touching`), `update` of a growing box links an end point to itself (`C16_violated_grow`, `C16_violated_grow_any`), `unregisterObject` reads the node it has deleted (`C16_violated_unregister`) and the following `collide(obj)` searches deleted end points (`C13_sap_violated_unregister`).
- C17: SaP `empty()` returns `AABB_arr.size()` converted to bool: true exactly when it is not empty (`C17_violated`).
- C49: the default free and occupancy thresholds are equal, so a node with log odds 0 is classified as occupied and as free (`C49_violated_default`).
- C50: `getSupport` of a sphere or capsule scales the direction by the radius without normalizing it; for a direction of length 2 the point is outside of the shape (`C50_violated_sphere`, `C50_violated_capsule`). GJK passes unit directions.
- C52: `PolySolver::cbrt` is declared to return `bool`. For every c that is not tiny the root found for x^3 = c is 1 or -1 (`C52_violated_cubic`); a double root gives a wrong single root (`C52_violated_cubic_double`). The threshold 1e-9 drops or invents roots of equations with small coefficients (`C52_violated_small_linear`, `C52_violated_small_quadric`).
- C51_violated_coplanar: on a closed convex mesh with a face triangulated around an interior vertex the edge walk of Convex::findExtremeVertex can end at a vertex that is not extreme, although its comparison by >= is meant to prevent this.
- C47_violated_distance: the distance matrix has no entry for (half-space, ellipsoid), while (ellipsoid, half-space) has one.
- C48_violated_return, C48_violated_depth: with signed distances for meshes or octrees, distance() returns a value other than result.min_distance, and result.min_distance is the depth of the first contact only, since the default request asks for one contact. C48_no_contact: reads a contact of an empty list.
- C21: the sweep of the interval tree manager misses touching boxes when the sort puts the upper end point first (`C21_violated_touching`), reports boxes that do not overlap when a flat box has its upper end point first (`C21_violated_flat`), uses wrong end points after `update(obj)` (both inner loops test for the lower end point; `C21_violated_update`) and stale ones when an object moves between registration and `setup()` (`C21_violated_moved`).
- C22, C68: `unregisterObject` of the interval tree manager compacts only the range of the object and then cuts the last two entries of the whole array. Unless no box reaches further, the end points of other objects are lost (`C22_iff`); `getObjects` then lists the removed object, or writes out of bounds (`C22_violated`).
- C67: `collide(other_manager)` of the interval tree manager loops over end points, of which every object has two, so every pair is called back twice (`C67_violated`).
- C15: the distance queries of the interval tree manager do not return with a single object (`C15_interval_diverges_single`).
- C69: `capsuleHalfspaceIntersect` and `cylinderHalfspaceIntersect` test only the middle of an axis that is nearly parallel to the boundary (`C69_violated_capsule`, `C69_violated_cylinder`); `coneHalfspaceIntersect` tests `cosa < tol` without absolute value, so that every cone that points against the normal is treated as a sphere around its centre: collisions are missed (`C69_violated_cone_missed`) and invented (`C69_violated_cone_false`).
- C70, C72: `capsulePlaneIntersect` with contacts misses a capsule that is pierced by the plane if the product of the distances is within the tolerance (`C70_violated_capsule`), and gives a wrong normal if the first end point is on the plane (`C70_violated_capsule_normal`). `cylinderPlaneIntersect` without contacts does not halve the length (`C70_violated_cylinder`), with contacts the normal is wrong for a cylinder that stands on the plane (`C70_violated_cylinder_normal`). Cones and triangles that touch the plane are missed (`C70_violated_cone`, `C70_violated_triangle`).
- C71: `planeHalfspaceIntersect` and `halfspaceIntersect` have the sign wrong for opposite normals (`C71_violated_opposite`); a plane that is the boundary of the half-space is missed (`C71_violated_boundary`).
- **C73, tetrahedra.** project-inl.h 145 searches only the first face when the point is beyond it, although the nearest point can be on another face: `C73_violated_tetrahedron`.
- **C75, missed collisions.** gjk-inl.h 128-143 ends the search when a support point equals one of the last four, even one that is no longer in the simplex. A tetrahedron and a box of side 2 that overlap are said to be 0.175 apart, with the default settings: `C75_violated`.
- **C76, contact normals.** gjk_solver_indep-inl.h 151 reports the normal of EPA, which is in the frame of the first shape, without turning it to the world frame: `C76_violated_normal`.
- **C77, nearest points of a triangle.** gjk_solver_indep-inl.h 895-897 reports points in the frame of the shape as points in the world frame: `C77_violated`. Lines 400 and 497 report the opposite of the normal of line 151: `C77_violated_normal`.
- **C79, uninitialised nearest point.** gjk_libccd-inl.h 231-262: simplexReduceToTriangle writes the nearest point only if one of the three triangles is nearer than the last distance; _ccdDist then passes the unwritten closest_p to extractClosestPoints: `C79_violated` (boxes 2x4x6 and 2x6x2 at (2,-1,-5)).
- **C80, false end of progress.** gjk_libccd-inl.h 2133-2139 compares the norm of the new support point with the last distance, and stops when they are equal, also if the point is another one: `C80_violated_distance` (boxes 1x5x2 and 1x4x2 at (-5,0,0), distance 4, reported sqrt(36.25)).
- **C80, small shapes.** gjk_libccd-inl.h 452-500 and 1673 compare products of three and four lengths with CCD_EPS: overlapping boxes of size 1e-8 to 1e-5 are not found to overlap: `C80_violated_overlap`.
- C81: for a triangle with its vertices on a line the test can say yes although the triangles are 2/5 apart (`Tri.C81_violated_degenerate`): the direction perpendicular to the segment in the plane of the other triangle is not among the candidates.
- C82: the contact points are deepest vertices with respect to the plane of the other triangle, not to the triangle: with depth 1 they can be 98 away from it (`Tri.C82_violated_point`). For degenerate triangles the return value of buildTrianglePlane is ignored and the plane is read uninitialised (`Tri.C82_violated_degenerate`).
- **C83, small triangles.** triangle_distance-inl.h 258 and 328 leave out the faces when the square of the normal is at most 1e-15, that is for triangles with sides of about 1e-4 and less: value 0 for triangles that are apart, or a value above the distance: `Tri.C83_violated_small`. For touching triangles P and Q are those of the last pair of edges: `Tri.C83_violated_touching`.
- **C84, nearest points moved again.** mesh_distance_traversal_node-inl.h 589-602 takes the nearest points to the world frame whenever the result names the same two meshes, also when this query did not write them: `C84_violated_reuse`, `C84_violated_twice`. distance_func_matrix-inl.h 358-367: the result of the AABB query holds pointers to copies that are deleted (`objs` in `C84_aabb_partial`). mesh_distance_traversal_node-inl.h 104-106: rel_err and abs_err of the request are never used (the result is exact).
- **C85.** RSS-inl.h 129-162: `contain` compares with `<` on both sides, so a point beside the line through an end of a side falls to the corner case (`C85_violated_contain`). 166-303: `operator +=` a point (`C85_violated_add_point`). 1790-1900: the points of the fallback are corners projected on the other plane (`Rects.C85_violated_points`).
- **C86.** RSS-inl.h 371: `bv.axis.col(2) = axis.col(0).cross(axis.col(1))` reads the left operand instead of the sum (`C86_violated_add`). utility-inl.h 206-231: collinear triples (`C86_violated_fit`), as for OBB.
- **C87.** kIOS-inl.h 104-114: `contain` looks at the spheres only (`C87_violated_contain`). 297-316: `translate` calls `translate(obb, t)` and discards the result, so the spheres move and the box does not (`C87_violated_translate`). 228-241: the points of `distance` are computed from two spheres of `*this` (`C87_violated_points`). `encloseSphere` keeps the distance of the centres in a float; the model keeps it exactly.
- **C88.** collision_func_matrix-inl.h 536-552: for AABB, KDOP and RSS meshes the traversal works on copies that are deleted before `collide` returns; `Contact::o1` and `o2` point to them. (The model represents a contact by its two triangles.)
- **C89.** shape/utility-inl.h 250-260: the OBB fitted to a `Convex` keeps its extents but gets the axes of the pose (`C89_violated_obb_convex`). 673-688: the RSS of a plane has the foot as a corner and the normal as a side (`C89_violated_rss_plane`). 430-616: k-DOPs of half-spaces ask for the sign of `n[1]` where `n[1] == 0` (`C89_violated_kdop_halfspace`) and write to the slab of (1,1,-1) for normals along (1,-1,-1), the branch for slab 11 being unreachable (`C89_violated_kdop24_halfspace`, `C89_violated_kdop24_plane`). 756: `dist(6)` for `dist(5)` (`C89_violated_kdop16_plane`). `computeBV` into a k-DOP adds to what the volume held (`C89_kdop` states both enclosures).
- **C90.** kIOS-inl.h 165-190: `center` is that of the first sphere, `width`, `height`, `depth` are those of the box, so that converting the kIOS of an obtuse triangle loses a corner (`C90_violated_kios`). shape/utility-inl.h 1101-1106, 1177-1183: the box of an RSS is centred at the corner of the rectangle (`C90_violated_box_rss`, for every RSS whose rectangle is longer than the diameter). 1145-1152, 1166-1173: `tf_bv` is not used (`C90_violated_box_obb`, `C90_violated_box_kios`).
- C91: an octree node that is both free and occupied (log odds 0 with the default thresholds, or any threshold below one half) is skipped by collide() although distance() finds the cell (C91_default_misses, C91_low_threshold_misses, C92_finds_it).
- C91: collide() of an octree and a shape computes the cost of a cell and throws it away; only missing children give costs (C91_shape_cost_lost). An empty octree gives a cost even when none is asked for (C91_empty_cost), and distance() reads through a null pointer (C92_empty).
- C91: two octrees: whether enable_contact is set changes the answer for cells a small gap apart (C91_gap).
- C93: sphere–triangle collision reports the depth with the wrong sign (C93_violated_depth), the last edge in reach instead of the nearest (C93_violated_deepest), and a contact with every sphere for a triangle without area (C93_violated_flat). The distance query with points writes no distance in contact (C93_violated_contact) or for a triangle without area (C93_violated_flat_distance).
- C94: a plane that touches a mesh without crossing it is reported apart (C94_violated_plane_touch); a triangle deep in a half-space is missed with k-DOPs (C94_violated_kdop_halfspace); a free shape adds costs only with oriented volumes (C94_violated_free_cost); a point cloud reads a null pointer (C94_violated_point_cloud).
- C95: a sphere that touches a mesh is reported at whatever distance an uninitialised variable holds (C95_violated_contact); nearest points of a mesh and a sphere are in the frames of the objects (C95_violated_world, C95_violated_square); a point cloud reads a null pointer (C95_violated_point_cloud).
- C96: a ScrewMotion that only translates ends twice as far (C96_violated_screw); TranslationMotion drops the rotation (C96_violated_translation); InterpMotion(tf1, tf2) does not set its reference point (C96_violated_reference), InterpMotion(tf1, tf2, O) not its velocities (C96_violated_constructor); the motion bound of SplineMotion is the rest of the way and not a rate (C96_violated_spline).
- C97: tunnelling between samples (C97_violated_tunnel), the time is off by more than toc_err (C97_violated_error), no samples (C97_violated_none). C98: contact at time 1 (C98_violated_end), near miss (C98_violated_graze), negative zero (C98_violated_zero), state kept in the motions (C98_violated_state), splines (C98_violated_spline), mesh and shape: direction of the bounds taken from a corner of the triangle (C98_violated_mesh_shape, C98_violated_shape_mesh), two meshes: direction of the second bound (C98_violated_mesh), working copies moved again in every round (C98_violated_copy).
- C101_violated_none: two cubes of side 2 that share an edge: boxBoxIntersect answers true with an empty list of contacts, because intersectRectQuad2 keeps only points strictly inside.
- C103: a distance query of the dynamic tree manager with an octree that has no nodes dereferences a null pointer (C103_violated_empty_octree); the collision query with the same octree works.
- C111: `C111_violated_depth`: fcl's own solver reports `-epa.depth`; for two overlapping tetrahedra the penetration depth is negative.
- C112: a turning object leaves its box (C112_violated_interp, C112_violated_screw), no box for TranslationMotion (C112_violated_translation), splines (C112_violated_spline).
- C113: the polynomial solver is exact on generic meshes only; the code misses sliding, small, short-edged and initially overlapping triangles, reports some that are far apart, ignores the first poses, changes the meshes and reports the time of the first pair found.
- C115: `C115_violated_flat`: a pyramid touches a point, which is on the triangle of three support points. `convert2SimplexToTetrahedron` tests the distance of the further support point from the triangle instead of from its plane, takes a point in the plane and makes a tetrahedron without volume.
- C116: `C116_violated_touching`: when the search ends with two points, `simplexToPolytope2` takes a support point that is one of the two for a touching contact. A double pyramid with a point 1/4 inside of it is answered "separated" with the distance zero, for every table of directions.
- C117: BVHExpand reads vertices[first_primitive + j] without primitive_indices, so a leaf may not hold its own point; with more triangles than vertices it reads outside of the array.

## 5. Status

MANIFEST.json is the list of claims. No theorem uses axioms other than `propext`,
`Classical.choice` and `Quot.sound`.
