{"id": "C01", "title": "AABB overlap and containment are exact", "statement": "For boxes whose min is componentwise at most their max, AABB::overlap(a,b) returns true iff some point lies in both boxes; contain(b) is true iff every point of b is in a; contain(p) iff p satisfies all six inequalities; axisOverlap(b,i) iff the projections on axis i share a point; overlap(b,part) leaves in part exactly the set of common points.", "quantifier": "all pairs of non-empty AABBs and all points, over any linearly ordered scalar type", "why_tests_cant": "Six comparisons per call over an infinite set of coordinates; boundary and degenerate (flat, point) boxes are easily skipped by samples.", "anchors": ["include/fcl/math/bv/AABB-inl.h: AABB::overlap, contain, axisOverlap"]}
{"id": "C02", "title": "AABB merge is the least enclosing box", "statement": "a + b (and a += b, a += p, and the box built from 1, 2 or 3 points) contains both operands, and is contained in every box that contains both operands; starting from the default-constructed (empty) box and adding points gives the smallest box containing exactly those points.", "quantifier": "all boxes, all finite point sequences of any length", "why_tests_cant": "Needs minimality against every other enclosing box and arbitrary sequence length.", "anchors": ["include/fcl/math/bv/AABB-inl.h: AABB::operator+=, operator+, constructors"]}
{"id": "C03", "title": "AABB distance is the true minimum distance", "statement": "AABB::distance(b) is at most the Euclidean distance between any point of a and any point of b, is attained by some pair of points, and is 0 iff the boxes overlap. Enlarging either box never increases it.", "quantifier": "all pairs of non-empty AABBs, all point pairs inside them", "why_tests_cant": "A minimum over two infinite point sets cannot be sampled; the broadphase prunes on it, so one wrong value loses an answer.", "anchors": ["include/fcl/math/bv/AABB-inl.h: AABB::distance"]}
{"id": "C04", "title": "AABB nearest points are valid witnesses", "statement": "When AABB::distance(b,&P,&Q) is given output points, P lies in a, Q lies in b, and |P-Q| equals the returned distance.", "quantifier": "all pairs of non-empty AABBs including nested and partially overlapping ones", "why_tests_cant": "The overlapping branch has several interval orders per axis; combinations over three axes are not enumerated by tests.", "anchors": ["include/fcl/math/bv/AABB-inl.h: AABB::distance(other,P,Q)"]}
{"id": "C05", "title": "Dynamic tree keeps exactly the registered objects", "statement": "After any history of registerObject(s), unregisterObject (of registered objects), update, update(obj), update(objs), setup and clear on a dynamic AABB tree manager, getObjects()/size()/empty() describe exactly the objects registered and not unregistered since the last clear, with each object stored once, and no operation loses or duplicates an object.", "quantifier": "all finite operation histories, all object sets and boxes, every rebalancing/insertion heuristic outcome", "why_tests_cant": "History-dependent pointer surgery (insert, remove, rebalance) with unboundedly many shapes of tree.", "anchors": ["include/fcl/broadphase/broadphase_dynamic_AABB_tree-inl.h: registerObject(s), unregisterObject, update*, setup, clear, getObjects, size", "include/fcl/broadphase/detail/hierarchy_tree-inl.h: insert, remove, insertLeaf, removeLeaf"]}
{"id": "C06", "title": "Dynamic tree boxes always enclose their subtrees", "statement": "In every reachable state of the dynamic AABB tree, the box of each internal node contains the boxes of all leaves below it (so pruning on it is safe), and this survives insert, remove, update with or without velocity/margin, refit, incremental, top-down and bottom-up rebalancing.", "quantifier": "all operation histories and tree shapes", "why_tests_cant": "A missed ancestor refit shows only for particular shapes and move sequences.", "anchors": ["include/fcl/broadphase/detail/hierarchy_tree-inl.h: insertLeaf, removeLeaf, update, refit, balanceTopdown, balanceBottomup, balanceIncremental"]}
{"id": "C07", "title": "Dynamic tree single-object collide is complete and not redundant", "statement": "collide(obj,...) on a set-up dynamic tree manager invokes the callback with every registered object whose stored box overlaps the query box, at most once each, with nobody else, in an order fixed by the tree, until the callback returns true; once it returns true the callback is not called again.", "quantifier": "all trees, all query boxes, all callbacks (arbitrary stateful, arbitrary stopping behaviour)", "why_tests_cant": "Completeness quantifies over all trees and boxes; early stop interacts with arbitrary callback state.", "anchors": ["include/fcl/broadphase/broadphase_dynamic_AABB_tree-inl.h: collide(obj), collisionRecurse(root,query)"]}
{"id": "C08", "title": "Dynamic tree self-collide visits each overlapping pair exactly once", "statement": "collide(cdata,callback) calls the callback exactly once for each unordered pair of distinct registered objects whose boxes overlap (never for an object with itself), as long as the callback returns false, and stops at the first true.", "quantifier": "all trees, all callbacks", "why_tests_cant": "Combination of self recursion and pair recursion over arbitrary shapes.", "anchors": ["include/fcl/broadphase/broadphase_dynamic_AABB_tree-inl.h: collide(), selfCollisionRecurse, collisionRecurse(root1,root2)"]}
{"id": "C09", "title": "Dynamic tree manager-manager collide visits each overlapping cross pair exactly once", "statement": "m1.collide(m2,...) calls the callback exactly once for each pair (x in m1, y in m2) with overlapping boxes, passing x first, until the callback returns true.", "quantifier": "all pairs of trees, all callbacks, every descent heuristic", "why_tests_cant": "Simultaneous descent of two unbounded trees.", "anchors": ["include/fcl/broadphase/broadphase_dynamic_AABB_tree-inl.h: collide(other_manager), collisionRecurse(root1,root2)"]}
{"id": "C10", "title": "Dynamic tree distance queries return the global minimum", "statement": "If the user's callback lowers dist to min(dist, d(x,y)) and d(x,y) is never smaller than the distance between the boxes of x and y, then after distance(obj), distance() or distance(other) the final value is the minimum over all pairs of the query (capped by the initial value), despite pruning.", "quantifier": "all trees, all exact pair distances bounded below by box distance, any order of siblings", "why_tests_cant": "Branch-and-bound pruning is wrong only on configurations where a pruned subtree held the minimum.", "anchors": ["include/fcl/broadphase/broadphase_dynamic_AABB_tree-inl.h: distanceRecurse, selfDistanceRecurse, distance"]}
{"id": "C11", "title": "Tree rebuilding terminates and keeps the leaf set", "statement": "Every bulk construction (init levels 0-3, top-down policies, bottom-up, Morton recursion) terminates on every non-empty collection of leaves and yields a tree with exactly the same leaves and enclosing internal boxes.", "quantifier": "all finite leaf collections including coincident boxes, all thresholds", "why_tests_cant": "Termination on degenerate inputs (coincident centres) is not observable by a finite test.", "anchors": ["include/fcl/broadphase/detail/hierarchy_tree-inl.h: topdown_0, topdown_1, bottomup, init_0..init_3, mortonRecurse_0..2"]}
{"id": "C12", "title": "Brute force manager is the reference semantics", "statement": "NaiveCollisionManager keeps exactly the registered objects; its self-collide and manager-manager collide call back exactly the overlapping pairs once each until stopped; its distance queries return the minimum over all pairs.", "quantifier": "all object lists and histories, all callbacks", "why_tests_cant": "Loop bounds and order for any list length.", "anchors": ["include/fcl/broadphase/broadphase_bruteforce-inl.h"]}
{"id": "C13", "title": "All broadphase managers agree on single-object collide", "statement": "For every manager (dynamic tree, SSaP, SaP, interval tree, spatial hash, brute force) that is set up, collide(obj) reports at least every registered object whose box overlaps the query box.", "quantifier": "all sets of boxes, all query boxes", "why_tests_cant": "Different algorithms, infinitely many scenes, ties and shared coordinates.", "anchors": ["include/fcl/broadphase/broadphase_SSaP-inl.h: collide_", "include/fcl/broadphase/broadphase_SaP-inl.h: collide_", "include/fcl/broadphase/broadphase_interval_tree-inl.h: collide_", "include/fcl/broadphase/broadphase_spatialhash-inl.h: collide_"]}
{"id": "C14", "title": "SSaP self-collide is exact", "statement": "SSaPCollisionManager::collide(cdata,cb), after setup(), calls back exactly once for each unordered pair of distinct objects with overlapping boxes, whichever axis is selected, until stopped.", "quantifier": "all object multisets, all tie orders produced by sorting", "why_tests_cant": "Sweep with ties over arbitrary length lists.", "anchors": ["include/fcl/broadphase/broadphase_SSaP-inl.h: collide(), checkColl, selectOptimalAxis, setup"]}
{"id": "C15", "title": "Sweep-based distance queries terminate with the minimum", "statement": "distance(obj)/distance() on SSaP, SaP, interval tree and spatial hash managers terminate for every registered set and return the minimum of the pair distances (capped by the initial value), provided the callback is the exact minimum callback.", "quantifier": "all object sets including singletons and coincident objects", "why_tests_cant": "Loop termination depends on the data; a hang is not a finite observation.", "anchors": ["include/fcl/broadphase/broadphase_SSaP-inl.h: distance_", "include/fcl/broadphase/broadphase_SaP-inl.h: distance_", "include/fcl/broadphase/broadphase_interval_tree-inl.h: distance_", "include/fcl/broadphase/broadphase_spatialhash-inl.h: distance_"]}
{"id": "C16", "title": "SaP overlap set equals the true overlap set", "statement": "At every point of a history of registerObject(s), update and unregisterObject, the pairs reported by SaPCollisionManager::collide(cdata,cb) are exactly the pairs of registered objects whose boxes overlap, each once.", "quantifier": "all histories and boxes, including nested boxes and equal endpoints", "why_tests_cant": "Incremental maintenance of a set across histories.", "anchors": ["include/fcl/broadphase/broadphase_SaP-inl.h: registerObject, registerObjects, update_, collide, addToOverlapPairs, removeFromOverlapPairs"]}
{"id": "C17", "title": "SaP size and empty are consistent", "statement": "empty() is true iff size()==0 iff no object is registered.", "quantifier": "all histories", "why_tests_cant": "Needs every reachable state.", "anchors": ["include/fcl/broadphase/broadphase_SaP-inl.h: empty, size"]}
{"id": "C18", "title": "Interval tree query returns exactly the overlapping intervals", "statement": "SimpleIntervalTree::query(low,high) returns exactly the stored intervals that meet [low,high], each once, for any tree reachable by insert and deleteNode.", "quantifier": "all histories of insert/delete, all query intervals", "why_tests_cant": "Stack-driven search with pruning on augmented data over all shapes.", "anchors": ["include/fcl/broadphase/detail/interval_tree-inl.h: query, insert, deleteNode, leftRotate, rightRotate, fixupMaxHigh"]}
{"id": "C19", "title": "Interval tree stays ordered and augmented", "statement": "Every insert and delete keeps the in-order key sequence sorted, the multiset of stored intervals equal to inserted minus deleted, and each node's recorded maximum equal to the largest right end below it.", "quantifier": "all histories", "why_tests_cant": "Rotations and fix-ups over all shapes.", "anchors": ["include/fcl/broadphase/detail/interval_tree-inl.h"]}
{"id": "C20", "title": "Interval tree stays balanced", "statement": "Every reachable SimpleIntervalTree obeys the red-black rules (no red node has a red child, equal black counts), so its height is logarithmic.", "quantifier": "all histories", "why_tests_cant": "Needs all histories.", "anchors": ["include/fcl/broadphase/detail/interval_tree-inl.h: insert, deleteFixup"]}
{"id": "C21", "title": "Interval tree manager self-collide is exact", "statement": "IntervalTreeCollisionManager::collide(cdata,cb) after setup()/update()/update(obj) calls back exactly once per overlapping pair.", "quantifier": "all object sets, all tie orders, all updates", "why_tests_cant": "Ties and histories.", "anchors": ["include/fcl/broadphase/broadphase_interval_tree-inl.h: collide(), update, setup"]}
{"id": "C22", "title": "Interval tree manager unregister removes exactly the given object", "statement": "After unregisterObject(o), the remaining endpoint arrays contain both endpoints of every other object and none of o.", "quantifier": "all object sets and removal orders", "why_tests_cant": "Needs all orders and tie patterns.", "anchors": ["include/fcl/broadphase/broadphase_interval_tree-inl.h: unregisterObject"]}
{"id": "C23", "title": "Spatial hash reports every overlapping pair", "statement": "The spatial hash manager reports every pair/object whose boxes overlap, whether the objects are inside, across or outside the scene limit.", "quantifier": "all boxes, all scene limits, all cell sizes, all table sizes", "why_tests_cant": "Discretisation boundaries, hash collisions and the three-way scene classification.", "anchors": ["include/fcl/broadphase/broadphase_spatialhash-inl.h", "include/fcl/broadphase/detail/spatial_hash-inl.h", "include/fcl/broadphase/detail/simple_hash_table-inl.h"]}
{"id": "C24", "title": "clear() forgets everything", "statement": "After clear() every manager behaves as freshly constructed: later queries never report an object registered before the clear.", "quantifier": "all managers, all histories", "why_tests_cant": "Stale state is visible only after particular histories.", "anchors": ["include/fcl/broadphase/broadphase_spatialhash-inl.h: clear", "include/fcl/broadphase/broadphase_dynamic_AABB_tree-inl.h: clear", "include/fcl/broadphase/broadphase_SSaP-inl.h: clear", "include/fcl/broadphase/broadphase_SaP-inl.h: clear", "include/fcl/broadphase/broadphase_interval_tree-inl.h: clear"]}
{"id": "C25", "title": "Hash tables return exactly what was stored under the queried cells", "statement": "SimpleHashTable/SparseHashTable::query(key) contains every value inserted under a key with a common cell and not removed since; with a collision-free hash, nothing else; each value at most once; remove(key,v) removes v from exactly those cells.", "quantifier": "all histories of init/insert/remove/clear, all hash functions", "why_tests_cant": "Arbitrary hash functions and histories.", "anchors": ["include/fcl/broadphase/detail/simple_hash_table-inl.h", "include/fcl/broadphase/detail/sparse_hash_table-inl.h"]}
{"id": "C26", "title": "Morton codes interleave and preserve order", "statement": "The 30-bit (60-bit) Morton code of quantised coordinates has bit 3i+k equal to bit i of coordinate k, is injective on 10-bit (20-bit) coordinates, and is monotone in each coordinate; two points share the top bits iff they are in the same octree cell.", "quantifier": "all coordinate triples in range", "why_tests_cant": "2^30 / 2^60 inputs; masks and shifts.", "anchors": ["src/broadphase/detail/morton.cpp", "include/fcl/broadphase/detail/morton-inl.h"]}
{"id": "C27", "title": "DistanceResult keeps the minimum", "statement": "After any sequence of update calls, min_distance is the minimum of the initial value and all offered distances, and o1,o2,b1,b2 (and points) come from the first offer attaining it; clear() restores the initial state.", "quantifier": "all sequences of updates", "why_tests_cant": "Unbounded sequences and ties.", "anchors": ["include/fcl/narrowphase/distance_result-inl.h: update, clear"]}
{"id": "C28", "title": "Cost sources keep the best k", "statement": "After any sequence of addCostSource(c,k), the result holds the min(k, number of distinct) most expensive distinct sources offered, and isCollision()/numContacts() reflect exactly the contacts added.", "quantifier": "all sequences, all k", "why_tests_cant": "Ordering ties and eviction over unbounded sequences.", "anchors": ["include/fcl/narrowphase/collision_result-inl.h: addCostSource, addContact", "include/fcl/narrowphase/cost_source-inl.h: operator<"]}
{"id": "C29", "title": "Default callbacks stop only when the answer is settled", "statement": "Driving any manager with DefaultCollisionFunction / DefaultDistanceFunction, early termination never changes whether a collision is found, never yields fewer contacts than requested when more exist, and the final min_distance is non-positive or the true minimum over the visited pairs; after done, further calls do nothing.", "quantifier": "all pair sequences, all requests, all narrowphase outcomes", "why_tests_cant": "Interaction of early stop with arbitrary sequences.", "anchors": ["include/fcl/broadphase/default_broadphase_callbacks.h", "include/fcl/narrowphase/collision_request-inl.h: isSatisfied"]}
{"id": "C30", "title": "BVHModel construction protocol rejects out-of-order calls and stays in bounds", "statement": "Along every sequence of beginModel/addVertex/addTriangle/addSubModel/endModel/replace*/update* calls, a call made in the wrong state returns an error and changes nothing, successful calls append exactly the given geometry, and no array access is out of bounds.", "quantifier": "all call sequences with all arguments", "why_tests_cant": "State machine with hidden capacity arithmetic; bad sequences are unbounded.", "anchors": ["include/fcl/geometry/bvh/BVH_model-inl.h: beginModel, addVertex, addTriangle, addSubModel, endModel, begin/end Replace/Update"]}
{"id": "C31", "title": "BVH build is a partition tree", "statement": "endModel() on n>=1 primitives builds a tree with exactly 2n-1 nodes in which every primitive occurs in exactly one leaf, every node covers a contiguous range split among its children, and every node's volume contains all its primitives, for every split rule outcome.", "quantifier": "all primitive counts, all splitter answers, all fitters that enclose", "why_tests_cant": "Recursion over arbitrary n and arbitrary split decisions.", "anchors": ["include/fcl/geometry/bvh/BVH_model-inl.h: buildTree, recursiveBuildTree"]}
{"id": "C32", "title": "BVH refit keeps enclosure", "statement": "After endReplaceModel/endUpdateModel with refit (bottom-up or top-down), every node's volume again contains all primitives below it (current and, for update, previous positions) and the topology is unchanged.", "quantifier": "all models and new vertex positions, all enclosing fitters and merges", "why_tests_cant": "All trees and positions.", "anchors": ["include/fcl/geometry/bvh/BVH_model-inl.h: refitTree_bottomup, refitTree_topdown"]}
{"id": "C33", "title": "BVH collision traversal tests every overlapping leaf pair exactly once", "statement": "collisionRecurse calls the leaf test exactly once for every pair of leaves whose own and ancestor volumes are not reported disjoint, with no other pair, and stops early only when the node says it can stop (and no front list is in use).", "quantifier": "all pairs of hierarchies, all descent rules, all stopping rules", "why_tests_cant": "All tree pairs.", "anchors": ["include/fcl/narrowphase/detail/traversal/traversal_recurse-inl.h: collisionRecurse"]}
{"id": "C34", "title": "BVH self-collision tests every unordered pair of distinct leaves at most once", "statement": "selfCollisionRecurse tests each unordered pair of distinct leaves whose ancestors are not disjoint exactly once and never a leaf with itself.", "quantifier": "all hierarchies", "why_tests_cant": "All trees.", "anchors": ["include/fcl/narrowphase/detail/traversal/traversal_recurse-inl.h: selfCollisionRecurse"]}
{"id": "C35", "title": "BVH distance traversal returns the minimum within the requested error", "statement": "distanceRecurse and distanceQueueRecurse (any queue size > 2) end with a distance d such that the true minimum m satisfies m <= d and d is within the requested absolute/relative tolerance of m (equal to m when both are zero), and both terminate.", "quantifier": "all hierarchies, lower-bound-sound volume distances, all queue sizes, all tolerances", "why_tests_cant": "Branch-and-bound over all trees and priority orders.", "anchors": ["include/fcl/narrowphase/detail/traversal/traversal_recurse-inl.h: distanceRecurse, distanceQueueRecurse", "include/fcl/narrowphase/detail/traversal/distance/mesh_distance_traversal_node-inl.h: canStop"]}
{"id": "C36", "title": "Front lists preserve completeness", "statement": "Re-running a collision with the front list produced by an earlier run tests every leaf pair that currently overlaps, and the updated list is again a valid front.", "quantifier": "all hierarchies, all pairs of successive configurations", "why_tests_cant": "Histories of configurations.", "anchors": ["include/fcl/narrowphase/detail/traversal/traversal_recurse-inl.h: propagateBVHFrontListCollisionRecurse", "include/fcl/geometry/bvh/detail/BVH_front.h"]}
{"id": "C37", "title": "Interval arithmetic is inclusion-sound", "statement": "For x in I and y in J: x+y in I+J, x-y in I-J, x*y in I*J, -x in -I, x/y in I/J when 0 is not in J; intersect is set intersection; bound is the smallest interval containing both; getAbsLower/getAbsUpper are the smallest/largest |x|.", "quantifier": "all intervals and members", "why_tests_cant": "Sign case analysis over infinitely many endpoints.", "anchors": ["include/fcl/math/motion/taylor_model/interval-inl.h"]}
{"id": "C38", "title": "Taylor model arithmetic encloses", "statement": "If f(t) is enclosed by model A and g(t) by model B for all t in the time interval then f+g, f-g, f*g, c*f, -f are enclosed by A+B, A-B, A*B, c*A, -A; getBound and getTightBound contain every value f(t).", "quantifier": "all models, functions, times in the interval", "why_tests_cant": "Functions over a continuum.", "anchors": ["include/fcl/math/motion/taylor_model/taylor_model-inl.h", "include/fcl/math/motion/taylor_model/time_interval-inl.h"]}
{"id": "C39", "title": "Taylor models of sine and cosine enclose the functions", "statement": "generateTaylorModelForSinFunc/CosFunc(tm,w,q0) yields a model enclosing sin(w t+q0) / cos(w t+q0) for all t in the time interval.", "quantifier": "all w, q0, time intervals and t", "why_tests_cant": "Continuum; sign pattern of the fourth derivative.", "anchors": ["include/fcl/math/motion/taylor_model/taylor_model-inl.h: generateTaylorModelForCosFunc, generateTaylorModelForSinFunc"]}
{"id": "C40", "title": "Sphere-sphere queries are exact", "statement": "sphereSphereIntersect returns true iff the balls share a point and reports depth r1+r2-|c1-c2|; sphereSphereDistance returns the exact positive distance with points on the two spheres realising it when they are separated, and false otherwise.", "quantifier": "all centres and non-negative radii", "why_tests_cant": "Continuum.", "anchors": ["include/fcl/narrowphase/detail/primitive_shape_algorithm/sphere_sphere-inl.h"]}
{"id": "C41", "title": "Sphere-capsule queries are exact", "statement": "sphereCapsuleIntersect returns true iff the ball and capsule share a point; sphereCapsuleDistance returns the exact distance and witness points when separated; reported contact points lie in both shapes.", "quantifier": "all poses, radii and lengths", "why_tests_cant": "Continuum.", "anchors": ["include/fcl/narrowphase/detail/primitive_shape_algorithm/sphere_capsule-inl.h"]}
{"id": "C42", "title": "Sphere-box queries are exact", "statement": "sphereBoxIntersect returns true iff ball and box share a point; the reported normal and depth separate the shapes and the depth is the penetration depth up to the documented tolerance; sphereBoxDistance returns the exact distance and witness points when separated.", "quantifier": "all poses and sizes, all tolerances", "why_tests_cant": "Continuum.", "anchors": ["include/fcl/narrowphase/detail/primitive_shape_algorithm/sphere_box-inl.h"]}
{"id": "C43", "title": "Shape bounding boxes enclose the shape", "statement": "computeBV<AABB> of a transformed box, sphere, capsule, cylinder, cone, ellipsoid, triangle or convex, and of axis-aligned half-space/plane, contains every point of the transformed shape.", "quantifier": "all rigid transforms, all shape parameters, all points of the shape", "why_tests_cant": "Continuum of points and rotations; broadphase correctness rests on it.", "anchors": ["include/fcl/geometry/shape/utility-inl.h: ComputeBVImpl"]}
{"id": "C44", "title": "k-DOP operations are conservative", "statement": "KDOP containment, merge and point insertion enclose their arguments; KDOP::overlap never returns false when the two k-DOPs share a point; translate moves the enclosed set exactly; for k = 16, 18, 24.", "quantifier": "all point sets and k-DOPs", "why_tests_cant": "Continuum; index arithmetic differs per k.", "anchors": ["include/fcl/math/bv/kDOP-inl.h"]}
{"id": "C45", "title": "OBB disjointness test is sound", "statement": "If obbDisjoint reports disjoint, the two oriented boxes share no point.", "quantifier": "all rotations, translations and non-negative extents", "why_tests_cant": "Fifteen axes over a continuum of rotations; a wrong sign misses real collisions.", "anchors": ["include/fcl/math/bv/OBB-inl.h: obbDisjoint, overlap"]}
{"id": "C46", "title": "OBB merge encloses both operands", "statement": "For OBBs b1,b2, every point of b1 and of b2 is contained in b1 + b2.", "quantifier": "all pairs of OBBs", "why_tests_cant": "Continuum of orientations.", "anchors": ["include/fcl/math/bv/OBB-inl.h: operator+, merge_smalldist, merge_largedist, computeVertices"]}
{"id": "C47", "title": "Collision dispatch is symmetric and total on supported pairs", "statement": "collide(o1,o2) with num_max_contacts=0 or an unsupported pair returns 0 and leaves the result unchanged; geometry-vs-mesh is dispatched to the mesh-vs-geometry routine with arguments swapped consistently (geometry with its own transform).", "quantifier": "all object kinds and transforms", "why_tests_cant": "Combinatorial table.", "anchors": ["include/fcl/narrowphase/collision-inl.h: collide", "include/fcl/narrowphase/distance-inl.h: distance", "include/fcl/narrowphase/detail/collision_func_matrix-inl.h"]}
{"id": "C48", "title": "distance() result and return value agree", "statement": "The value returned by distance() equals result.min_distance when a finite distance was computed, including signed distance mode; in signed mode the magnitude is the maximum penetration depth over the contacts.", "quantifier": "all geometry pairs, requests and narrowphase outcomes", "why_tests_cant": "Depends on every path through the fallback.", "anchors": ["include/fcl/narrowphase/distance-inl.h: distance"]}
{"id": "C49", "title": "Octree child cells tile the parent", "statement": "The eight computeChildBV boxes of a cell cover it, lie inside it, and have disjoint interiors; node occupancy classification is a partition when thresholds are ordered.", "quantifier": "all cells and child indices", "why_tests_cant": "Continuum of points.", "anchors": ["include/fcl/geometry/octree/octree-inl.h: computeChildBV, isNodeOccupied, isNodeFree, isNodeUncertain"]}
{"id": "C50", "title": "Support functions return extreme points", "statement": "The support point returned for box, sphere, ellipsoid, capsule, cone, cylinder, triangle, convex in any direction belongs to the shape and maximises the dot product with the direction over the shape; the Minkowski difference support is the difference of supports.", "quantifier": "all directions and parameters", "why_tests_cant": "Continuum; GJK soundness rests on it.", "anchors": ["include/fcl/narrowphase/detail/convexity_based_algorithm/minkowski_diff-inl.h: getSupport"]}
{"id": "C51", "title": "Convex extreme vertex walk finds the global maximum", "statement": "Convex::findExtremeVertex returns a vertex maximising the dot product with the direction, whether by linear scan or by neighbour walk, provided local maxima of the mesh graph are global, and terminates.", "quantifier": "all meshes, all directions", "why_tests_cant": "Graph walk over arbitrary meshes.", "anchors": ["include/fcl/geometry/shape/convex-inl.h: findExtremeVertex"]}
{"id": "C52", "title": "Polynomial solver returns exactly the real roots", "statement": "solveLinear/solveQuadric/solveCubic return values that satisfy the equation and include every real root.", "quantifier": "all coefficients", "why_tests_cant": "Continuum and case splits.", "anchors": ["include/fcl/math/detail/polysolver-inl.h"]}
{"id": "C53", "title": "update(obj) makes the stored box cover the object", "statement": "After update(obj) on the dynamic tree manager, the stored box covers the object's current box, so later queries miss no overlap with it.", "quantifier": "all histories, all boxes and tolerances", "why_tests_cant": "The box comparison is approximate; failure needs particular magnitudes.", "anchors": ["include/fcl/broadphase/broadphase_dynamic_AABB_tree-inl.h: update_", "include/fcl/math/bv/AABB-inl.h: equal", "include/fcl/broadphase/detail/hierarchy_tree-inl.h: update"]}
{"id": "C54", "title": "SSaP manager holds exactly the registered objects", "statement": "After any history, getObjects() of the SSaP manager lists exactly the registered objects, each once, and size()/empty() agree; unregisterObject removes the object.", "quantifier": "all histories, all boxes, all sort tie orders", "why_tests_cant": "unregisterObject searches a sorted range; failure depends on history and boxes.", "anchors": ["include/fcl/broadphase/broadphase_SSaP-inl.h: registerObject, unregisterObject, setup, update, clear"]}
{"id": "C55", "title": "SSaP manager-manager collide is exact", "statement": "collide(other) on two set-up SSaP managers calls back each pair of different objects with overlapping boxes exactly once.", "quantifier": "all pairs of histories, all boxes", "why_tests_cant": "Size dependent argument order, candidate axis choice, ties.", "anchors": ["include/fcl/broadphase/broadphase_SSaP-inl.h: collide(other_manager), collide_"]}
{"id": "C56", "title": "Whole broadphase queries with the default callbacks give the right answer", "statement": "For any history of manager calls, collide with DefaultCollisionFunction reports a collision exactly when some pair of managed objects (or managed and query object) collides, provided colliding objects have overlapping boxes; distance with DefaultDistanceFunction records exactly the smallest distance; the managers agree on the answer for the same scene.", "quantifier": "all histories, scenes, heuristics, requests and narrowphase outcomes", "why_tests_cant": "Combines arbitrary histories, pruning and early stop.", "anchors": ["include/fcl/broadphase/default_broadphase_callbacks.h", "include/fcl/broadphase/broadphase_dynamic_AABB_tree-inl.h", "include/fcl/broadphase/broadphase_SSaP-inl.h", "include/fcl/broadphase/broadphase_bruteforce-inl.h"]}
{"id": "C57", "title": "Spatial hash manager contents", "statement": "After any history of correct calls on a spatial hash manager no call has failed, getObjects() lists exactly the registered objects, each once, and size() and empty() agree.", "quantifier": "all scene limits, cell sizes, table sizes, histories of register/unregister/update/clear calls, all object motions", "why_tests_cant": "histories are unbounded and placement depends on real-valued boxes", "anchors": ["include/fcl/broadphase/broadphase_spatialhash-inl.h: registerObject, unregisterObject, update, clear, getObjects, size, empty"]}
{"id": "C58", "title": "Interval vectors and matrices are inclusion-sound", "statement": "For members of interval vectors and matrices, every operation (sum, difference, dot, cross, matrix product, matrix times vector) contains the result on the members; overlap answers whether there is a common member, contain whether every member of the other is a member, bound is the smallest box containing both; getLow/getHigh of vectors, rows, columns and matrices are the lower and upper ends; rotationConstrain keeps exactly the members with entries in [-1,1].", "quantifier": "all interval vectors and matrices, all members", "why_tests_cant": "Sign case analysis over infinitely many endpoints.", "anchors": ["include/fcl/math/motion/taylor_model/interval_vector-inl.h", "include/fcl/math/motion/taylor_model/interval_matrix-inl.h"]}
{"id": "C59", "title": "Vectors and matrices of Taylor models enclose", "statement": "If vectors/matrices of Taylor models enclose functions of time componentwise, then sums, differences, negation, scalar multiples, dot, cross and matrix products enclose the corresponding functions; the bounds contain every value; rotationConstrain keeps enclosing every rotation; matrix times scalar model encloses the product.", "quantifier": "all models, functions, times in the interval", "why_tests_cant": "Functions over a continuum.", "anchors": ["include/fcl/math/motion/taylor_model/taylor_vector-inl.h", "include/fcl/math/motion/taylor_model/taylor_matrix-inl.h"]}
{"id": "C60", "title": "A shape and a mesh can be advanced in either order", "statement": "Conservative advancement between a shape given first and a mesh given second ends: the distance traversal it runs for each step terminates.", "quantifier": "all shapes, all meshes with at least one triangle, all poses and motions", "why_tests_cant": "A test that hits the case does not finish; only an argument over every number of steps shows that it never ends, and for which inputs.", "anchors": ["include/fcl/narrowphase/detail/traversal/distance/shape_bvh_distance_traversal_node.h:ShapeBVHDistanceTraversalNode", "include/fcl/narrowphase/detail/traversal/traversal_recurse-inl.h:distanceRecurse", "include/fcl/narrowphase/detail/conservative_advancement_func_matrix-inl.h"]}
{"id": "C61", "title": "Mesh-mesh collision finds exactly the colliding meshes", "statement": "collide() on two triangle meshes (AABB or k-DOP hierarchies, transforms already applied) ends and reports only pairs of triangles that the triangle test reports, at most num_max_contacts; when fewer are reported, every intersecting pair is among them; with an exact triangle test it reports a collision iff the meshes have a common point. The same after the vertices are replaced or updated with refit.", "quantifier": "all meshes, all splitters, all descent rules, all requests, all triangle tests", "why_tests_cant": "Composition of build, refit and traversal over unbounded meshes and tree shapes.", "anchors": ["include/fcl/narrowphase/detail/traversal/collision/mesh_collision_traversal_node-inl.h: leafTesting, canStop", "include/fcl/geometry/bvh/BVH_model-inl.h: buildTree", "include/fcl/narrowphase/detail/traversal/traversal_recurse-inl.h: collisionRecurse"]}
{"id": "C62", "title": "The box of a collision object encloses its geometry", "statement": "After construction or computeAABB(), CollisionObject::getAABB() contains every point of the object's geometry (shape or mesh) at the object's transform; the stored local box and centre/radius ball enclose the geometry in its own frame.", "quantifier": "all shapes and meshes, all rigid transforms, all points of the geometry", "why_tests_cant": "a finite set of poses never covers all rotations; the enclosure fails only for rotations that are nearly the identity", "anchors": ["include/fcl/narrowphase/collision_object-inl.h:CollisionObject::computeAABB", "include/fcl/geometry/shape/box-inl.h:computeLocalAABB", "include/fcl/geometry/bvh/BVH_model-inl.h:computeLocalAABB"]}
{"id": "C63", "title": "Sphere-cylinder queries are exact", "statement": "sphereCylinderIntersect returns true iff ball and cylinder share a point; moving along the reported normal by the reported depth separates them and no shorter motion does, up to the documented tolerance; sphereCylinderDistance returns the exact distance and witness points when separated.", "quantifier": "all poses and sizes, all tolerances", "why_tests_cant": "Continuum of poses; the branches meet on surfaces of measure zero that sampled tests miss.", "anchors": ["include/fcl/narrowphase/detail/primitive_shape_algorithm/sphere_cylinder-inl.h:sphereCylinderIntersect", "include/fcl/narrowphase/detail/primitive_shape_algorithm/sphere_cylinder-inl.h:sphereCylinderDistance"]}
{"id": "C64", "title": "Capsule-capsule signed distance is exact", "statement": "capsuleCapsuleDistance reports the distance of two capsules when they are apart and minus the penetration depth when they overlap, with one point of each capsule that realises it.", "quantifier": "all poses, radii and lengths", "why_tests_cant": "Continuum of poses; the segment-segment minimisation has nine clamping cases.", "anchors": ["include/fcl/narrowphase/detail/primitive_shape_algorithm/capsule_capsule-inl.h:capsuleCapsuleDistance", "include/fcl/narrowphase/detail/primitive_shape_algorithm/capsule_capsule-inl.h:closestPtSegmentSegment"]}
{"id": "C65", "title": "Fitting an oriented box encloses the points", "statement": "fit(ps, n, box) for an OBB, and the fitting of the nodes of an OBB hierarchy, return a box with orthonormal directions that contains every given point.", "quantifier": "all point lists", "why_tests_cant": "A continuum of point sets; degenerate sets (coincident, collinear) are rare in tests.", "anchors": ["include/fcl/math/bv/utility-inl.h: OBB_fit_functions, Fitter<S, OBB<S>>", "include/fcl/geometry/bvh/detail/BV_fitter-inl.h: FitImpl<S, OBB<S>>", "include/fcl/math/geometry-inl.h: eigen_old, axisFromEigen, getCovariance, getExtentAndCenter, generateCoordinateSystem"]}
{"id": "C66", "title": "Collision of two OBB meshes at arbitrary poses is decided by their triangles", "statement": "For two triangle meshes built with oriented bounding boxes and placed at any two rigid poses, collide() ends, reports only pairs of triangles the triangle test reports, never more than num_max_contacts, and when it reports fewer it reports every touching pair the test reports. With an exact triangle test it finds a collision if and only if the placed meshes have a point in common, whatever split method built the hierarchies, and also after a top-down refit.", "quantifier": "all meshes, poses, split rules, descent rules, requests and triangle tests", "why_tests_cant": "The result depends on every box of two unbounded hierarchies at a continuum of relative poses; one box that is too small or one wrong sign in the relative pose loses contacts only for some meshes and poses.", "anchors": ["include/fcl/narrowphase/detail/collision_func_matrix-inl.h orientedMeshCollide", "include/fcl/narrowphase/detail/traversal/collision/mesh_collision_traversal_node-inl.h meshCollisionOrientedNodeLeafTesting, setupMeshCollisionOrientedNode", "include/fcl/math/geometry-inl.h relativeTransform", "include/fcl/geometry/bvh/detail/BV_fitter-inl.h FitImpl<S, OBB<S>>"]}
{"id": "C67", "title": "Interval tree manager-manager collision calls back each pair once", "statement": "IntervalTreeCollisionManager::collide(other_manager, cdata, callback) on two set-up managers calls back every pair of overlapping boxes of the two managers exactly once.", "quantifier": "all pairs of managers and object sets", "why_tests_cant": "How often a pair comes up depends on the data structure of the other manager, for every pair of sets.", "anchors": ["include/fcl/broadphase/broadphase_interval_tree-inl.h: collide(other_manager)"]}
{"id": "C68", "title": "Interval tree manager lists exactly the registered objects", "statement": "After any sequence of registerObject(s), unregisterObject, setup, update, update(obj), clear, getObjects() returns every registered object once and nothing else, and size() and empty() agree with it.", "quantifier": "all histories", "why_tests_cant": "Needs all histories of operations and all orders of end points.", "anchors": ["include/fcl/broadphase/broadphase_interval_tree-inl.h: getObjects, size, empty, unregisterObject"]}
{"id": "C69", "title": "Collision with a half-space is exact", "statement": "collide() of a sphere, ellipsoid, box, capsule, cylinder, cone, convex or triangle with a half-space reports a collision exactly if the sets intersect; a requested contact has the penetration depth, a normal along which the half-space must be moved by that depth to separate the two, and a point half way out from the deepest point of the shape.", "quantifier": "all shapes, sizes, half-spaces and poses", "why_tests_cant": "Real-valued sizes and poses; needs a bound over every point of the shape.", "anchors": ["include/fcl/narrowphase/detail/primitive_shape_algorithm/halfspace-inl.h: sphereHalfspaceIntersect, ellipsoidHalfspaceIntersect, boxHalfspaceIntersect, capsuleHalfspaceIntersect, cylinderHalfspaceIntersect, coneHalfspaceIntersect, convexHalfspaceIntersect, halfspaceTriangleIntersect"]}
{"id": "C70", "title": "Collision with a plane is exact", "statement": "collide() of a sphere, ellipsoid, box, capsule, cylinder, cone or triangle with a plane reports a collision exactly if the sets intersect; a requested contact lies on the plane, has the penetration depth and a normal along which the plane must be moved by that depth to separate the two.", "quantifier": "all shapes, sizes, planes and poses", "why_tests_cant": "Real-valued sizes and poses; wrong answers sit on sets of measure zero and within tolerances.", "anchors": ["include/fcl/narrowphase/detail/primitive_shape_algorithm/plane-inl.h: spherePlaneIntersect, ellipsoidPlaneIntersect, boxPlaneIntersect, capsulePlaneIntersect, cylinderPlaneIntersect, conePlaneIntersect, planeTriangleIntersect"]}
{"id": "C71", "title": "Collision of two unbounded flat shapes is exact", "statement": "collide() of two planes, a plane and a half-space, or two half-spaces reports a collision exactly if the sets intersect; a line that is returned is where the boundaries meet.", "quantifier": "all normals, offsets and poses", "why_tests_cant": "Real-valued; parallel and opposite normals have measure zero.", "anchors": ["include/fcl/narrowphase/detail/primitive_shape_algorithm/halfspace-inl.h: planeHalfspaceIntersect, halfspacePlaneIntersect, halfspaceIntersect", "include/fcl/narrowphase/detail/primitive_shape_algorithm/plane-inl.h: planeIntersect"]}
{"id": "C72", "title": "Asking for contacts does not change the answer", "statement": "The answer of the collision test of a shape with a half-space or plane is the same whether or not contacts are requested.", "quantifier": "all shapes, sizes, half-spaces, planes, poses and contact lists", "why_tests_cant": "The two answers come from different code for boxes, capsules, cylinders and convex sets; must agree for all inputs.", "anchors": ["include/fcl/narrowphase/detail/primitive_shape_algorithm/halfspace-inl.h: boxHalfspaceIntersect, convexHalfspaceIntersect", "include/fcl/narrowphase/detail/primitive_shape_algorithm/plane-inl.h: capsulePlaneIntersect, cylinderPlaneIntersect"]}
{"id": "C73", "title": "Projection on a simplex", "statement": "For every point and every segment, triangle or tetrahedron that is not degenerate, the projection gives convex weights, the point of the simplex nearest to the given point, the square of its distance and a code that names the vertices it depends on; for a degenerate simplex it says that there is no answer.", "quantifier": "all points and all simplices with one to four vertices", "why_tests_cant": "the regions around a simplex and the degenerate cases are too many to sample, and the result is used in every round of GJK", "anchors": ["include/fcl/math/detail/project-inl.h: Project::projectLine, projectTriangle, projectTetrahedra, projectLineOrigin, projectTriangleOrigin, projectTetrahedraOrigin"]}
{"id": "C74", "title": "Distances by GJK are those of points of the shapes", "statement": "When the distance query of fcl's own solver says two bounded convex shapes are apart, it gives a point of each of them and their distance, which is at least the tolerance, so it never reports less than the true distance. When it or the intersection query says they collide, the shapes are closer than the tolerance or the limit of the iterations was reached.", "quantifier": "all bounded convex shapes, poses, tolerances, limits of the iterations and cached guesses", "why_tests_cant": "the search runs through any number of simplices, depending on all of the geometry", "anchors": ["include/fcl/narrowphase/detail/convexity_based_algorithm/gjk-inl.h: GJK::evaluate", "include/fcl/narrowphase/detail/gjk_solver_indep-inl.h: ShapeDistanceIndepImpl, ShapeIntersectIndepImpl, ShapeTransformedTriangleIntersectIndepImpl"]}
{"id": "C75", "title": "Distances by GJK are accurate", "statement": "When the distance query of fcl's own solver says two bounded convex shapes are apart, the distance it reports exceeds the true one by no more than the tolerance; in particular shapes that overlap are never said to be apart.", "quantifier": "all bounded convex shapes, poses, tolerances, limits of the iterations and cached guesses", "why_tests_cant": "an early end of the search happens for rare relative positions only", "anchors": ["include/fcl/narrowphase/detail/convexity_based_algorithm/gjk-inl.h: GJK::evaluate", "include/fcl/narrowphase/detail/gjk_solver_indep-inl.h: ShapeDistanceIndepImpl, ShapeIntersectIndepImpl"]}
{"id": "C76", "title": "Shape queries do not depend on the world frame", "statement": "Moving both shapes by the same rigid motion changes neither the answer nor the distance or depth, and moves the points, contacts and normals of the result with the shapes.", "quantifier": "all shapes, pairs of poses and rigid motions", "why_tests_cant": "a relation between the results for infinitely many pairs of scenes", "anchors": ["include/fcl/narrowphase/detail/gjk_solver_indep-inl.h: ShapeDistanceIndepImpl, ShapeIntersectIndepImpl"]}
{"id": "C77", "title": "Shape and triangle in the world frame", "statement": "The distance query of a shape at a pose and a triangle given in world coordinates reports a point of the shape and a point of the triangle, in world coordinates, and their distance; the collision query reports its normal in the same direction as the query for two shapes.", "quantifier": "all bounded convex shapes, poses, triangles and settings", "why_tests_cant": "the frames agree for every pose that tests tend to use", "anchors": ["include/fcl/narrowphase/detail/gjk_solver_indep-inl.h: ShapeTriangleDistanceIndepImpl, ShapeTriangleIntersectIndepImpl, ShapeTransformedTriangleIntersectIndepImpl"]}
{"id": "C78", "title": "The default solver denies separation only on contact", "statement": "When the distance query of the default solver for two convex shapes answers false, the shapes have a common point.", "quantifier": "all bounded convex shapes, poses, tolerances and iteration limits", "why_tests_cant": "a search over unboundedly many configurations of simplices, with thresholds that tests do not meet", "anchors": ["include/fcl/narrowphase/detail/gjk_solver_libccd-inl.h: ShapeDistanceLibccdImpl", "include/fcl/narrowphase/detail/convexity_based_algorithm/gjk_libccd-inl.h: GJKDistance, ccdGJKDist2, _ccdDist, __ccdGJK, extractClosestPoints"]}
{"id": "C79", "title": "Distance and points of the default solver belong to the shapes", "statement": "When the distance query of the default solver answers true, the reported distance is that of a point of the first and a point of the second shape, and the reported points are such points.", "quantifier": "all bounded convex shapes, poses, tolerances and iteration limits", "why_tests_cant": "depends on the last simplex of an unbounded search; wrong points need special positions", "anchors": ["include/fcl/narrowphase/detail/gjk_solver_libccd-inl.h: ShapeDistanceLibccdImpl", "include/fcl/narrowphase/detail/convexity_based_algorithm/gjk_libccd-inl.h: GJKDistance, ccdGJKDist2, _ccdDist, __ccdGJK, extractClosestPoints"]}
{"id": "C80", "title": "The default solver finds the distance and the overlap", "statement": "The distance query of the default solver gives the distance of separated shapes up to the tolerance, and answers false for overlapping shapes.", "quantifier": "all bounded convex shapes, poses, tolerances and iteration limits", "why_tests_cant": "fails for special symmetric positions and for small shapes only", "anchors": ["include/fcl/narrowphase/detail/gjk_solver_libccd-inl.h: ShapeDistanceLibccdImpl", "include/fcl/narrowphase/detail/convexity_based_algorithm/gjk_libccd-inl.h: GJKDistance, ccdGJKDist2, _ccdDist, __ccdGJK, extractClosestPoints"]}
{"id": "C81", "title": "The triangle test is exact, and mesh collision with it", "statement": "Two triangles are reported as intersecting if and only if they have a common point; so collide on two meshes, at any poses, with or without contact information, finds a collision if and only if the meshes have a common point.", "quantifier": "all triangles, all meshes, hierarchies, splitters, poses and requests", "why_tests_cant": "seventeen candidate directions must suffice for every relative position of two triangles, touching and coplanar ones included", "anchors": ["include/fcl/narrowphase/detail/traversal/collision/intersect-inl.h: Intersect::intersect_Triangle, project6", "include/fcl/narrowphase/detail/traversal/collision/mesh_collision_traversal_node-inl.h: leafTesting, meshCollisionOrientedNodeLeafTesting"]}
{"id": "C82", "title": "Contact information of two triangles", "statement": "For two triangles with a common point contact information is reported: at least one contact point, a unit normal and a depth that is not negative; moving the second triangle along the normal by more than the depth leaves no common point; a contact point lies on one triangle and is not further than the depth from the other.", "quantifier": "all pairs of triangles", "why_tests_cant": "depends on which vertices are deepest and on ties within tolerances", "anchors": ["include/fcl/narrowphase/detail/traversal/collision/intersect-inl.h: Intersect::intersect_Triangle, computeDeepestPoints, buildTrianglePlane"]}
{"id": "C83", "title": "Distance of two triangles", "statement": "The distance query of two triangles returns their distance and two nearest points; it returns zero if and only if the triangles touch.", "quantifier": "all pairs of triangles, degenerate, parallel and touching ones included", "why_tests_cant": "the answer is put together from nine pairs of edges and six vertices over faces, with an early exit; whether every relative position is covered cannot be sampled", "anchors": ["include/fcl/narrowphase/detail/primitive_shape_algorithm/triangle_distance-inl.h: TriangleDistance::triDistance, segPoints"]}
{"id": "C84", "title": "Distance of two meshes", "statement": "distance on two meshes at any poses returns the distance of the meshes, two triangles that are that far apart and, if asked for, two points in the world frame that realise it; a result that already holds a smaller distance is left as it is.", "quantifier": "all meshes, hierarchies, splitters, poses, requests and earlier results", "why_tests_cant": "the traversal leaves out pairs of triangles by bounds; the result of a shared query object depends on the history of queries", "anchors": ["include/fcl/narrowphase/detail/distance_func_matrix-inl.h: BVHDistanceImpl, orientedMeshDistance", "include/fcl/narrowphase/detail/traversal/distance/mesh_distance_traversal_node-inl.h: leafTesting, canStop, initialize, distancePreprocessOrientedNode, distancePostprocessOrientedNode", "include/fcl/narrowphase/detail/traversal/collision_node-inl.h: distance"]}
{"id": "C85", "title": "Distance, overlap and containment of rectangle swept spheres", "statement": "The distance of two rectangle swept spheres, one of them at any pose, is never more than the distance of any two of their points, and equals it for some pair; overlap says no only if they have no common point; contain(p) holds exactly for the points inside; the points reported are the nearest points of the rectangles.", "quantifier": "all pairs of volumes, poses and points", "why_tests_cant": "sixteen pairs of sides and a fallback on the normals: a branch that returns too much prunes a pair of meshes that touch, for some relative position out of a continuum", "anchors": ["include/fcl/math/bv/RSS-inl.h: rectDistance, clipToRange, segCoords, inVoronoi, RSS::overlap, RSS::distance, RSS::contain, RSS::operator +=", "include/fcl/math/bv/RSS-inl.h: overlap(R0, T0, b1, b2), distance(R0, T0, b1, b2)"]}
{"id": "C86", "title": "Fitting and merging rectangle swept spheres", "statement": "fit of any points gives a volume that contains all of them; the sum of two volumes contains both; translate moves every point; center is the middle and setToFromCenter puts it where told.", "quantifier": "all lists of points, all pairs of volumes", "why_tests_cant": "the radius and rectangle come from slabs, circular fillets and corner corrections chosen by comparisons on the data; a bad position needs a point in a corner zone of the fitted rectangle", "anchors": ["include/fcl/math/bv/utility-inl.h: RSS_fit_functions, Fitter<S, RSS<S>>", "include/fcl/math/geometry-inl.h: getRadiusAndOriginAndRectangleSize", "include/fcl/math/bv/RSS-inl.h: RSS::operator +, translate, center, setToFromCenter"]}
{"id": "C87", "title": "Intersections of spheres and a box enclose what they were fitted to", "statement": "fit of any points gives a kIOS that contains all of them; two kIOS with a common point overlap at every relative pose; their distance is never more than the distance of two of their points; contain says yes exactly of the points of the volume; += and + give a volume containing both operands; translate moves every point.", "quantifier": "all lists of points within the range of numbers, all pairs of well-formed volumes, all rigid poses", "why_tests_cant": "the number and place of the spheres depend on ratios of the box, and each sphere must contain every point although its radius is computed from the farthest point or the circumscribed circle", "anchors": ["include/fcl/math/bv/kIOS-inl.h: kIOS, overlap, distance, translate", "include/fcl/math/bv/utility-inl.h: kIOS_fit_functions, Fitter<S, kIOS<S>>", "include/fcl/math/geometry-inl.h: maximumDistance, circumCircleComputation", "include/fcl/geometry/bvh/detail/BV_fitter-inl.h: FitImpl<S, kIOS<S>>"]}
{"id": "C88", "title": "Mesh queries give the same exact answers whatever bounding volume the meshes are built with", "statement": "For meshes built with OBB, OBBRSS, kIOS or RSS volumes, at every pair of rigid poses, collide finds a collision exactly when the two meshes at their poses have a common point, reports only touching pairs of triangles and all of them unless limited, and distance returns their distance with two triangles and two points at that distance.", "quantifier": "all pairs of triangle meshes, poses, requests, splitters and previous contents of the arrays", "why_tests_cant": "a volume that misses one vertex of one triangle, or a lower bound that is too high at one relative orientation, silently loses a contact", "anchors": ["include/fcl/narrowphase/detail/collision_func_matrix-inl.h: BVHCollideImpl, orientedMeshCollide", "include/fcl/narrowphase/detail/distance_func_matrix-inl.h: BVHDistanceImpl, orientedMeshDistance", "include/fcl/geometry/bvh/detail/BV_fitter-inl.h: FitImpl", "include/fcl/math/bv/OBBRSS-inl.h: OBBRSS"]}
{"id": "C89", "title": "The bounding volume computed for a shape at a pose encloses the shape", "statement": "computeBV(shape, tf, bv) makes bv, whether an OBB, an RSS, an OBBRSS, a kIOS or a k-DOP, enclose every point of the shape placed at tf; for half-spaces and planes, every point with representable coordinates.", "quantifier": "all shapes (box, sphere, capsule, cylinder, cone, ellipsoid, triangle, convex, half-space, plane), all sizes and all rigid poses", "why_tests_cant": "a volume that is too small shows only when the part of the shape outside it is what another object touches; polyhedral bounds of round shapes are exact only up to a proof about all directions", "anchors": ["include/fcl/geometry/shape/utility-inl.h: computeBV, ComputeBVImpl", "include/fcl/geometry/shape/sphere-inl.h: getBoundVertices", "include/fcl/geometry/shape/capsule-inl.h: getBoundVertices", "include/fcl/geometry/shape/cone-inl.h: getBoundVertices", "include/fcl/geometry/shape/cylinder-inl.h: getBoundVertices", "include/fcl/geometry/shape/ellipsoid-inl.h: getBoundVertices", "include/fcl/math/bv/utility-inl.h: fit"]}
{"id": "C90", "title": "A volume converted to another type, or made into a box, encloses the original", "statement": "convertBV(bv1, tf1, bv2) makes bv2 enclose every point of bv1 moved by tf1, and constructBox(bv, tf_bv, box, tf) makes a box that, at tf, encloses every point of bv moved by tf_bv.", "quantifier": "all AABBs, OBBs, RSSs, OBBRSSs, kIOSs and k-DOPs, all rigid poses", "why_tests_cant": "octree queries prune by converted volumes; an enclosure that fails at one pose or proportion loses contacts there only", "anchors": ["include/fcl/math/bv/utility-inl.h: convertBV, ConvertBVImpl", "include/fcl/geometry/shape/utility-inl.h: constructBox"]}
{"id": "C91", "title": "Octree collision queries report exactly the occupied cells that touch", "statement": "collide() of an octree with a shape, with a mesh or with a second octree, in any pose, adds only contacts that name the two objects and an occupied cell (and the triangle, or the cell of the other octree) that really touch, with a contact point the solver gave for that pair, never more than num_max_contacts of them; and unless that limit is reached every occupied cell (pair) that touches is reported. From an empty result the answer is 'collision' if and only if some occupied cell has a point in the shape. The object order in the contacts of collide(shape, octree) is octree first. Needed for it: inner nodes that are up to date and no node that is both 'free' and 'occupied'; with a threshold below one half cells are missed. For two octrees without enable_contact, cells a small gap apart are reported too.", "quantifier": "all octrees of any depth and shape, all poses, all shapes / meshes with enclosing hierarchies / second octrees, all limits and earlier results", "why_tests_cant": "the search prunes on the occupancy of inner nodes, on enclosing boxes and on the limit; a missed cell shows only in the one configuration that is pruned wrongly", "anchors": ["include/fcl/narrowphase/detail/traversal/octree/octree_solver-inl.h:OcTreeShapeIntersectRecurse", "include/fcl/narrowphase/detail/traversal/octree/octree_solver-inl.h:OcTreeMeshIntersectRecurse", "include/fcl/narrowphase/detail/traversal/octree/octree_solver-inl.h:OcTreeIntersectRecurse", "include/fcl/narrowphase/detail/collision_func_matrix-inl.h:OcTreeShapeCollide"]}
{"id": "C92", "title": "Octree distance queries give the distance of the occupied cells", "statement": "distance() of an octree with a shape, a mesh or a second octree gives -1 and a touching pair if an occupied cell touches the other object, and otherwise the smallest distance between an occupied cell and the other object, with the cell (and triangle or cell of the other octree) and two points that realise it, unless the result already held a smaller distance. An empty octree makes the query read through a null pointer.", "quantifier": "all octrees of any depth and shape, all poses, all bounded shapes / meshes with enclosing hierarchies / second octrees, all earlier results", "why_tests_cant": "a bound on the distance of a subtree that is wrong by anything shows only where the nearest cell is in that subtree", "anchors": ["include/fcl/narrowphase/detail/traversal/octree/octree_solver-inl.h:OcTreeShapeDistanceRecurse", "include/fcl/narrowphase/detail/traversal/octree/octree_solver-inl.h:OcTreeMeshDistanceRecurse", "include/fcl/narrowphase/detail/traversal/octree/octree_solver-inl.h:OcTreeDistanceRecurse", "include/fcl/narrowphase/detail/distance_func_matrix-inl.h:OcTreeShapeDistance"]}
{"id": "C93", "title": "Queries between a sphere and a triangle", "statement": "A collision query between a sphere and a triangle reports a contact exactly if they have a common point (up to a gap below the machine epsilon), with a point of the triangle in the sphere, the unit direction from the centre to it, the deepest such point and its penetration depth; a distance query gives the exact distance and points that realise it, and a negative distance in contact.", "quantifier": "all radii, poses and triangles", "why_tests_cant": "the distance function has seven regions with 25 cases, the collision function four; each is right only on its own part of space, and the wrong one shows at boundaries only", "anchors": ["include/fcl/narrowphase/detail/primitive_shape_algorithm/sphere_triangle-inl.h sphereTriangleIntersect, sphereTriangleDistance, segmentSqrDistance, projectInTriangle"]}
{"id": "C94", "title": "Collision of a mesh and a shape", "statement": "collide() of a triangle mesh and a half-space, plane or sphere reports a collision if and only if some triangle touches the shape. Every contact names the mesh and a triangle that touches the shape, each triangle at most once; if contacts are asked for it carries a contact of that triangle and the shape, with the normal pointing from the mesh to the shape. Unless the limit is reached every touching triangle is reported, and the limit is kept.", "quantifier": "all meshes, built with any splitter and any of the volume types, all poses, all shape parameters, all limits and cost options", "why_tests_cant": "The traversal prunes with volumes computed for the shape, which are different code for every pair of volume and shape type; tests cover a few meshes and poses, in which a wrong volume only loses some contacts.", "anchors": ["include/fcl/narrowphase/detail/traversal/collision/mesh_shape_collision_traversal_node-inl.h: meshShapeCollisionOrientedNodeLeafTesting, MeshShapeCollisionTraversalNode", "include/fcl/narrowphase/detail/collision_func_matrix-inl.h: BVHShapeCollider, orientedBVHShapeCollide", "include/fcl/narrowphase/detail/gjk_solver_indep-inl.h: shapeTriangleIntersect"]}
{"id": "C95", "title": "The distance of a mesh and a shape is exact", "statement": "distance() of a mesh (RSS, kIOS, OBBRSS) and a shape that does not touch it returns the smallest distance of a triangle to the shape, the index of a triangle at that distance and two points at that distance, or leaves an already smaller result as it is, for every pose and every hierarchy the library can build. When they touch, a distance that is not positive is reported. Nearest points are in world coordinates.", "quantifier": "all meshes with triangles of positive area, all splitters and all contents of the arrays before, all rigid poses, all spheres, all results to begin with", "why_tests_cant": "The pruning of the traversal is right only if every volume distance is a lower bound for every triangle below it; a wrong bound shows on rare pairs of poses and meshes.", "anchors": ["include/fcl/narrowphase/detail/traversal/distance/mesh_shape_distance_traversal_node-inl.h: meshShapeDistanceOrientedNodeLeafTesting, distancePreprocessOrientedNode, BVTesting, canStop", "include/fcl/narrowphase/detail/distance_func_matrix-inl.h: orientedBVHShapeDistance", "include/fcl/narrowphase/detail/primitive_shape_algorithm/sphere_triangle-inl.h: sphereTriangleDistance"]}
{"id": "C96", "title": "Motions join their two poses and bound their displacement", "statement": "A motion built from two poses is at the first pose at time 0, at the second at time 1 and from then on, and at a rigid pose in between; and its motion bound of a volume or triangle in a direction is at least the displacement along that direction, per unit of time, of every point of the volume or triangle over every later part of the motion.", "quantifier": "every pair of rigid poses, every current time and later time, every rectangle swept sphere, triangle, point of them and direction", "why_tests_cant": "The poses, times, volumes and directions form a continuum; the bound is what conservative advancement needs for all of them.", "anchors": ["include/fcl/math/motion/translation_motion-inl.h: TranslationMotion", "include/fcl/math/motion/interp_motion-inl.h: InterpMotion", "include/fcl/math/motion/screw_motion-inl.h: ScrewMotion", "include/fcl/math/motion/spline_motion-inl.h: SplineMotion", "include/fcl/math/motion/tbv_motion_bound_visitor-inl.h: TBVMotionBoundVisitor", "include/fcl/math/motion/triangle_motion_bound_visitor-inl.h: TriangleMotionBoundVisitor"]}
{"id": "C97", "title": "Continuous collision by sampling", "statement": "continuousCollide() with the naive solver reports a contact if and only if the bodies touch at one of its samples of the motions, with the time of the first such sample and the poses at that time; otherwise the time of contact is 1. (Intended: it finds every contact, and its time up to toc_err.)", "quantifier": "every pair of motions and shapes with an exact collision test, every number of samples from two on", "why_tests_cant": "The motions, shapes and contact times form a continuum; a test sees a few of them.", "anchors": ["include/fcl/narrowphase/continuous_collision-inl.h: continuousCollideNaive", "include/fcl/narrowphase/continuous_collision_request.h: ContinuousCollisionRequest"]}
{"id": "C98", "title": "Conservative advancement is never late", "statement": "continuousCollide() with conservative advancement ends, and its time of contact is never later than the first contact: the bodies are apart before it, no contact means none before time 1, a contact at the start is reported at time 0, and a reported contact is one up to a small gap at the reported poses.", "quantifier": "every pair of motions with valid motion bounds, every pair of convex shapes with exact collision and distance functions, for all time", "why_tests_cant": "The contact times, motions and shapes form a continuum, and the number of rounds depends on them.", "anchors": ["include/fcl/narrowphase/detail/conservative_advancement_func_matrix-inl.h: conservativeAdvancement", "include/fcl/narrowphase/detail/traversal/distance/shape_conservative_advancement_traversal_node-inl.h: leafTesting", "include/fcl/narrowphase/detail/traversal/distance/mesh_conservative_advancement_traversal_node-inl.h: leafTesting, initialize", "include/fcl/narrowphase/continuous_collision-inl.h: continuousCollideConservativeAdvancement"]}
{"id": "C99", "title": "Two boxes are reported to collide exactly when they touch", "statement": "The collision query for two boxes answers yes exactly when the boxes, at their poses, have a point in common.", "quantifier": "every pair of boxes and of rigid poses", "why_tests_cant": "Fifteen directions are tested; that no other direction can separate two boxes that pass is a theorem about all boxes and poses, and the tolerance added to nine of the tests acts on a set of poses that sampling does not hit.", "anchors": ["include/fcl/narrowphase/detail/primitive_shape_algorithm/box_box-inl.h: boxBoxIntersect", "include/fcl/narrowphase/detail/primitive_shape_algorithm/box_box-inl.h: boxBox2", "include/fcl/narrowphase/detail/gjk_solver_libccd-inl.h: GJKSolver_libccd::shapeIntersect"]}
{"id": "C100", "title": "The contact normal and depth of two boxes separate them", "statement": "For two boxes that collide the contact normal is a unit vector, moving the second box along it by any more than the reported depth separates the boxes, and no shorter movement in any direction does.", "quantifier": "every pair of boxes and of rigid poses that collide, and every direction and length of movement", "why_tests_cant": "The minimum over all directions is a statement about a continuum of movements for each of a continuum of poses.", "anchors": ["include/fcl/narrowphase/detail/primitive_shape_algorithm/box_box-inl.h: boxBoxIntersect", "include/fcl/narrowphase/detail/primitive_shape_algorithm/box_box-inl.h: boxBox2", "include/fcl/narrowphase/detail/gjk_solver_libccd-inl.h: GJKSolver_libccd::shapeIntersect"]}
{"id": "C101", "title": "Contacts of two boxes lie between the boxes", "statement": "When two boxes collide and contacts are asked for, at most four contacts are given; each has the reported normal, a depth that is not negative and not more than the reported depth, and a position from which half the depth along the normal leads to a point of the first box and half the depth against it to a point of the second. Leaving out contacts never leaves out the deepest one, and if a furthest corner of one box is straight below the inside of the face of the other then a contact has exactly the reported depth. If two edges meet there is one contact, half way between the lines of the two edges. Boxes that collide have at least one contact.", "quantifier": "all sizes and rigid poses of the two boxes, all numbers of contacts asked for and all results of the angle computation", "why_tests_cant": "The clipping of one face against the other goes through eight polygons of up to eight points whose number depends on the relative pose, and a test sees only finitely many poses; that the polygon never overflows its buffer of eight points is a fact about all convex quads.", "anchors": ["include/fcl/narrowphase/detail/primitive_shape_algorithm/box_box-inl.h: boxBox2, intersectRectQuad2, cullPoints2, lineClosestApproach, boxBoxIntersect"]}
{"id": "C102", "title": "Oriented boxes that overlap have a common point up to the tolerance", "statement": "If the overlap test of two oriented boxes answers yes, the boxes have a common point, or one of the fifteen tested directions separates them by no more than a millionth of the sum of their half sizes (times the length of the direction). The same for boxes in frames that are moved against each other.", "quantifier": "all pairs of oriented boxes with orthonormal directions and half sizes that are not negative, all relative poses", "why_tests_cant": "That fifteen directions are enough to find a common point is a theorem about all pairs of boxes; tests only sample overlapping pairs, and a test left out would only show for boxes that are apart in exactly that direction.", "anchors": ["include/fcl/math/bv/OBB-inl.h: obbDisjoint, OBB::overlap, overlap"]}
{"id": "C103", "title": "An octree object meets the objects of the dynamic tree manager cell by cell", "statement": "A collision query of the dynamic tree manager with an octree calls the callback for pairs of a registered object that is not free and a cell of the octree that is not known to be free (a leaf that is not free, or a cell missing in the octree below no free node), each pair at most once, until the callback says stop. Every such pair whose boxes have a common point is among them, and the boxes of each pair that is called meet up to the tolerance of the overlap test. The object handed over for a cell has exactly the points of the cell in the placed octree, is occupied exactly if the cell is and is never free. A distance query with a callback that keeps the least distance ends with the least distance of a registered object and an occupied cell. Both work for an octree without nodes.", "quantifier": "all histories of calls of the manager, all octrees of any depth with octomap's invariant, all rigid poses, all callbacks and data", "why_tests_cant": "The walk goes through two trees at once with pruning that depends on sizes and thresholds; a missed pair shows only for certain shapes of both trees, and the callback may stop it at any point.", "anchors": ["include/fcl/broadphase/broadphase_dynamic_AABB_tree-inl.h: collisionRecurse_, distanceRecurse_, collisionRecurse, distanceRecurse, DynamicAABBTreeCollisionManager::collide, DynamicAABBTreeCollisionManager::distance", "include/fcl/geometry/octree/octree-inl.h: computeChildBV, isNodeFree, isNodeOccupied"]}
{"id": "C104", "title": "A mesh generated from a shape is a closed surface around it", "statement": "generateBVHModel for a box, sphere, ellipsoid, cylinder or cone that is not flat, with at least three segments around the axis and at least one ring or segment along it, succeeds on a model that is empty or begun and appends a mesh to what the model had: every index refers to a vertex, every vertex is used and lies on the surface of the shape, every side of a triangle occurs once in each direction (a closed, consistently oriented surface with Euler characteristic 2), no triangle leaves the shape, and all triangles are counterclockwise seen from outside. A finalized model has a hierarchy that encloses all triangles; a finished model is refused and not changed. The number of triangles for the overloads that take a number of faces is as documented.", "quantifier": "all shape sizes, all tessellation parameters, all poses, all contents of the model before the call, all bounding volume types", "why_tests_cant": "The tessellation has two unbounded parameters and wraps around at one segment; tests look at a few parameter values and never at closedness or orientation.", "anchors": ["include/fcl/geometry/geometric_shape_to_BVH_model-inl.h:generateBVHModel", "include/fcl/geometry/geometric_shape_to_BVH_model-inl.h:addTriangles", "include/fcl/geometry/geometric_shape_to_BVH_model.h"]}
{"id": "C105", "title": "Random numbers and samples stay within what was asked for", "statement": "The random numbers and samplers return values within what the caller asked for, for every sequence of the underlying generator: uniformReal and uniformInt stay within their bounds and uniformInt gives every integer of the range an interval of the same length, halfNormalReal and halfNormalInt stay within their bounds whatever the normal distribution gives, quaternion returns a unit quaternion, eulerRPY angles in their ranges, disk and ball points between the two radii with area or volume proportional to the uniform number, and the samplers of R^N, SE(2) and SE(3) positions within the bounds given and valid rotations, without writing outside the vector returned.", "quantifier": "all sequences of numbers in [0,1) of the generator (and all normal numbers), all bounds with lower <= upper, all radii 0 <= r_min <= r_max", "why_tests_cant": "Tests draw finitely many numbers from one generator; the boundaries are hit with vanishing probability and undefined reads or writes may go unnoticed.", "anchors": ["include/fcl/math/rng-inl.h:RNG", "include/fcl/math/sampler/sampler_r-inl.h:sample", "include/fcl/math/sampler/sampler_se2-inl.h:sample", "include/fcl/math/sampler/sampler_se2_disk-inl.h:sample", "include/fcl/math/sampler/sampler_se3_euler-inl.h:sample", "include/fcl/math/sampler/sampler_se3_quat-inl.h:sample", "include/fcl/math/sampler/sampler_se3_quat_ball-inl.h:sample"]}
{"id": "C106", "title": "Seeds: stable, reproducible and different", "statement": "RNG::getSeed returns the same value for ever once it has been called, namely the seed set by the last setSeed before (1 for 0) if there was one; setSeed makes the numbers of the generators created afterwards repeatable, and generators created in one process have different seeds.", "quantifier": "all programs, that is all sequences of setSeed, getSeed and constructor calls, and all clock values", "why_tests_cant": "A test runs one sequence of calls; that a setter has no effect on any generator or that two of a billion generators coincide is not seen by drawing some numbers.", "anchors": ["src/math/detail/seed.cpp:Seed", "include/fcl/math/rng-inl.h:setSeed", "include/fcl/math/rng.h:RNG"]}
{"id": "C107", "title": "The dynamic tree manager in an array keeps its objects", "statement": "DynamicAABBTreeCollisionManager_Array behaves as the manager with pointers: after any sequence of registerObject(s), unregisterObject, setup, update and clear, nothing outside its array is accessed, getObjects, size and empty describe exactly the registered objects, collide calls back exactly on the pairs whose boxes overlap, and distance finds the minimum.", "quantifier": "all histories of calls, all boxes, all choices of the heuristics, all contents of fresh memory", "why_tests_cant": "The elements of the array are reused in an order that depends on the whole history, a dangling reference or a stale index usually still reads plausible data, and it needs a particular number of objects to show.", "anchors": ["include/fcl/broadphase/broadphase_dynamic_AABB_tree_array-inl.h:DynamicAABBTreeCollisionManager_Array", "include/fcl/broadphase/detail/hierarchy_tree_array-inl.h:HierarchyTree", "include/fcl/broadphase/detail/node_base_array.h:NodeBase"]}
{"id": "C108", "title": "Volume, centre of mass and inertia of the primitive shapes are the integrals over the shape", "statement": "For every Box, Sphere, Ellipsoid, Capsule, Cone and Cylinder with positive sizes, computeVolume() is the volume of the set of points of the shape, computeCOM() is its centre of mass, computeMomentofInertia() is the moment of inertia of the solid of density 1 about the origin of the frame of the shape, and computeMomentofInertiaRelatedToCOM() the one about the centre of mass; the latter holds for every geometry (also one defined by the user) whose other three functions are right.", "quantifier": "all six primitive shapes with all positive sizes; for the parallel axis rule, all bounded closed solids", "why_tests_cant": "Each formula is a real polynomial identity in the sizes for an integral over a solid; tests compare a few sizes against the same formula or a coarse mesh.", "anchors": ["include/fcl/geometry/shape/box-inl.h: Box::computeVolume, computeMomentofInertia", "include/fcl/geometry/shape/sphere-inl.h: Sphere::computeVolume, computeMomentofInertia", "include/fcl/geometry/shape/ellipsoid-inl.h: Ellipsoid::computeVolume, computeMomentofInertia", "include/fcl/geometry/shape/capsule-inl.h: Capsule::computeVolume, computeMomentofInertia", "include/fcl/geometry/shape/cone-inl.h: Cone::computeVolume, computeMomentofInertia, computeCOM", "include/fcl/geometry/shape/cylinder-inl.h: Cylinder::computeVolume, computeMomentofInertia", "include/fcl/geometry/collision_geometry-inl.h: computeCOM, computeMomentofInertiaRelatedToCOM"]}
{"id": "C109", "title": "Volume, centre of mass and inertia of meshes and convex polyhedra are those of the enclosed solid", "statement": "For a BVHModel whose triangles form a surface without border that winds once around a bounded closed solid, computeVolume(), computeCOM(), computeMomentofInertia() and computeMomentofInertiaRelatedToCOM() are the volume, centre of mass and moments of inertia (density 1) of the solid, wherever the origin of the frame is, inside or outside. For a Convex given by its polygons the same holds for computeVolume() and computeCOM(). Convex::computeMomentofInertia() returns the inertia for mass 1 instead (divided by the volume), so computeMomentofInertiaRelatedToCOM(), which multiplies with the volume, is wrong for a Convex unless its volume is 1 or its centre of mass is at the origin.", "quantifier": "all vertex and index arrays, all solids they enclose, all positions of the origin; all polygons with any numbers of corners", "why_tests_cant": "Tests use a cube of volume 1 and a tetrahedron at a few poses; the formulas are signed sums whose correctness outside of the solid rests on cancellation over the whole surface.", "anchors": ["include/fcl/geometry/bvh/BVH_model-inl.h: BVHModel::computeCOM, computeVolume, computeMomentofInertia", "include/fcl/geometry/shape/convex-inl.h: Convex::computeMomentofInertia, computeCOM, computeVolume", "include/fcl/geometry/collision_geometry-inl.h: computeMomentofInertiaRelatedToCOM"]}
{"id": "C110", "title": "The penetration computation of fcl's own solver runs safely on a closed surface", "statement": "For every pair of shapes, every starting simplex and every previous use of the same object, the expanding polytope algorithm ends without following a pointer that is null or unset and without corrupting its lists of faces; no face is lost or used twice and no more vertices are taken than were allocated. Unless it reports an invalid hull or falls back to the guess, the polytope it leaves is a closed, consistently oriented surface whose corners are support points, and the reported depth is that of a face nearest to the origin.", "quantifier": "every support function (in particular every pair of shapes and poses), every limit on faces, vertices and iterations, every tolerance of any sign, every initial memory contents, every non-empty simplex and guess, and every sequence of earlier calls on the same object", "why_tests_cant": "The faces are joined by raw pointers through a recursive flood fill, over memory that is not initialised; whether every pointer followed was set, and the surface closed again, depends on the whole history of expansions. Tests see only a few polytopes and do not notice a stale pointer that happens to be valid.", "anchors": ["include/fcl/narrowphase/detail/convexity_based_algorithm/epa.h:EPA", "include/fcl/narrowphase/detail/convexity_based_algorithm/epa-inl.h:EPA::evaluate, expand, newFace, bind, findBest, getEdgeDist", "include/fcl/narrowphase/detail/convexity_based_algorithm/gjk-inl.h:GJK::encloseOrigin"]}
{"id": "C111", "title": "Contacts of fcl's own solver for convex shapes: answer, normal, place and depth", "statement": "When fcl's own solver finds that two convex shapes collide, it adds one contact: its normal has length 1, its place is between points of the shapes, and its depth is a positive number such that moving the second shape along the normal by a little more than the depth separates the shapes. The answer does not depend on how the depth was computed.", "quantifier": "all pairs of bounded shapes with a support function at all rigid poses, all positive GJK tolerances, all non-negative EPA tolerances, all limits, all guesses and all memory contents", "why_tests_cant": "Normal, place and depth come from an iteration of two algorithms on arbitrary shapes; tests compare a few symmetric pairs with loose tolerances and switch the comparison of depths off for this solver.", "anchors": ["include/fcl/narrowphase/detail/gjk_solver_indep-inl.h:ShapeIntersectIndepImpl::run", "include/fcl/narrowphase/detail/convexity_based_algorithm/epa-inl.h:EPA::evaluate"]}
{"id": "C112", "title": "The box of a moving object contains it during the whole motion", "statement": "After computeAABB() the box of a ContinuousCollisionObject contains the object, placed by its motion, at every time from 0 to 1, for every motion and every geometry.", "quantifier": "every motion, every local box of a geometry, every time in [0,1]", "why_tests_cant": "A sweep is a continuum of poses; tests sample times, angles and shapes, and a box that is too small by the part a rotation sweeps out is only seen for particular shapes and angles.", "anchors": ["include/fcl/narrowphase/continuous_collision_object-inl.h ContinuousCollisionObject::computeAABB", "include/fcl/math/motion/interp_motion-inl.h InterpMotion::getTaylorModel", "include/fcl/math/motion/screw_motion-inl.h ScrewMotion::getTaylorModel", "include/fcl/math/motion/translation_motion-inl.h TranslationMotion::getTaylorModel", "include/fcl/math/motion/spline_motion-inl.h SplineMotion::getTaylorModel"]}
{"id": "C113", "title": "Continuous collision of two meshes with the polynomial solver", "statement": "continuousCollide of two triangle meshes with the motion type CCDM_TRANS and the solver CCDC_POLYNOMIAL_SOLVER reports a collision exactly if the meshes, moved from their first poses to their second ones, touch at some time from 0 to 1; the time it reports is that of the first contact; and it leaves the meshes as they are.", "quantifier": "every two meshes, poses, translations, bounding volume types and hierarchies; for the elementary tests every two features whose vertices move along straight lines", "why_tests_cant": "The first contact of two moving meshes is the least root of many polynomials of third degree, subject to tolerances; tests try a few scenes of one size and cannot show that no contact of any scene is missed or invented.", "anchors": ["include/fcl/narrowphase/continuous_collision-inl.h continuousCollideBVHPolynomial", "include/fcl/narrowphase/detail/traversal/collision/intersect-inl.h Intersect::intersect_VF", "include/fcl/narrowphase/detail/traversal/collision/intersect-inl.h Intersect::intersect_EE", "include/fcl/narrowphase/detail/traversal/collision/intersect-inl.h Intersect::solveCubicWithIntervalNewton", "include/fcl/narrowphase/detail/traversal/collision/mesh_continuous_collision_traversal_node-inl.h MeshContinuousCollisionTraversalNode::leafTesting"]}
{"id": "C114", "title": "The expanding polytope of the default solver stays a convex polytope", "statement": "While the default solver computes a signed distance or a penetration, it grows a polytope by support points. From a closed convex polytope that has the origin, for a new point in front of the nearest element, the growth ends, throws none of the exceptions for inconsistent edges or patches, and gives again a closed convex polytope that has the new point as a vertex and the origin in it; the normals it uses point outward; and whatever the tests of visibility answer because of rounding, the internal exceptions for edges classified twice and for patches that fail their check are never thrown.", "quantifier": "every closed surface of triangles, every new point, every nearest element, every order of iteration of the hash sets, every answer of the tests of visibility; for convexity every convex polytope in three dimensions", "why_tests_cant": "The surface changes at every step in a way that depends on the shapes; the exceptions have been seen in the field for particular configurations only. Tests try a few polytopes of one size, and cannot show that no polytope and no answers of the tests lead to a surface with holes.", "anchors": ["include/fcl/narrowphase/detail/convexity_based_algorithm/gjk_libccd-inl.h: faceNormalPointingOutward, isOutsidePolytopeFace, ComputeVisiblePatch, ComputeVisiblePatchRecursive, ComputeVisiblePatchRecursiveSanityCheck, ClassifyBorderEdge, ClassifyInternalEdge, expandPolytope"]}
{"id": "C115", "title": "The penetration depth of the default solver is right", "statement": "When two convex bounded shapes overlap and the default solver expands its polytope, the computation ends without an exception, and the signed distance it reports is minus the penetration depth: after every translation of one shape that is not longer than the reported depth the shapes still have a common point, and there is a translation longer by the tolerance after which they have none. The two reported points are points of the shapes with this distance, up to the tolerances.", "quantifier": "every pair of bounded convex shapes with exact support functions, every run of the algorithm from a first polytope of support points around the origin, every order of iteration of the hash sets, every choice among equally near elements", "why_tests_cant": "The polytope depends on the shapes, the number of iterations has no limit in the code, and the depth is a statement about all the translations. Tests compare a few configurations with known depths.", "anchors": ["include/fcl/narrowphase/detail/convexity_based_algorithm/gjk_libccd-inl.h: __ccdEPA, supportEPADirection, nextSupport, validateNearestFeatureOfPolytopeBeingEdge, simplexToPolytope4, convert2SimplexToTetrahedron, penEPAPosClosest, ccdGJKSignedDist", "include/fcl/narrowphase/distance.h: distance"]}
{"id": "C116", "title": "The signed distance query of the default solver", "statement": "For shapes that are apart the signed distance query gives the same answer, distance and points as the distance query, and a positive signed distance is never less than the distance of the shapes. For shapes that overlap it ends, and gives minus the penetration depth up to the tolerance with points of the shapes; it answers 'separated' only when this depth is zero.", "quantifier": "every pair of convex shapes that are not cylinders, every rigid pose, every order of iteration of the hash sets", "why_tests_cant": "The query runs one of two algorithms, depending on how a search ends, and hands the points of the search over to the second. Whether they are what the second algorithm needs must hold for every pair and pose.", "anchors": ["include/fcl/narrowphase/detail/gjk_solver_libccd-inl.h: shapeSignedDistance, ShapeSignedDistanceLibccdImpl", "include/fcl/narrowphase/detail/convexity_based_algorithm/gjk_libccd-inl.h: GJKSignedDistance, GJKDistanceImpl, ccdGJKSignedDist, __ccdEPA, __ccdGJK, simplexToPolytope2"]}
{"id": "C117", "title": "Expanding a hierarchy of uncertain points keeps every point inside", "statement": "After BVHExpand with one uncertainty per point and a radius r, the volume of every node of the hierarchy contains every point below that node, moved by at most r deviations along any of the three principal axes of its uncertainty; nothing but the volumes changes, and no memory outside of the arrays is read.", "quantifier": "every number of points, every position, every uncertainty, every radius, every splitter and kind of volume", "why_tests_cant": "The order of the points inside of the hierarchy depends on all positions and on the split rule; a test whose points happen to be sorted passes although the volumes of other inputs miss their points.", "anchors": ["include/fcl/geometry/bvh/BVH_utility-inl.h: BVHExpand", "include/fcl/geometry/bvh/BVH_model-inl.h: recursiveBuildTree", "include/fcl/math/variance3.h: Variance3"]}
