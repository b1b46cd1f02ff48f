{
 "claims": [
  {
   "property": "C01",
   "status": "proved",
   "theorems": [
    "Fcl.C01_overlap_iff_common_point",
    "Fcl.C01_contain_iff_subset",
    "Fcl.C01_contain_point",
    "Fcl.C01_axisOverlap",
    "Fcl.C01_overlap_part",
    "Fcl.C01_translate_pts"
   ],
   "note": "any linear order"
  },
  {
   "property": "C02",
   "status": "proved",
   "theorems": [
    "Fcl.C02_merge_least",
    "Fcl.C02_addPt_least",
    "Fcl.C02_constructors_least",
    "Fcl.C02_accumulate_least",
    "Fcl.C02_expand_contains"
   ],
   "note": "any linear order"
  },
  {
   "property": "C03",
   "status": "proved",
   "theorems": [
    "Fcl.C03_distance_lower_bound",
    "Fcl.C03_distance_attained",
    "Fcl.C03_distance_zero_iff",
    "Fcl.C03_distance_antitone",
    "Fcl.C03_distance_antitone_rounded"
   ],
   "note": "exact reals; antitonicity also for any monotone rounding"
  },
  {
   "property": "C04",
   "status": "partial",
   "theorems": [
    "Fcl.C04_violated",
    "Fcl.C04_nearest_points_partial"
   ],
   "note": "the code violates the property when one interval is nested in the other on an overlapping axis; witness proved"
  },
  {
   "property": "C05",
   "status": "proved",
   "theorems": [
    "Fcl.C05_objects",
    "Fcl.C05_names"
   ],
   "note": "Refinement of an abstract registry over every history of client calls, for every outcome of the heuristics; tree_topdown_level = 1 and boxes of infinite size are excluded (they belong to C11)."
  },
  {
   "property": "C06",
   "status": "proved",
   "theorems": [
    "Fcl.C06_enclosure",
    "Fcl.C06_tree_ops"
   ],
   "note": "Invariant over every history, plus per-primitive statement. The velocity/margin overloads of update ignore those arguments and equal update(leaf, bv)."
  },
  {
   "property": "C07",
   "status": "proved",
   "theorems": [
    "Fcl.C07_collide_object"
   ],
   "note": "Trace equality for every callback."
  },
  {
   "property": "C08",
   "status": "proved",
   "theorems": [
    "Fcl.C08_collide_self",
    "Fcl.C08_pairs_spec"
   ],
   "note": "Trace equality for every callback; pairsUp is characterised separately."
  },
  {
   "property": "C09",
   "status": "proved",
   "theorems": [
    "Fcl.C09_collide_managers"
   ],
   "note": "Trace equality for every callback and descent heuristic."
  },
  {
   "property": "C10",
   "status": "proved",
   "theorems": [
    "Fcl.C10_distance_object",
    "Fcl.C10_distance_self",
    "Fcl.C10_distance_managers",
    "Fcl.boxDist_distance"
   ],
   "note": "For any arithmetic satisfying AABB.LawfulArith (exact reals and every monotone rounding are instances)."
  },
  {
   "property": "C11",
   "status": "partial",
   "theorems": [
    "Fcl.C11_build_partial",
    "Fcl.C11_topdown1_partial",
    "Fcl.C11_topdown1_diverges",
    "Fcl.C11_bottomup_undefined"
   ],
   "note": "The code violates the full property: topdown_1 never returns on coincident centres, bottomup reads uninitialised iterators for boxes of non-finite size. Proved for all other settings."
  },
  {
   "property": "C12",
   "status": "proved",
   "theorems": [
    "Fcl.C12_objects",
    "Fcl.C12_collide_object",
    "Fcl.C12_collide_self",
    "Fcl.C12_collide_managers",
    "Fcl.C12_distance_object",
    "Fcl.C12_distance_self",
    "Fcl.C12_distance_managers"
   ],
   "note": "Live boxes; any callback; distance theorems for callbacks tracking the minimum of a d not below the box distance."
  },
  {
   "property": "C13",
   "status": "partial",
   "theorems": [
    "Fcl.C07_collide_object",
    "Fcl.C13_naive",
    "Fcl.C13_ssap",
    "Fcl.C13_sap",
    "Fcl.C13_sap_violated_unregister",
    "Fcl.C55_sap_managers",
    "Fcl.C23_object_partial",
    "Fcl.C23_touching_missed",
    "Fcl.C13_interval"
   ],
   "note": "Tree, brute force, SSaP, SaP (translated boxes; undefined behaviour directly after unregisterObject, proved); spatial hash except for boxes that only touch between cells (witness). Interval tree manager: exact, for all histories of the kind of C68."
  },
  {
   "property": "C14",
   "status": "proved",
   "theorems": [
    "Fcl.C14_ssap_self",
    "Fcl.C08_pairs_spec"
   ],
   "note": "Any axis, any lawful sort result, valid boxes."
  },
  {
   "property": "C15",
   "status": "partial",
   "theorems": [
    "Fcl.C15_ssap_diverges_single",
    "Fcl.C15_ssap_diverges_flat",
    "Fcl.C15_ssap_object_partial",
    "Fcl.C15_ssap_self_partial",
    "Fcl.C15_ssap_object_terminates_partial",
    "Fcl.C15_ssap_self_terminates_partial",
    "Fcl.gapDist_distance",
    "Fcl.C15_shash_object_partial",
    "Fcl.C15_shash_self_partial",
    "Fcl.C15_shash_managers_partial",
    "Fcl.C15_shash_object_terminates_partial",
    "Fcl.C15_shash_diverges_single",
    "Fcl.C15_sap_object_partial",
    "Fcl.C15_sap_object_terminates_partial",
    "Fcl.C15_sap_self_partial",
    "Fcl.C15_sap_self_terminates_partial",
    "Fcl.C15_sap_managers_partial",
    "Fcl.C15_sap_diverges_single",
    "Fcl.C15_sap_violated_unregister",
    "Fcl.gapDist2_distance",
    "Fcl.C15_interval_object_partial",
    "Fcl.C15_interval_object_terminates_partial",
    "Fcl.C15_interval_self_partial",
    "Fcl.C15_interval_self_terminates_partial",
    "Fcl.C15_interval_managers_partial",
    "Fcl.C15_interval_diverges_single"
   ],
   "note": "The code violates termination (proved: no number of iterations suffices). Proved instead: the value is the minimum whenever the call returns, and it returns when boxes have positive extents and partners at finite distance. Same for the spatial hash manager. Same for the sweep-and-prune manager. Interval tree manager: minimum when the query returns, termination when another object is within reach, divergence for a single object."
  },
  {
   "property": "C16",
   "status": "partial",
   "theorems": [
    "Fcl.C16_pairs_partial",
    "Fcl.C16_violated_nested",
    "Fcl.C16_violated_twice",
    "Fcl.C16_violated_touching",
    "Fcl.C16_violated_grow",
    "Fcl.C16_violated_grow_any",
    "Fcl.C16_violated_unregister"
   ],
   "note": "The code violates it for single registrations, touching boxes, boxes that change size and after unregisterObject (witnesses). Proved for one batch of objects whose boxes are translated without equal coordinates."
  },
  {
   "property": "C17",
   "status": "partial",
   "theorems": [
    "Fcl.C17_violated",
    "Fcl.C17_size_partial"
   ],
   "note": "empty() is inverted: proved to be true exactly when objects are registered. size() and getObjects() are right."
  },
  {
   "property": "C18",
   "status": "partial",
   "theorems": [
    "Fcl.ITree.C18_query_partial",
    "Fcl.ITree.C18_insert_total",
    "Fcl.ITree.C18_insert_after",
    "Fcl.ITree.C18_delete_loses",
    "Fcl.ITree.C18_sentinel_rotated",
    "Fcl.ITree.C18_low_end"
   ],
   "note": "Exact for every history that does not rotate the sentinel into the tree, in particular for every history of insertions. The full property is false: C18_delete_loses is a lawful history of eleven calls after which the query misses two of three stored intervals (pointer-heap model)."
  },
  {
   "property": "C19",
   "status": "partial",
   "theorems": [
    "Fcl.ITree.C19_ordered_augmented_partial",
    "Fcl.ITree.C18_insert_total"
   ],
   "note": "Same restriction as C18: false after a deletion that rotates the sentinel."
  },
  {
   "property": "C20",
   "status": "partial",
   "theorems": [
    "Fcl.ITree.C20_linear_height",
    "Fcl.ITree.C20_not_logarithmic",
    "Fcl.ITree.C20_top_black_partial"
   ],
   "note": "The property is false: decreasing insertions give linear height. Only the colour of the top node is maintained."
  },
  {
   "property": "C21",
   "status": "partial",
   "theorems": [
    "Fcl.C21_once_partial",
    "Fcl.C21_partial",
    "Fcl.C21_violated_touching",
    "Fcl.C21_violated_flat",
    "Fcl.C21_violated_update",
    "Fcl.C21_violated_moved"
   ],
   "note": "For every history: no pair twice. In a set-up manager with nothing moved and boxes not flat on the sweep axis: only overlapping pairs, and all that do not merely touch on the sweep axis. Violations proved with witnesses: touching boxes, flat boxes, update(obj), motion between registration and setup()."
  },
  {
   "property": "C22",
   "status": "partial",
   "theorems": [
    "Fcl.C22_iff",
    "Fcl.C22_partial",
    "Fcl.C22_violated"
   ],
   "note": "Decided per axis: the end points of the others survive iff no registered box reaches beyond that of the removed object. Violated otherwise (witness: the removed object stays listed, another one is lost, getObjects overflows)."
  },
  {
   "property": "C23",
   "status": "partial",
   "theorems": [
    "Fcl.C23_object_partial",
    "Fcl.C23_self_partial",
    "Fcl.C23_managers_partial",
    "Fcl.C23_touching_missed",
    "Fcl.C23_flat_missed"
   ],
   "note": "Violated for boxes that share only points of a plane between cell layers (witnesses). Proved for all others: complete; exact and without repetition once clear() has been followed by update()."
  },
  {
   "property": "C24",
   "status": "partial",
   "theorems": [
    "Fcl.C24_shash_stale",
    "Fcl.C24_shash_partial",
    "Fcl.C23_object_partial",
    "Fcl.C24_sap",
    "Fcl.C24_interval",
    "Fcl.C24_interval_total"
   ],
   "note": "Violated by the spatial hash manager (stale object reported after clear, witness). What holds is proved; SSaP, tree and brute force clear are part of their history theorems (C07, C12, C14); SaP clear proved. Interval tree manager: clear() gives a new manager."
  },
  {
   "property": "C25",
   "status": "partial",
   "theorems": [
    "Fcl.Hash.C25_simple_partial",
    "Fcl.Hash.C25_simple_no_collision",
    "Fcl.Hash.C25_simple_reinit_loses",
    "Fcl.Hash.C25_simple_before_init",
    "Fcl.Hash.C25_sparse"
   ],
   "note": "Sparse table: all histories, all hash functions. Simple table: all histories in which init is not called again with another size; with another size stored values are lost (C25_simple_reinit_loses)."
  },
  {
   "property": "C26",
   "status": "proved",
   "theorems": [
    "Fcl.Morton.C26_bits30",
    "Fcl.Morton.C26_bits60",
    "Fcl.Morton.C26_injective30",
    "Fcl.Morton.C26_injective60",
    "Fcl.Morton.C26_monotone30",
    "Fcl.Morton.C26_monotone60",
    "Fcl.Morton.C26_cell30",
    "Fcl.Morton.C26_cell60",
    "Fcl.Morton.C26_points30",
    "Fcl.Morton.C26_points60",
    "Fcl.Morton.C26_pointsBits",
    "Fcl.Morton.C26_flat"
   ],
   "note": "Bit interleaving, injectivity, monotonicity and shared prefixes for every coordinate triple in range, and the three functors on every point of a box that is not flat; on a flat box the code is undefined (C26_flat)."
  },
  {
   "property": "C27",
   "status": "partial",
   "theorems": [
    "Fcl.C27_minimum",
    "Fcl.C27_merge",
    "Fcl.C27_merge_minimum",
    "Fcl.C27_clear_partial",
    "Fcl.C27_clear_keeps_points",
    "Fcl.C27_stale_points"
   ],
   "note": "Minimum, first winner, ties, merging: proved. Points are those of the winner only when it was offered with points; clear() keeps the points: both shown by witness."
  },
  {
   "property": "C28",
   "status": "partial",
   "theorems": [
    "Fcl.C28_best_k_partial",
    "Fcl.C28_same_rank_dropped",
    "Fcl.C28_contacts",
    "Fcl.C28_clear"
   ],
   "note": "Best k up to the order's notion of equality (total, density, lower corner); the stronger reading fails, witness given. Fixed k over a history."
  },
  {
   "property": "C29",
   "status": "proved",
   "theorems": [
    "Fcl.C29_done",
    "Fcl.C29_collide",
    "Fcl.C29_collide_cost",
    "Fcl.C29_continuous",
    "Fcl.C29_continuous_done",
    "Fcl.C29_distance",
    "Fcl.C29_distance_done",
    "Fcl.C29_distance_after_stop",
    "Fcl.C29_distance_tracks"
   ],
   "note": "For any narrowphase meeting the stated contract (HonestCollide, HonestDistance)."
  },
  {
   "property": "C30",
   "status": "partial",
   "theorems": [
    "Fcl.C30_protocol_partial",
    "Fcl.C30_refused",
    "Fcl.C30_violated_add_before_begin",
    "Fcl.C30_violated_add_accepted",
    "Fcl.C30_violated_too_many",
    "Fcl.C30_begin_twice",
    "Fcl.C30_replace_after_update",
    "Fcl.C30_violated_copy_begun",
    "Fcl.C30_violated_copy_replacing",
    "Fcl.C30_violated_no_vertices",
    "Fcl.C30_violated_bad_index"
   ],
   "note": "Proved for every history of the calls described by Abs.Allowed, including copies; for the other calls the claim is false of the code and the violations are proved. A refused call changes nothing in any state, except beginModel."
  },
  {
   "property": "C31",
   "status": "proved",
   "theorems": [
    "Fcl.C31_build",
    "Fcl.C31_enclosing",
    "Fcl.C31_none_diverges",
    "Fcl.fit_encloses",
    "Fcl.aabb_sound",
    "Fcl.kdop_sound"
   ],
   "note": "buildTree and recursiveBuildTree on the arrays of the code; fitter and splitter are parameters; AABB and k-DOP fitters are instances. Fitters of OBB, RSS, kIOS, OBBRSS are not modelled."
  },
  {
   "property": "C32",
   "status": "proved",
   "theorems": [
    "Fcl.C32_bottomup",
    "Fcl.C32_topdown",
    "Fcl.C32_bottomup_mesh",
    "Fcl.C32_topdown_mesh",
    "Fcl.C32_after_build"
   ],
   "note": "Both refit procedures on the arrays of the code; enclosure holds at every time of the straight motion of the vertices; AABB and k-DOP fitters are instances."
  },
  {
   "property": "C33",
   "status": "proved",
   "theorems": [
    "Fcl.C33_collisionRecurse",
    "Fcl.C33_exact",
    "Fcl.follows_bvh",
    "Fcl.follows_bvhShape",
    "Fcl.follows_shapeBvhCollision"
   ],
   "note": "All pairs of trees, volume tests, leaf tests, stopping rules; the three descent rules of the library follow the trees."
  },
  {
   "property": "C34",
   "status": "proved",
   "theorems": [
    "Fcl.C34_selfCollisionRecurse"
   ],
   "note": "Every pair of different leaves once, left before right."
  },
  {
   "property": "C35",
   "status": "proved",
   "theorems": [
    "Fcl.C35_distance",
    "Fcl.C35_exact"
   ],
   "note": "Both versions, every queue size, every choice among equal elements."
  },
  {
   "property": "C36",
   "status": "proved",
   "theorems": [
    "Fcl.C36_step",
    "Fcl.C36_history",
    "Fcl.C36_distanceRecurse",
    "Fcl.C36_tested_twice",
    "Fcl.C36_queue_front_incomplete"
   ],
   "note": "Every history of configurations. Each pair of leaves is tested at most twice per call; the bound is reached. The front list of the distance traversal with a queue is not a front (it is never reused by the library)."
  },
  {
   "property": "C37",
   "status": "partial",
   "theorems": [
    "Fcl.C37_add",
    "Fcl.C37_sub",
    "Fcl.C37_subAssign",
    "Fcl.C37_subAssign_self_wrong",
    "Fcl.C37_neg",
    "Fcl.C37_scale",
    "Fcl.C37_mul",
    "Fcl.C37_mulAssign",
    "Fcl.C37_mulAssign_self_wrong",
    "Fcl.C37_div",
    "Fcl.C37_overlap",
    "Fcl.C37_intersect",
    "Fcl.C37_contains",
    "Fcl.C37_bound",
    "Fcl.C37_boundPt",
    "Fcl.C37_absLower",
    "Fcl.C37_absUpper_partial",
    "Fcl.C37_absUpper_wrong"
   ],
   "note": "Each operation returns exactly the smallest interval containing all results (sound and attained). Partial because the code violates it: getAbsUpper returns a negative number for every interval with negative middle, and a -= a, a *= a read the operand after overwriting it; both proved as negations."
  },
  {
   "property": "C38",
   "status": "partial",
   "theorems": [
    "Fcl.C38_add",
    "Fcl.C38_sub",
    "Fcl.C38_scale",
    "Fcl.C38_neg",
    "Fcl.C38_scalar",
    "Fcl.C38_generators",
    "Fcl.C38_mul_partial",
    "Fcl.C38_mul_negative_time",
    "Fcl.C38_boundAt",
    "Fcl.C38_boundOn_partial",
    "Fcl.C38_boundOn_negative_time",
    "Fcl.C38_bound_partial",
    "Fcl.C38_bound_wrong",
    "Fcl.C38_tightOn_exact",
    "Fcl.C38_tightOn",
    "Fcl.C38_tight"
   ],
   "note": "Exact arithmetic. Products and getBound(t0,t1) need times that are not negative (negation by witness otherwise); getBound() is wrong for every positive constant (negation), right when the constant coefficient is at most the linear one; getTightBound is proved to be the exact range of the polynomial plus the remainder, for all times."
  },
  {
   "property": "C39",
   "status": "partial",
   "theorems": [
    "Fcl.C39_cos_partial",
    "Fcl.C39_sin_partial",
    "Fcl.C39_lower",
    "Fcl.C39_cos_wrong",
    "Fcl.C39_sin_wrong",
    "Fcl.C39_sin_stale"
   ],
   "note": "The code violates it: when the bounds of the fourth derivative straddle zero the upper end of the remainder is zero (witness over a whole period), and for w=0 the sine keeps the old remainder. Proved: the lower end for all w and intervals; both ends when the function keeps one sign over the interval or w=0. Exact real arithmetic with the code's 1e-15 margin."
  },
  {
   "property": "C40",
   "status": "proved",
   "theorems": [
    "Fcl.C40_intersect",
    "Fcl.C40_distance"
   ],
   "note": "Over the reals. The contact point is in both spheres unless both radii are zero; the normal is zero for coinciding centres (as documented by the code)."
  },
  {
   "property": "C41",
   "status": "partial",
   "theorems": [
    "Fcl.C41_intersect_partial",
    "Fcl.C41_distance",
    "Fcl.C41_violated"
   ],
   "note": "Answer, depth, normal, distance and witness points are exact. Missing because false: the reported contact point need not lie in the sphere (C41_violated)."
  },
  {
   "property": "C42",
   "status": "proved",
   "theorems": [
    "Fcl.C42_intersect",
    "Fcl.C42_distance"
   ],
   "note": "Over the reals, for every tolerance eps >= 0. The depth is exact when the centre is farther than eps from the box and within 2*eps otherwise."
  },
  {
   "property": "C43",
   "status": "proved",
   "theorems": [
    "Fcl.C43_encloses",
    "Fcl.C43_least",
    "Fcl.C43_least_hull",
    "Fcl.C43_transform",
    "Fcl.C43_constructor"
   ],
   "note": "All ten shapes over the reals with exact arithmetic; for half spaces and planes all points with coordinates in the range of the number type. Additionally least boxes for box, sphere, capsule, triangle and convex."
  },
  {
   "property": "C44",
   "status": "proved",
   "theorems": [
    "Fcl.C44_inside",
    "Fcl.C44_ofPoint",
    "Fcl.C44_ofPoints",
    "Fcl.C44_addPoint",
    "Fcl.C44_merge",
    "Fcl.C44_overlap",
    "Fcl.C44_overlap_comm",
    "Fcl.C44_translate",
    "Fcl.C44_smallest",
    "Fcl.C44_smallest_from",
    "Fcl.C44_merge_smallest",
    "Fcl.C44_overlap_exact",
    "Fcl.C44_default",
    "Fcl.C44_size",
    "Fcl.C44_distance_stub_neg",
    "Fcl.C44_overlap_not_exact"
   ],
   "note": "Exact arithmetic over an ordered field, k = 16, 18, 24. Beyond enclosure: minimality of the k-DOP of a point set and of a merge, and an exact criterion for overlap. distance() is a stub."
  },
  {
   "property": "C45",
   "status": "proved",
   "theorems": [
    "Fcl.OBB.C45_disjoint",
    "Fcl.OBB.C45_overlap",
    "Fcl.OBB.C45_overlapAt",
    "Fcl.OBB.C45_contain",
    "Fcl.OBB.C45_detects"
   ],
   "note": "Exact arithmetic; rotations and directions orthonormal. Soundness for all three entry points, contain exact, and the face axes of the first box detect separation beyond the tolerance. The recursion that feeds the test a transposed rotation is not part of this claim."
  },
  {
   "property": "C46",
   "status": "partial",
   "theorems": [
    "Fcl.OBB.C46_far_partial",
    "Fcl.OBB.C46_second_partial",
    "Fcl.OBB.C46_aligned_partial",
    "Fcl.OBB.C46_near_partial",
    "Fcl.OBB.C46_point",
    "Fcl.OBB.C46_violated_near",
    "Fcl.OBB.C46_violated_far"
   ],
   "note": "False in general: C46_violated_near (a corner of the first operand is lost), C46_violated_far (flat boxes give dependent directions). Proved: second operand always (non-flat), both operands when far and not in one plane, when the directions agree, and operator+=(point) for solid boxes. The far branch assumes exact eigenvectors, which the model of eigen_old delivers in exact arithmetic when it returns."
  },
  {
   "property": "C47",
   "status": "proved",
   "theorems": [
    "Fcl.C47_no_contacts",
    "Fcl.C47_unsupported",
    "Fcl.C47_supported",
    "Fcl.C47_swap",
    "Fcl.C47_symmetric",
    "Fcl.C47_distance_unsupported",
    "Fcl.C48_plain_partial",
    "Fcl.C47_violated_distance"
   ],
   "note": "Both tables transcribed entry by entry; for every pair of node types. The distance table lacks the entry (half-space, ellipsoid): C47_violated_distance."
  },
  {
   "property": "C48",
   "status": "partial",
   "theorems": [
    "Fcl.C48_plain_partial",
    "Fcl.C48_signed_partial",
    "Fcl.C48_violated_return",
    "Fcl.C48_violated_depth",
    "Fcl.C48_no_contact"
   ],
   "note": "Holds without the signed fallback. In the fallback the returned value is not result.min_distance, and only one contact is asked for: both violated with witnesses."
  },
  {
   "property": "C49",
   "status": "proved",
   "theorems": [
    "Fcl.C49_children_tile",
    "Fcl.C49_children_disjoint",
    "Fcl.C49_children_size",
    "Fcl.C49_cells_tile",
    "Fcl.C49_cells_disjoint",
    "Fcl.C49_leaf_size",
    "Fcl.C49_classification",
    "Fcl.C49_thresholds_ordered",
    "Fcl.C49_violated_default"
   ],
   "note": "Cells of every depth tile the root cell and have disjoint interiors. The classification is a partition when the free threshold is below the occupancy threshold; with the default thresholds, which are equal, a node with log odds 0 is both occupied and free."
  },
  {
   "property": "C50",
   "status": "partial",
   "theorems": [
    "Fcl.C50_support",
    "Fcl.C50_support_any",
    "Fcl.C50_minkowski",
    "Fcl.C50_separates",
    "Fcl.C50_swept",
    "Fcl.C50_libccd",
    "Fcl.C50_violated_sphere",
    "Fcl.C50_violated_capsule"
   ],
   "note": "Proved for unit directions for every bounded shape, for every nonzero direction for all but spheres and capsules, and for the libccd support functions up to an explicit slack. Spheres and capsules violate the statement in directions that are not of unit length."
  },
  {
   "property": "C51",
   "status": "proved",
   "theorems": [
    "Fcl.C51_constructor",
    "Fcl.C51_local_max",
    "Fcl.C51_extreme",
    "Fcl.C51_polytope",
    "Fcl.C51_violated_coplanar"
   ],
   "note": "Constructor (edge lists, validation, choice of strategy) and search modelled function by function. The search terminates on every mesh and every direction, ends at a local maximum, and at a global one provided local maxima are global (C51_extreme), which holds when the edges at every vertex span the tangent cone (C51_polytope). C51_violated_coplanar: the proviso fails for closed convex meshes with triangulated faces, although the class documentation allows them."
  },
  {
   "property": "C52",
   "status": "partial",
   "theorems": [
    "Fcl.C52_linear_partial",
    "Fcl.C52_quadric_partial",
    "Fcl.C52_cubic_partial",
    "Fcl.C52_cubic_triple_partial",
    "Fcl.C52_violated_small_linear",
    "Fcl.C52_violated_small_quadric",
    "Fcl.C52_violated_cubic",
    "Fcl.C52_violated_cubic_eight",
    "Fcl.C52_violated_cubic_double"
   ],
   "note": "Exact for linear and quadratic equations clear of the zero threshold, for cubics with three different real roots and with a triple root. Violated close to the threshold and for cubics with one real root or a double root, since the cube root is returned as bool."
  },
  {
   "property": "C53",
   "status": "partial",
   "theorems": [
    "Fcl.C53_exact_partial",
    "Fcl.C53_tolerance_partial",
    "Fcl.C53_update_misses"
   ],
   "note": "Violated by the approximate box comparison (witness proved). Proved: holds with an exact comparison; with the tolerance the stored box covers the object after enlargement by the tolerance."
  },
  {
   "property": "C54",
   "status": "partial",
   "theorems": [
    "Fcl.C54_ssap_objects",
    "Fcl.C54_ssap_unregister_moved"
   ],
   "note": "Holds for clients that unregister only while boxes are unchanged since the last set-up; otherwise violated (witness)."
  },
  {
   "property": "C55",
   "status": "proved",
   "theorems": [
    "Fcl.C55_ssap_managers"
   ],
   "note": ""
  },
  {
   "property": "C56",
   "status": "proved",
   "theorems": [
    "Fcl.C56_tree_object",
    "Fcl.C56_tree_self",
    "Fcl.C56_tree_managers",
    "Fcl.C56_ssap_object",
    "Fcl.C56_naive_object",
    "Fcl.C56_managers_agree",
    "Fcl.C56_tree_distance_object",
    "Fcl.C56_tree_distance_self",
    "Fcl.C56_tree_distance_managers"
   ],
   "note": "Dynamic tree, SSaP and brute force managers; distances for the dynamic tree."
  },
  {
   "property": "C57",
   "status": "proved",
   "theorems": [
    "Fcl.C57_shash_objects"
   ],
   "note": "All histories; the client unregisters an object only while its box is as last seen."
  },
  {
   "property": "C58",
   "status": "partial",
   "theorems": [
    "Fcl.C58_vec",
    "Fcl.C58_ends",
    "Fcl.C58_overlap",
    "Fcl.C58_contain",
    "Fcl.C58_bound",
    "Fcl.C58_mat",
    "Fcl.C58_mat_ends",
    "Fcl.C58_getLow_wrong",
    "Fcl.C58_rotationConstrain"
   ],
   "note": "All parts proved except IMatrix3::getLow, which returns the upper ends (negation proved for every entry that is not a single number)."
  },
  {
   "property": "C59",
   "status": "partial",
   "theorems": [
    "Fcl.C59_vec",
    "Fcl.C59_vec_products_partial",
    "Fcl.C59_vec_generators",
    "Fcl.C59_vec_bounds_partial",
    "Fcl.C59_mat",
    "Fcl.C59_mat_products_partial",
    "Fcl.C59_mat_bounds_partial",
    "Fcl.C59_mat_scalar_wrong",
    "Fcl.C59_rotationConstrain_wrong",
    "Fcl.C59_rotationConstrain_partial",
    "Fcl.C59_tight"
   ],
   "note": "Products and coarse bounds for times that are not negative; Matrix3 * TaylorModel stores the third column over the second and TMatrix3::rotationConstrain loses enclosed rotations (both proved as negations)."
  },
  {
   "property": "C60",
   "status": "partial",
   "theorems": [
    "Fcl.C60_order_partial",
    "Fcl.C60_shape_mesh_diverges",
    "Fcl.C60_conservative_advancement_diverges"
   ],
   "note": "False for a shape first and a mesh of more than one triangle second: the traversal does not end for any number of steps. Proved for the other order and for one triangle."
  },
  {
   "property": "C61",
   "status": "proved",
   "theorems": [
    "Fcl.C61_mesh_collide",
    "Fcl.C61_iff",
    "Fcl.C61_built",
    "Fcl.C32_after_build",
    "Fcl.C81_mesh"
   ],
   "note": "From the vertex and triangle arrays to the answer. The triangle test itself is a parameter (exactness is a hypothesis of C61_iff and C61_built); cost sources are kept but nothing is claimed about them. Oriented hierarchies (OBB, RSS, kIOS, OBBRSS) not covered. The triangle test itself is exact on proper triangles: C81_mesh."
  },
  {
   "property": "C62",
   "status": "partial",
   "theorems": [
    "Fcl.C62_local",
    "Fcl.C62_local_mesh",
    "Fcl.C62_object_partial",
    "Fcl.C62_object_slack",
    "Fcl.C62_violated"
   ],
   "note": "Exact whenever the rotation is the identity or is not taken for it; in all cases up to precision times point size; violated for rotations within the tolerance of Eigen's isIdentity, for every positive tolerance."
  },
  {
   "property": "C63",
   "status": "proved",
   "theorems": [
    "Fcl.C63_intersect",
    "Fcl.C63_distance"
   ],
   "note": "Over the reals, for every tolerance eps >= 0. Depth exact when the centre is farther than eps from the cylinder and within 2*eps otherwise."
  },
  {
   "property": "C64",
   "status": "partial",
   "theorems": [
    "Fcl.C64_sound",
    "Fcl.C64_exact_partial",
    "Fcl.C64_violated"
   ],
   "note": "Exact when the lengths and the angle are zero or above the tolerance of the code. For all inputs the distance is never too small and the points are in the capsules (C64_sound). Within the tolerance it is not exact (C64_violated)."
  },
  {
   "property": "C65",
   "status": "partial",
   "theorems": [
    "Fcl.OBB.C65_fit1",
    "Fcl.OBB.C65_fit2",
    "Fcl.OBB.C65_fit2_total",
    "Fcl.OBB.C65_fit3",
    "Fcl.OBB.C65_fit6_partial",
    "Fcl.OBB.C65_fitn",
    "Fcl.OBB.C65_fit_partial",
    "Fcl.OBB.C65_violated"
   ],
   "note": "False for three collinear points (C65_violated); two equal points divide by zero (C65_fit2_total). For six points only the last three are shown enclosed. fitn and hierarchy nodes: always, for any notion of negligible in eigen_old, when eigen_old returns."
  },
  {
   "property": "C66",
   "status": "partial",
   "theorems": [
    "Fcl.C66_oriented_collide",
    "Fcl.C66_iff",
    "Fcl.C66_built",
    "Fcl.C66_refit_topdown",
    "Fcl.C66_violated_points",
    "Fcl.C81_oriented"
   ],
   "note": "Proved for triangle meshes whenever the eigenvalue iteration of the fitter returns on the sets of triangles it is asked for (it gives up silently after 50 sweeps). On a model without triangles the query reads a null pointer: C66_violated_points. The triangle test itself is a parameter. Bottom-up refits are not covered because merging of OBBs is unsound, see C46. The triangle test itself is exact on proper triangles: C81_oriented."
  },
  {
   "property": "C67",
   "status": "partial",
   "theorems": [
    "Fcl.C67_violated"
   ],
   "note": "Violated: for all set-up managers without a common object every overlapping pair is called back exactly twice, and no other pair is called back."
  },
  {
   "property": "C68",
   "status": "partial",
   "theorems": [
    "Fcl.C68_partial",
    "Fcl.C22_violated"
   ],
   "note": "Proved for all histories in which objects are unregistered only while nothing has moved and no other box reaches beyond theirs; violated otherwise (C22_violated)."
  },
  {
   "property": "C69",
   "status": "partial",
   "theorems": [
    "Fcl.C69_sphere",
    "Fcl.C69_ellipsoid",
    "Fcl.C69_box",
    "Fcl.C69_box_exact",
    "Fcl.C69_convex",
    "Fcl.C69_triangle",
    "Fcl.C69_capsule_partial",
    "Fcl.C69_capsule_upTo",
    "Fcl.C69_cylinder_partial",
    "Fcl.C69_cylinder_upTo",
    "Fcl.C69_cone_partial",
    "Fcl.C69_cone_upTo_partial",
    "Fcl.C69_violated_capsule",
    "Fcl.C69_violated_cylinder",
    "Fcl.C69_violated_cone_missed",
    "Fcl.C69_violated_cone_false"
   ],
   "note": "Exact for spheres, ellipsoids, boxes (contact point up to the tolerance), convex sets and triangles. Capsules and cylinders: exact outside of the band of the tolerance, error bounds within it. Cones: likewise if the axis does not point against the normal; otherwise the code is wrong, as the violation theorems show."
  },
  {
   "property": "C70",
   "status": "partial",
   "theorems": [
    "Fcl.C70_sphere",
    "Fcl.C70_ellipsoid",
    "Fcl.C70_box",
    "Fcl.C70_capsule_partial",
    "Fcl.C70_cylinder_partial",
    "Fcl.C70_cylinder_bool_partial",
    "Fcl.C70_cone_partial",
    "Fcl.C70_triangle_partial",
    "Fcl.C70_triangle_crossing",
    "Fcl.C70_violated_capsule",
    "Fcl.C70_violated_capsule_normal",
    "Fcl.C70_violated_cylinder",
    "Fcl.C70_violated_cylinder_normal",
    "Fcl.C70_violated_cone",
    "Fcl.C70_violated_triangle"
   ],
   "note": "Exact for spheres, ellipsoids and boxes. The other shapes outside of the band of the tolerance and without touching from one side; the violation theorems show that the code is wrong there."
  },
  {
   "property": "C71",
   "status": "partial",
   "theorems": [
    "Fcl.C71_planes",
    "Fcl.C71_plane_halfspace_partial",
    "Fcl.C71_halfspaces_partial",
    "Fcl.C71_violated_opposite",
    "Fcl.C71_violated_boundary"
   ],
   "note": "Two planes exact. With half-spaces: boundaries far enough from parallel, and equal normals; opposite normals are answered wrongly by the code. Nearly parallel boundaries within the tolerance are missing."
  },
  {
   "property": "C72",
   "status": "partial",
   "theorems": [
    "Fcl.C72_halfspace",
    "Fcl.C72_convex",
    "Fcl.C72_plane_partial",
    "Fcl.C72_capsule_plane_partial",
    "Fcl.C70_violated_capsule",
    "Fcl.C70_violated_cylinder"
   ],
   "note": "Proved for all half-space functions and for planes with spheres, ellipsoids, boxes and cones; capsules outside of the tolerance; false for capsules within it and for cylinders."
  },
  {
   "property": "C73",
   "status": "partial",
   "theorems": [
    "Fcl.C73_line",
    "Fcl.C73_triangle",
    "Fcl.C73_tetrahedron_beyond",
    "Fcl.C73_tetrahedron_partial",
    "Fcl.C73_inside",
    "Fcl.C73_degenerate",
    "Fcl.C73_violated_tetrahedron"
   ],
   "note": "Segments, triangles and degenerate simplices in full. Tetrahedra: for the points on the inner side of the first face, or beyond it and within its three other faces; false elsewhere (C73_violated_tetrahedron: beyond the first face only that face is searched). GJK only uses the part that is proved."
  },
  {
   "property": "C74",
   "status": "proved",
   "theorems": [
    "Fcl.C74_distance",
    "Fcl.C74_contact",
    "Fcl.C74_intersect",
    "Fcl.C74_triangle"
   ],
   "note": "For exact real arithmetic; the expanding polytope algorithm is an arbitrary function."
  },
  {
   "property": "C75",
   "status": "partial",
   "theorems": [
    "Fcl.C75_progress_partial",
    "Fcl.C75_same_partial",
    "Fcl.C75_violated"
   ],
   "note": "Proved when the search ends for lack of progress, or at a support point near a vertex of the final simplex. False in general: it also ends at a support point dropped before, and misses a collision (C75_violated)."
  },
  {
   "property": "C76",
   "status": "partial",
   "theorems": [
    "Fcl.C76_distance",
    "Fcl.C76_intersect_partial",
    "Fcl.C76_violated_normal"
   ],
   "note": "Distances in full; collisions except for the normal, which is reported in the frame of the first shape (C76_violated_normal)."
  },
  {
   "property": "C77",
   "status": "partial",
   "theorems": [
    "Fcl.C77_triangle_partial",
    "Fcl.C77_violated",
    "Fcl.C77_violated_normal"
   ],
   "note": "The distance and the points up to the pose of the shape. The points are reported in the frame of the shape (C77_violated), and the normal is opposite to that of the query for two shapes (C77_violated_normal)."
  },
  {
   "property": "C78",
   "status": "partial",
   "theorems": [
    "Fcl.C78_false_partial"
   ],
   "note": "Proved: the answer false comes with -1, and the shapes are then at most eps*(1+R) apart, or the search ended with a tetrahedron of sixfold volume V and they are at most CCD_EPS*R/V apart. Missing: a bound on V, and the case that the iterations run out (excluded by R < (iterations-1)*tolerance). The functions ccdVec3PointSegmentDist2 and ccdVec3PointTriDist2 of libccd are assumed exact (Lib.Exact, shown satisfiable)."
  },
  {
   "property": "C79",
   "status": "partial",
   "theorems": [
    "Fcl.C79_upper",
    "Fcl.C79_points_partial",
    "Fcl.C79_violated"
   ],
   "note": "Proved: the distance is that of two points of the shapes and so never too small; points that are written are at that distance up to rounding constants and on the shapes, or on an extension of segments of the shapes that is bounded. False in general: C79_violated gives two boxes for which the points are computed from a variable that was never written."
  },
  {
   "property": "C80",
   "status": "partial",
   "theorems": [
    "Fcl.C80_apart_partial",
    "Fcl.C80_violated_distance",
    "Fcl.C80_violated_overlap"
   ],
   "note": "False: C80_violated_distance (boxes at distance 4 with the result 6.02, for every tolerance), C80_violated_overlap (small overlapping boxes are never reported as such). Proved: when the search ends with a separating direction, the shapes have no common point."
  },
  {
   "property": "C81",
   "status": "partial",
   "theorems": [
    "Fcl.Tri.C81_no",
    "Fcl.Tri.C81_exact_partial",
    "Fcl.Tri.C81_violated_degenerate",
    "Fcl.C81_mesh",
    "Fcl.C81_oriented"
   ],
   "note": "Proved: a negative answer is right for all triangles; for triangles whose vertices are not on a line the test is exact, and with it collide on meshes of such triangles, from the arrays to the answer, with AABBs, k-DOPs and oriented boxes. False for degenerate triangles: C81_violated_degenerate."
  },
  {
   "property": "C82",
   "status": "partial",
   "theorems": [
    "Fcl.Tri.C82_contact_partial",
    "Fcl.Tri.C82_violated_point",
    "Fcl.Tri.C82_violated_degenerate"
   ],
   "note": "Proved for triangles whose vertices are not on a line: everything but the position of the contact points relative to the other triangle, which is false (C82_violated_point: depth 1, contact points 98 away). For degenerate triangles the plane is never written (C82_violated_degenerate)."
  },
  {
   "property": "C83",
   "status": "partial",
   "theorems": [
    "Fcl.Tri.C83_segments",
    "Fcl.Tri.C83_any",
    "Fcl.Tri.C83_distance_partial",
    "Fcl.Tri.C83_violated_small",
    "Fcl.Tri.C83_violated_touching"
   ],
   "note": "Proved for every pair of triangles each of which is degenerate or has a normal of square above 1e-15; for all triangles: points on the triangles, zero when touching, never too small unless zero. False for smaller triangles (C83_violated_small); for touching triangles the points need not coincide (C83_violated_touching). Real arithmetic, with division by zero modelled."
  },
  {
   "property": "C84",
   "status": "partial",
   "theorems": [
    "Fcl.C84_mesh_partial",
    "Fcl.C84_satisfied",
    "Fcl.C84_aabb_partial",
    "Fcl.C84_oriented_partial",
    "Fcl.C84_violated_reuse",
    "Fcl.C84_violated_twice"
   ],
   "note": "AABB meshes from the arrays to the result, all poses; oriented volumes for every volume distance that is a lower bound. Triangles as in C83. A second query with the same result object and the same meshes moves the nearest points again (C84_violated_reuse, C84_violated_twice). The result of the AABB query points to deleted copies (objs in C84_aabb_partial)."
  },
  {
   "property": "C85",
   "status": "partial",
   "theorems": [
    "Fcl.RSS.C85_lower",
    "Fcl.RSS.C85_overlap",
    "Fcl.RSS.C85_members",
    "Fcl.RSS.C85_member_lower",
    "Fcl.RSS.C85_member_overlap",
    "Fcl.RSS.C85_exact_partial",
    "Fcl.RSS.C85_contain",
    "Fcl.RSS.C85_contain_iff",
    "Fcl.RSS.C85_violated_contain",
    "Fcl.RSS.C85_violated_add_point",
    "Fcl.RSS.Rects.C85_violated_points",
    "Fcl.RSS.C85_example"
   ],
   "note": "The lower bound (what mesh queries rely on) holds for every pair and pose, whatever branch answers; exactness is proved when a pair of sides is found. Missing: exactness of the fallback on the normals. False: contain refuses points beside the middle of a side, operator += a point leaves the point outside, the points of the fallback are not on the rectangles."
  },
  {
   "property": "C86",
   "status": "partial",
   "theorems": [
    "Fcl.RSS.C86_fit1",
    "Fcl.RSS.C86_fit2",
    "Fcl.RSS.C86_fit3",
    "Fcl.RSS.C86_fitn",
    "Fcl.RSS.C86_fit_partial",
    "Fcl.RSS.C86_violated_fit",
    "Fcl.RSS.C86_add_partial",
    "Fcl.RSS.C86_violated_add",
    "Fcl.RSS.C86_translate",
    "Fcl.RSS.C86_center",
    "Fcl.RSS.C86_set_center"
   ],
   "note": "Every fitter encloses its points, three points on a line excepted, where it is false. The sum encloses both operands when its directions are perpendicular; the code takes the third direction from the left operand, and the claim is false in general."
  },
  {
   "property": "C87",
   "status": "partial",
   "theorems": [
    "Fcl.KIOS.C87_overlap",
    "Fcl.KIOS.C87_member_overlap",
    "Fcl.KIOS.C87_lower",
    "Fcl.KIOS.C87_widest",
    "Fcl.KIOS.C87_contain",
    "Fcl.KIOS.C87_encloseSphere",
    "Fcl.KIOS.C87_add_partial",
    "Fcl.KIOS.C87_addPoint",
    "Fcl.KIOS.C87_fit1",
    "Fcl.KIOS.C87_fit2",
    "Fcl.KIOS.C87_fit3",
    "Fcl.KIOS.C87_fitn",
    "Fcl.KIOS.C87_fit_partial",
    "Fcl.KIOS.C87_violated_contain",
    "Fcl.KIOS.C87_violated_translate",
    "Fcl.KIOS.C87_violated_points"
   ],
   "note": "Overlap and the lower bound of distance hold at every pose, fits enclose. Violated: contain ignores the box, translate discards the translated box, and the points of distance are read from one operand only. Missing: fits of two equal points and of three on a line (0/0 in the code); the sum encloses if the sum of the boxes does, which it need not (C46)."
  },
  {
   "property": "C88",
   "status": "partial",
   "theorems": [
    "Fcl.OBBRSS.C88_overlap",
    "Fcl.OBBRSS.C88_lower",
    "Fcl.OBBRSS.C88_fitn",
    "Fcl.OVol.C88_collide_obb",
    "Fcl.OVol.C88_collide_obbrss",
    "Fcl.OVol.C88_collide_kios",
    "Fcl.OVol.C88_collide_rss",
    "Fcl.OVol.C88_distance_rss_partial",
    "Fcl.OVol.C88_distance_obbrss_partial",
    "Fcl.OVol.C88_distance_kios_partial"
   ],
   "note": "From the arrays to the answer for OBB, OBBRSS, kIOS and RSS, with the construction, traversal, leaf tests and fitters of the library; collision for meshes without degenerate triangles. Missing in the distance: triangles whose normal is below the threshold of triDistance but not zero, and a result that already names the same two meshes (C84). Assumed: eigen_old converges on the vertex sets of the mesh."
  },
  {
   "property": "C89",
   "status": "partial",
   "theorems": [
    "Fcl.C89_hull",
    "Fcl.C89_kdop",
    "Fcl.C89_rss_partial",
    "Fcl.C89_kios_partial",
    "Fcl.C89_obbrss_partial",
    "Fcl.C89_obb_partial",
    "Fcl.C89_halfspace",
    "Fcl.C89_plane",
    "Fcl.C89_plane_total",
    "Fcl.C89_kdop_halfspace_partial",
    "Fcl.C89_kdop_plane_partial",
    "Fcl.C89_violated_rss_plane",
    "Fcl.C89_violated_kdop_halfspace",
    "Fcl.C89_violated_kdop24_halfspace",
    "Fcl.C89_violated_kdop24_plane",
    "Fcl.C89_violated_kdop16_plane",
    "Fcl.C89_violated_obb_convex"
   ],
   "note": "The bound vertices of every bounded shape surround it at every pose (icosahedra and hexagons, by the separation theorem). Every k-DOP, RSS, OBBRSS, kIOS and OBB of a bounded shape encloses it, whatever the eigenvectors, for points in general position; missing: triangles without area. The code refutes the rest: OBB of Convex, RSS (hence OBBRSS) of a plane, k-DOPs of half-spaces along (1,0,1) and of half-spaces and planes along (1,-1,-1) and (0,1,1)."
  },
  {
   "property": "C90",
   "status": "partial",
   "theorems": [
    "Fcl.ConvertBV.C90_aabb_aabb",
    "Fcl.ConvertBV.C90_aabb_obb",
    "Fcl.ConvertBV.C90_obb_obb",
    "Fcl.ConvertBV.C90_rss_rss",
    "Fcl.ConvertBV.C90_obbrss_obb",
    "Fcl.ConvertBV.C90_obbrss_rss",
    "Fcl.ConvertBV.C90_rss_obb",
    "Fcl.ConvertBV.C90_obb_rss",
    "Fcl.ConvertBV.C90_obb_aabb",
    "Fcl.ConvertBV.C90_obbrss_aabb",
    "Fcl.ConvertBV.C90_rss_aabb",
    "Fcl.ConvertBV.C90_kdop_aabb",
    "Fcl.ConvertBV.C90_kdop_obb",
    "Fcl.ConvertBV.C90_kios_partial",
    "Fcl.ConvertBV.C90_kios_fit",
    "Fcl.ConvertBV.C90_aabb_rss",
    "Fcl.ConvertBV.C90_box_aabb",
    "Fcl.ConvertBV.C90_box_aabb_at",
    "Fcl.ConvertBV.C90_box_obb",
    "Fcl.ConvertBV.C90_box_obbrss",
    "Fcl.ConvertBV.C90_box_kios",
    "Fcl.ConvertBV.C90_box_kdop",
    "Fcl.ConvertBV.C90_violated_box_rss",
    "Fcl.ConvertBV.C90_violated_box_obb",
    "Fcl.ConvertBV.C90_violated_box_kios",
    "Fcl.ConvertBV.C90_violated_kios",
    "Fcl.ConvertBV.C90_violated_box_rssAt"
   ],
   "note": "Every conversion between AABB, OBB, RSS, OBBRSS and k-DOP, at every rigid pose; AABB to OBB, OBB to OBB, RSS to RSS and the boxes of AABBs and OBBs are exact. kIOS if the first sphere is centred in the box, which fitting any number of points but three ensures. The code refutes the rest: kIOS of an obtuse triangle, boxes of RSSs, boxes of OBBs and kIOSs at a pose."
  },
  {
   "property": "C91",
   "status": "proved",
   "theorems": [
    "Fcl.Octree.C91_shape",
    "Fcl.Octree.C91_shape_first",
    "Fcl.Octree.C91_shape_answer",
    "Fcl.Octree.C91_mesh",
    "Fcl.Octree.C91_mesh_aabb",
    "Fcl.Octree.C91_mesh_obb",
    "Fcl.Octree.C91_mesh_obbrss",
    "Fcl.Octree.C91_octrees",
    "Fcl.Octree.C91_sphere",
    "Fcl.Octree.C91_halfspace",
    "Fcl.Octree.C91_free_and_occupied",
    "Fcl.Octree.C91_default_misses",
    "Fcl.Octree.C91_low_threshold_misses",
    "Fcl.Octree.C91_stale_misses",
    "Fcl.Octree.C91_shape_cost_lost",
    "Fcl.Octree.C91_empty_cost",
    "Fcl.Octree.C91_gap",
    "Fcl.Octree.C91_sphere_contacts"
   ],
   "note": "For all octrees (model in Octree/Solver.lean, induction over both trees), relative to a solver that decides exactly whether a box touches the shape, triangle or box; C91_sphere and C91_halfspace use the modelled solver functions. The other theorems are counterexamples: nodes both free and occupied (also with the default thresholds), a low occupancy threshold, inner nodes out of date, costs computed and thrown away, costs added unasked for an empty octree, and the gap that two octrees without contacts do not see. C91_sphere_contacts gives the direction of the normal."
  },
  {
   "property": "C92",
   "status": "proved",
   "theorems": [
    "Fcl.Octree.C92_shape",
    "Fcl.Octree.C92_mesh",
    "Fcl.Octree.C92_mesh_obbrss",
    "Fcl.Octree.C92_octrees",
    "Fcl.Octree.C92_sphere",
    "Fcl.Octree.C92_finds_it",
    "Fcl.Octree.C92_empty"
   ],
   "note": "For all octrees, relative to a solver that gives exact distances of boxes; C92_sphere uses the modelled solver function. C92_empty is the null pointer of an empty octree."
  },
  {
   "property": "C93",
   "status": "partial",
   "theorems": [
    "Fcl.Prim.C93_intersect",
    "Fcl.Prim.C93_detects",
    "Fcl.Prim.C93_deepest",
    "Fcl.Prim.C93_distance",
    "Fcl.Prim.C93_points",
    "Fcl.Prim.C93_posed",
    "Fcl.Prim.C93_instance",
    "Fcl.Prim.C93_distance_instance",
    "Fcl.Prim.C93_violated_depth",
    "Fcl.Prim.C93_violated_deepest",
    "Fcl.Prim.C93_violated_flat",
    "Fcl.Prim.C93_violated_contact",
    "Fcl.Prim.C93_violated_flat_distance"
   ],
   "note": "For triangles with area: the collision answer is exact up to the machine epsilon, the contact point is in the triangle and near enough, the normal points to it, and it is the deepest point if the centre projects inside; the three distance functions are exact (all 25 cases). The code refutes the rest: the depth has the wrong sign, the contact on an edge is not the deepest one, a triangle without area collides with every sphere, and in contact the query with points leaves the distance unwritten."
  },
  {
   "property": "C94",
   "status": "partial",
   "theorems": [
    "Fcl.C94_oriented",
    "Fcl.C94_rebuilt",
    "Fcl.OVol.C94_halfspace_obb",
    "Fcl.OVol.C94_halfspace_rss",
    "Fcl.OVol.C94_halfspace_obbrss",
    "Fcl.OVol.C94_halfspace_kios",
    "Fcl.OVol.C94_plane_obb_partial",
    "Fcl.OVol.C94_plane_kios_partial",
    "Fcl.OVol.C94_sphere_obb",
    "Fcl.OVol.C94_sphere_rss",
    "Fcl.OVol.C94_sphere_obbrss",
    "Fcl.C94_sphere_rebuilt",
    "Fcl.C94_sphere_volumes",
    "Fcl.C94_cost_once",
    "Fcl.C94_violated_free_cost",
    "Fcl.C94_violated_point_cloud",
    "Fcl.C94_violated_kdop_halfspace",
    "Fcl.C94_violated_plane_touch"
   ],
   "note": "C94_oriented and C94_rebuilt hold for every shape whose volume encloses it and every triangle test; the others instantiate them from the arrays of a mesh to the result of collide. The answer is exact for half-spaces (OBB, RSS, OBBRSS, kIOS; as far as the largest number) and for spheres (up to eps in the sphere test; also AABB and k-DOPs). Planes: exact for crossing; a touching plane is missed (C94_violated_plane_touch). Half-spaces with k-DOPs are missed (C94_violated_kdop_halfspace); costs of free shapes differ between volume types (C94_violated_free_cost); point clouds read a null pointer (C94_violated_point_cloud). Not covered: the shapes whose triangle test is GJK, for which C94_oriented reduces the claim to that test."
  },
  {
   "property": "C95",
   "status": "partial",
   "theorems": [
    "Fcl.C95_oriented",
    "Fcl.OVol.C95_sphere_rss_partial",
    "Fcl.OVol.C95_sphere_obbrss_partial",
    "Fcl.OVol.C95_sphere_kios_partial",
    "Fcl.C95_violated_contact",
    "Fcl.C95_violated_world",
    "Fcl.C95_violated_square",
    "Fcl.C95_violated_point_cloud"
   ],
   "note": "Proved from the arrays of a mesh to the result, for any exact triangle test and any enclosing volume, and for spheres with RSS, OBBRSS and kIOS volumes that touch no triangle. The code refutes the rest: for a sphere that touches a triangle the distance is what an uninitialised variable holds (C95_violated_contact); the nearest points are in the frames of the objects, not in world coordinates (C95_violated_world, C95_violated_square); a point cloud reads a null pointer. The triangle tests of other shapes, which use GJK, are not modelled."
  },
  {
   "property": "C96",
   "status": "partial",
   "theorems": [
    "Fcl.Motion.C96_translation",
    "Fcl.Motion.C96_interp",
    "Fcl.Motion.C96_screw",
    "Fcl.Motion.C96_screw_bounds",
    "Fcl.Motion.C96_violated_screw",
    "Fcl.Motion.C96_violated_translation",
    "Fcl.Motion.C96_violated_reference",
    "Fcl.Motion.C96_violated_constructor",
    "Fcl.Motion.C96_violated_spline",
    "Fcl.Motion.C96_after"
   ],
   "note": "Proved for translations with one rotation, for the linear interpolation of InterpMotion and for ScrewMotion with a rotation of at least 1e-10; the bounds of ScrewMotion for all rotations. False: a ScrewMotion that only translates goes twice as far, TranslationMotion drops the rotation, one constructor of InterpMotion leaves its velocities unset, another the reference point, and the bound of SplineMotion is not a bound of the rate. After time 1 the motions stay where they are (C96_after)."
  },
  {
   "property": "C97",
   "status": "partial",
   "theorems": [
    "Fcl.Continuous.C97_naive",
    "Fcl.Continuous.C97_sphere",
    "Fcl.Continuous.C97_violated_tunnel",
    "Fcl.Continuous.C97_violated_error",
    "Fcl.Continuous.C97_violated_none"
   ],
   "note": "Exact at the samples. As a continuous query it is not: bodies go through one another between samples, the ten iterations of the default request make toc_err ineffective, and with num_max_iterations = 0 nothing is tested."
  },
  {
   "property": "C98",
   "status": "partial",
   "theorems": [
    "Fcl.Continuous.C98_shapes_partial",
    "Fcl.Continuous.C98_sphere_partial",
    "Fcl.Continuous.C98_translation_partial",
    "Fcl.Continuous.advance_some",
    "Fcl.Continuous.C98_violated_end",
    "Fcl.Continuous.C98_violated_graze",
    "Fcl.Continuous.C98_violated_zero",
    "Fcl.Continuous.C98_violated_state",
    "Fcl.Continuous.C98_violated_spline",
    "Fcl.Continuous.C98_violated_mesh",
    "Fcl.Continuous.C98_violated_copy",
    "Fcl.Continuous.C98_violated_mesh_shape",
    "Fcl.Continuous.C98_violated_shape_mesh"
   ],
   "note": "Proved for two convex shapes with exact queries, with instances for spheres against spheres, capsules, boxes and cylinders and for the motions of C96. False: a contact at time 1 only is not reported, a near miss is reported, a negative zero as bound skips a contact, a second query on the same motions starts where the first one ended, spline motions are missed, and two meshes are missed when the second one moves or from the second round on. Mesh and shape (one triangle): the direction of the motion bounds is taken to the image of a corner of the triangle instead of the nearest point of the shape, so that a sphere that passes through the middle of a triangle is not reported (C98_violated_mesh_shape, C98_violated_shape_mesh; exPlate_hit shows that the hypothesis on the static query is met)."
  },
  {
   "property": "C99",
   "status": "partial",
   "theorems": [
    "Fcl.BoxBox.C99_apart",
    "Fcl.BoxBox.C99_near_partial",
    "Fcl.BoxBox.C99_exact",
    "Fcl.BoxBox.C99_aligned",
    "Fcl.BoxBox.C99_violated_gap"
   ],
   "note": "Proved: no is right (C99_apart); yes is right without the tolerance (C99_exact) and for boxes with parallel sides with any tolerance (C99_aligned); with the tolerance yes means that the boxes touch or that only a slit of explicit width is between them (C99_near_partial). The rest is false: C99_violated_gap gives two cubes that are apart and reported. The proof that fifteen directions are enough is in Geom/Zonotope."
  },
  {
   "property": "C100",
   "status": "partial",
   "theorems": [
    "Fcl.BoxBox.C100_separates",
    "Fcl.BoxBox.C100_depth_partial",
    "Fcl.BoxBox.C100_exact_partial",
    "Fcl.BoxBox.C100_aligned",
    "Fcl.BoxBox.C100_violated_depth"
   ],
   "note": "Proved: unit normal, and moving by more than the depth along it separates (C100_separates); for boxes with parallel sides the depth is the penetration depth (C100_aligned); in general no movement shorter than the depth over 1.05 separates, up to the tolerance (C100_depth_partial) or exactly without it (C100_exact_partial). The exact statement is false: C100_violated_depth, a depth of 2.32 is reported where 2.3 is enough."
  },
  {
   "property": "C101",
   "status": "partial",
   "theorems": [
    "Fcl.BoxBox.C101_face",
    "Fcl.BoxBox.C101_deepest",
    "Fcl.BoxBox.C101_corner",
    "Fcl.BoxBox.C101_edge_partial",
    "Fcl.BoxBox.C101_violated_none",
    "Fcl.BoxBox.C101_count"
   ],
   "note": "For a face all of it is proved, including that the clipped polygon fits into its eight points (the loop is never cut short). For two edges it is proved that the contact is half way between the lines of the two edges, that the points on the lines differ by the depth along the normal (without the tolerance); that they are on the edges themselves is missing. That boxes that collide have a contact is false of the code: two cubes that share an edge collide without a contact, since the clipping drops points on the boundary (C101_violated_none); with contacts asked for, collide then reports no collision."
  },
  {
   "property": "C102",
   "status": "proved",
   "theorems": [
    "Fcl.OBB.C102_near",
    "Fcl.OBB.C102_near_at",
    "Fcl.OBB.C102_violated_gap"
   ],
   "note": "The converse of C45. C102_violated_gap shows that the tolerance is needed: two cubes with a gap of two millionths between them overlap."
  },
  {
   "property": "C103",
   "status": "partial",
   "theorems": [
    "Fcl.OctMgr.C103_collide",
    "Fcl.OctMgr.C103_distance",
    "Fcl.OctMgr.cellBox_pts",
    "Fcl.OctMgr.C103_violated_empty_octree"
   ],
   "note": "Collision and distance proved for all histories, octrees, poses and callbacks. Partial because the code refutes the last clause: a distance query with an octree that has no nodes dereferences a null pointer. Eigen's isIdentity is a parameter that is taken to be right (it accepts matrices within 1e-12 of the identity)."
  },
  {
   "property": "C104",
   "status": "partial",
   "theorems": [
    "Fcl.ToMesh.C104_mesh",
    "Fcl.ToMesh.C104_placed",
    "Fcl.ToMesh.C104_generate",
    "Fcl.ToMesh.C104_finished",
    "Fcl.ToMesh.C104_count",
    "Fcl.ToMesh.C104_violated_faces",
    "Fcl.ToMesh.C104_violated_small",
    "Fcl.ToMesh.C104_violated_flat",
    "Fcl.ToMesh.C104_violated_zero",
    "Fcl.ToMesh.C104_two_segments"
   ],
   "note": "Proved for all sizes, parameters with at least three segments around the axis and one along it, poses and model contents. The code refutes the rest: a sphere given by a number of faces gets r^4 N triangles instead of the documented r^2 N; small cylinders and cones get no triangle and small spheres get degenerate ones; zero rings or zero segments along the axis make an unsigned loop bound wrap around. Exact arithmetic."
  },
  {
   "property": "C105",
   "status": "partial",
   "theorems": [
    "Fcl.Rand.C105_real",
    "Fcl.Rand.C105_int",
    "Fcl.Rand.C105_bool",
    "Fcl.Rand.C105_halfNormal",
    "Fcl.Rand.C105_halfNormalInt",
    "Fcl.Rand.C105_quaternion",
    "Fcl.Rand.C105_euler",
    "Fcl.Rand.C105_disk",
    "Fcl.Rand.C105_ball",
    "Fcl.Rand.C105_sampleR",
    "Fcl.Rand.C105_se2Disk",
    "Fcl.Rand.C105_se3Euler",
    "Fcl.Rand.C105_se3EulerBall",
    "Fcl.Rand.C105_se3QuatBall",
    "Fcl.Rand.C105_violated_se2",
    "Fcl.Rand.C105_violated_se3Quat"
   ],
   "note": "Proved for everything but two samplers, for which the code refutes the property: SamplerSE2::sample uses the lower bounds as upper bounds (and reads a third element of a vector of two), SamplerSE3Quat::sample writes a seventh element of a vector of six. Real numbers instead of floating point; the standard library generators are any sequence in [0,1); Eigen eulerAngles is any function of the rotation matrix."
  },
  {
   "property": "C106",
   "status": "partial",
   "theorems": [
    "Fcl.Rand.C106_stable",
    "Fcl.Rand.C106_user",
    "Fcl.Rand.C106_repeatable",
    "Fcl.Rand.C106_violated_no_effect",
    "Fcl.Rand.C106_violated_different"
   ],
   "note": "getSeed is stable and returns the user's seed; the seeds of the generators depend only on the number of generators created before. The code refutes the rest: setSeed has no effect on any generator, and among more than 10^9 generators two have the same seed, against the documentation of RNG."
  },
  {
   "property": "C107",
   "status": "partial",
   "theorems": [
    "Fcl.TArr.C107_objects_partial",
    "Fcl.TArr.C107_enclosure_partial",
    "Fcl.TArr.C107_collide_object_partial",
    "Fcl.TArr.C107_collide_self_partial",
    "Fcl.TArr.C107_collide_managers_partial",
    "Fcl.TArr.C107_distance_object_partial",
    "Fcl.TArr.C107_distance_self_partial",
    "Fcl.TArr.C107_distance_managers_partial",
    "Fcl.TArr.C107_default_shallow",
    "Fcl.TArr.C107_violated_growth",
    "Fcl.TArr.C107_violated_single_update",
    "Fcl.TArr.C107_violated_rebalance"
   ],
   "note": "Proved on a model of the memory (array, unions, free list) for all histories that fit into the array, do not move the only object and never find the tree too deep (which cannot happen with up to 14 objects and the default setting). For the other histories the property is false: every growth of the array reads through references into the deleted array (violated_growth, any history), moving the only object loses it (violated_single_update, any history), and balanceTopdown leaves stale indices in the table (violated_rebalance). Not modelled: octrees, init levels 1-3, topdown_level 1; the queries are modelled as those of the manager with pointers on the tree read from the array."
  },
  {
   "property": "C108",
   "status": "proved",
   "theorems": [
    "Fcl.Mass.C108_solid",
    "Fcl.Mass.C108_volume",
    "Fcl.Mass.C108_com",
    "Fcl.Mass.C108_inertia",
    "Fcl.Mass.C108_about_com",
    "Fcl.Mass.C108_parallel_axis"
   ],
   "note": "Lebesgue integrals over the point sets of the shapes (Mathlib measure theory, polar coordinates); real arithmetic, constants<S>::pi() is π."
  },
  {
   "property": "C109",
   "status": "partial",
   "theorems": [
    "Fcl.Mass.C109_mesh_volume",
    "Fcl.Mass.C109_mesh_com",
    "Fcl.Mass.C109_mesh_inertia",
    "Fcl.Mass.C109_mesh_about_com",
    "Fcl.Mass.C109_convex_volume",
    "Fcl.Mass.C109_convex_com",
    "Fcl.Mass.C109_convex_inertia",
    "Fcl.Mass.C109_violated_convex"
   ],
   "note": "Proved for meshes and, up to the factor of the volume in the inertia, for Convex; the inertia of a Convex about its centre of mass is refuted (a tetrahedron of volume 36 gets a negative diagonal entry). Encloses counts signed tetrahedra with a common tip, almost everywhere; that valid convex polyhedra enclose their hull is not proved."
  },
  {
   "property": "C110",
   "status": "proved",
   "theorems": [
    "Fcl.C110_runs",
    "Fcl.C110_surface"
   ],
   "note": "Every history of calls on one object (Epa.Reach) over arbitrary initial memory. The recursion of expand is proved never to exceed the number of faces. The status is one of valid, invalidHull, accuracyReached, outOfVertices, fallBack. Epa.Tetra.epa is a concrete run that meets the hypotheses of C110_surface. Exact arithmetic; the doubly linked lists are lists of places; vertices are values."
  },
  {
   "property": "C111",
   "status": "partial",
   "theorems": [
    "Fcl.C111_answer",
    "Fcl.C111_contact",
    "Fcl.C111_separates_partial",
    "Fcl.C111_violated_sign",
    "Fcl.C111_violated_depth"
   ],
   "note": "Proved: the answer is that of GJK, exactly one contact is added, the normal is a unit vector (in the frame of the first shape, see C76), the place is half the reported depth from a point of the first shape, and when the accuracy was reached the normal and the depth with opposite sign separate the shapes up to the tolerance. Refuted: the reported depth has the wrong sign (C111_violated_sign in general, C111_violated_depth for two concrete tetrahedra). Missing: that the depth is not smaller than the true one needs, and the outcomes invalidHull, outOfVertices and fallBack."
  },
  {
   "property": "C112",
   "status": "partial",
   "theorems": [
    "Fcl.Motion.C112_box",
    "Fcl.Motion.C112_least",
    "Fcl.Motion.C112_interp_partial",
    "Fcl.Motion.C112_screw_partial",
    "Fcl.Motion.C112_instance",
    "Fcl.Motion.C112_violated_interp",
    "Fcl.Motion.C112_violated_screw",
    "Fcl.Motion.C112_violated_translation",
    "Fcl.Motion.C112_violated_spline",
    "Fcl.Motion.C112_hat"
   ],
   "note": "Proved: if the Taylor models of a motion enclose it, the box contains the object at all times, and it is the smallest such box if the models have no remainder; hence for InterpMotion and ScrewMotion without rotation. Partial because the code refutes the rest: with any rotation about the third axis a plate leaves its box (the product of a matrix and a Taylor model loses a column), TranslationMotion gives no Taylor model and computeAABB reads through a null pointer, and the Taylor model of SplineMotion has a wrong constant coefficient."
  },
  {
   "property": "C113",
   "status": "partial",
   "theorems": [
    "Fcl.TriCcd.C113_ends",
    "Fcl.TriCcd.C113_coefficients",
    "Fcl.TriCcd.C113_vertex_no",
    "Fcl.TriCcd.C113_edge_no",
    "Fcl.TriCcd.C113_vertex_yes",
    "Fcl.TriCcd.C113_pair_found_partial",
    "Fcl.TriCcd.C113_pair_true",
    "Fcl.TriCcd.C113_mesh_found_partial",
    "Fcl.TriCcd.C113_mesh_true",
    "Fcl.TriCcd.C113_found_instance",
    "Fcl.TriCcd.C113_violated_sliding",
    "Fcl.TriCcd.C113_sliding_instance",
    "Fcl.TriCcd.C113_violated_small",
    "Fcl.TriCcd.C113_violated_edges",
    "Fcl.TriCcd.C113_violated_overlap",
    "Fcl.TriCcd.C113_violated_far",
    "Fcl.TriCcd.C113_violated_spurious",
    "Fcl.TriCcd.C113_violated_poses",
    "Fcl.TriCcd.C113_violated_changes",
    "Fcl.TriCcd.C113_poses_instance",
    "Fcl.TriCcd.C113_violated_time"
   ],
   "note": "Proved for features that deform: the search ends, its polynomial is the volume, a negative answer of the elementary tests means that a vertex or edge is not over the other feature for 1e-7 of the motion after the features are in one plane, and a positive one that it is so up to the tolerance. Proved for meshes that start apart, in the same pose without rotation, and whose triangles keep clear of the tolerances (Clear: no short edges, no parallel edges, no slow relative motion, no sliding in a common plane): a contact at any time is reported, for every sound bounding volume type; and what is reported is a contact up to 2e-5/(4 area^2)*diameter at the reported time. The full statement is false: C113_violated_sliding (triangles that slide into each other in one plane), _small (triangles of a thousandth), _edges (edges of four hundredths), _overlap (meshes that overlap from the start) are missed; _far (a triangle of a hundredth and one half a unit away) and _spurious (a vertex above a turning triangle) are reported; _poses (the first poses are ignored), _changes (the constant meshes are moved) and _time (the time is that of the first pair found, not of the first contact)."
  },
  {
   "property": "C114",
   "status": "partial",
   "theorems": [
    "Fcl.Pt.C114_patch",
    "Fcl.Pt.C114_sane",
    "Fcl.Pt.C114_throws",
    "Fcl.Pt.C114_even",
    "Fcl.Pt.C114_closed",
    "Fcl.Pt.C114_violated_pinched",
    "Fcl.Pt.C114_normal",
    "Fcl.Pt.C114_visible",
    "Fcl.Pt.C114_border",
    "Fcl.Pt.C114_all_seen",
    "Fcl.Pt.C114_convex_partial",
    "Fcl.Pt.C114_facets"
   ],
   "note": "For all answers of the tests: the patch is found, its classification is right, the check of debug builds passes and no exception but the two documented ones (nearest element a vertex, or an edge of which no face is seen) is thrown; the border is made of closed lines; the surface stays closed if the border does not touch itself, and C114_violated_pinched shows that answers of the tests exist for which it does touch itself and an edge gets four faces. With exact arithmetic: the normals point outward, the test of visibility is right, the border does not touch itself, the patch is the set of all faces that are seen, and the expansion is convex. Missing: polytopes with two faces in one plane (the patch is then proved to be part of what is seen, not all of it), the exception of debug builds for a face without area, and rounding. C114_facets: for a point in the plane of no face, no two faces of the expansion are in one plane, so that the expansion can be repeated."
  },
  {
   "property": "C115",
   "status": "partial",
   "theorems": [
    "Fcl.Pt.C115_depth_partial",
    "Fcl.Pt.C115_no_exception_partial",
    "Fcl.Pt.C115_ends_partial",
    "Fcl.Pt.C115_first",
    "Fcl.Pt.C115_three_partial",
    "Fcl.Pt.C115_violated_flat",
    "Fcl.Pt.C115_touching_triangle"
   ],
   "note": "Over the reals, by the invariant that the polytope is convex with no two faces in one plane, has the origin and is made of extreme points of the difference of the shapes; the ball of the nearest distance is in the polytope, the support point of the last direction bounds the shapes, and the vertices keep the distance of the tolerance, so that only finitely many fit. Missing: new vertices in the plane of a face (the hypothesis Regular asks for general position), the start from two points, and rounding. For the start from three points, C115_three_partial gives the touching contact and the tetrahedron; C115_violated_flat refutes it in part: a support point in the plane of the triangle but away from it is taken, the tetrahedron has no volume and the touching contact is not found. C115_touching_triangle: the polytope of a touching contact is the triangle of the three points."
  },
  {
   "property": "C116",
   "status": "partial",
   "theorems": [
    "Fcl.Pt.C116_same",
    "Fcl.Pt.C116_positive",
    "Fcl.Pt.C116_start",
    "Fcl.Pt.C116_shapes",
    "Fcl.Pt.C116_depth_partial",
    "Fcl.Pt.C116_shapes_depth_partial",
    "Fcl.Pt.C116_octa_closed",
    "Fcl.Pt.C116_two_partial",
    "Fcl.Pt.C116_violated_touching",
    "Fcl.Pt.C116_two_touching"
   ],
   "note": "The models of the GJK search (C78 to C80) and of the expansion (C115) are put together. The points of the search are proved to be extreme points of the difference, as the expansion needs. Missing for overlapping shapes: searches that end with two or three points or a flat tetrahedron, new vertices in the plane of a face (Regular), cylinders, rounding. C116_violated_touching refutes it for searches that end with two points: a double pyramid around a point is answered \"separated\" with the distance zero, although all moves up to 1/4 leave the point inside. C116_two_touching: when the start from two points takes them for a touching contact."
  },
  {
   "property": "C117",
   "status": "partial",
   "theorems": [
    "Fcl.C117_expand_partial",
    "Fcl.C117_leaf_reads",
    "Fcl.C117_total",
    "Fcl.C117_violated_order",
    "Fcl.C117_violated_triangles",
    "Fcl.C117_rss",
    "Fcl.C117_adding",
    "Fcl.C117_built_root",
    "Fcl.C117_violated_rss"
   ],
   "note": "False in general: the expansion indexes the vertices and the uncertainties with places of primitive_indices instead of with the primitives stored there (C117_leaf_reads, C117_violated_order), and on a mesh with more triangles than vertices it reads outside of the vertices (C117_violated_triangles). Proved: the root holds every uncertain point, and every node does when the construction kept the order of the points; for RSS (C117_rss) and for volumes built by adding points (C117_adding). For OBB leaves the fit of six points itself can miss points (C65_fit6_partial). C117_violated_rss: refuted for RSS too, with radius 0 and any uncertainties."
  }
 ]
}