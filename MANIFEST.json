{"claims": [
  {"property": "C01", "status": "proved", "theorems": ["Verif.Props.C01_buffer_is_k_best", "Verif.Props.C01_buffer_k_smallest", "Verif.Props.C01_bad_capacity_aborts"], "note": "int counters are unbounded in the model (k <= INT_MAX in C++); distances range over a linear order, NaN is treated under C09"},
  {"property": "C02", "status": "proved", "theorems": ["Verif.Props.C02_knn_search_exact", "Verif.Props.C02_knn_search_static_exact"], "note": "exact arithmetic over any ordered field; max_leaf_size >= 3 or negative, N < 2^32, scan count non-zero"},
  {"property": "C03", "status": "proved", "theorems": ["Verif.Props.C03_knn_exact_any_direction", "Verif.Props.C03_normal_projection_exact"], "note": "eigen-solver is a parameter returning a vector of norm at most one"},
  {"property": "C04", "status": "proved", "theorems": ["Verif.Props.C04_nearest_neighbor"], "note": "same assumptions as C02"},
  {"property": "C05", "status": "proved", "theorems": ["Verif.Props.C05_early_termination", "Verif.Props.C03_knn_exact_any_direction", "Verif.Props.C05_huge_epsilon_stops_early"], "note": "needs epsilon <= max double; the counterexample shows why"},
  {"property": "C06", "status": "partial", "theorems": ["Verif.Props.C06_construction_partial", "Verif.Props.C06_leaf_size_zero_overflows", "Verif.Props.C06_leaf_size_one_overflows", "Verif.Props.C06_leaf_size_two_overflows", "Verif.Props.C06_leaf_size_zero_diverges"], "note": "true for max_leaf_size >= 3 or negative; false for 0, 1, 2 (proved out-of-bounds node writes)"},
  {"property": "C07", "status": "proved", "theorems": ["Verif.Props.C07_every_schedule_finishes", "Verif.Props.C07_running_tasks_disjoint", "Verif.Props.C07_parallel_same_answers", "Verif.Props.C07_small_deterministic", "Verif.Props.C07_any_arithmetic", "Verif.Props.parallel_completes"], "note": "Small-step interleaving model of the OMP and TBB builders; every schedule is safe, finishes in at most 5N steps, and every search on the result equals the search on the single-threaded tree (max_leaf_size >= 3 or negative, as in C06). On at most 512 points all complete executions are the same, node by node. C07_any_arithmetic: the same without any law of arithmetic, also with NaN coordinates."},
  {"property": "C08", "status": "proved", "theorems": ["Verif.Props.C08_knn_exact_rounded", "Verif.Props.C08_true_distance_gap", "Verif.Props.sqNorm_sequential", "Verif.Props.sqNorm_pairwise", "Verif.Props.sqNorm_fma"], "note": "axis-aligned tree, rounding monotone, odd, idempotent; overflow to infinity and NaN excluded"},
  {"property": "C09", "status": "partial", "theorems": ["Verif.Props.C09_nonpositive_k_rejected", "Verif.Props.C09_empty_tree_search_is_undefined", "Verif.Props.C09_nan_hides_neighbour", "Verif.Props.C09_nan_crowds_out_neighbour"], "note": "only the k <= 0 clause is true of the code; the other two clauses are refuted"},
  {"property": "C10", "status": "proved", "theorems": ["Verif.Props.C10_find_axis_dominant", "Verif.Props.C10_scan_in_range", "Verif.Props.C10_zero_scan_count_faults"], "note": "exact arithmetic, w = 1"},
  {"property": "C100", "status": "proved", "theorems": ["Verif.Props.C100_no_fault", "Verif.Props.C100_projections"], "note": "any arithmetic; the target cloud is not empty"},
  {"property": "C101", "status": "proved", "theorems": ["Verif.Props.C101_knn"], "note": "any arithmetic; C09 shows what NaN can do to the set of neighbours"},
  {"property": "C102", "status": "proved", "theorems": ["Verif.Props.C102_preprocess", "Verif.Props.C102_align", "Verif.Props.C102_features", "Verif.Props.C102_exact_sampling", "Verif.Props.C102_exact_features"], "note": "any arithmetic; VGICP (voxel map target) is not included"},
  {"property": "C103", "status": "proved", "theorems": ["Verif.Props.C103_new", "Verif.Props.C103_gaussian", "Verif.Props.C103_flat", "Verif.Props.C103_search", "Verif.Props.C103_align", "Verif.Props.C103_vgicp", "Verif.Props.C103_exact"], "note": "No law of arithmetic is assumed. Poses reached by the optimiser are not bounded, so an overflow at a later pose is one of the two outcomes and not excluded."},
  {"property": "C104", "status": "proved", "theorems": ["Verif.Props.C104_frame", "Verif.Props.C104_odometry", "Verif.Props.C104_model", "Verif.Props.C104_vgicp", "Verif.Props.frameGiven_parallel"], "note": "No law of arithmetic is assumed. Frames are non-empty (empty frames are C63). For the voxel map engines an overflow at a pose reached by the optimiser is one of the outcomes and not excluded."},
  {"property": "C105", "status": "proved", "theorems": ["Verif.Props.C105_features", "Verif.Props.C105_shape", "Verif.Props.C105_cancellation", "Verif.Props.normal_of_eigen"], "note": "Relative to the rounding contracts Spec.Machine and Spec.MachineSub and to the solver contract Spec.SolverUpTo; operations are not fused."},
  {"property": "C106", "status": "proved", "theorems": ["Verif.Props.C106_consistent", "Verif.Props.C106_lines", "Verif.Props.C106_lines_distinct", "Verif.Props.C106_collisions", "Verif.Props.C106_primes"], "note": "64-bit size_t; (3) is proved as stated: the collisions exist"},
  {"property": "C107", "status": "proved", "theorems": ["Verif.Props.C107_rigid", "Verif.Props.C107_optimizers", "Verif.Props.C107_odometry", "Verif.Props.C107_model", "Verif.Props.C107_quaternion", "Verif.Props.C107_exp", "Verif.Props.C107_doubles", "Verif.Props.C107_registration", "Verif.Props.C107_grows"], "note": "Contract of rounded arithmetic in the trusted base; the translation of se3_exp is arbitrary here, its error is C108."},
  {"property": "C108", "status": "proved", "theorems": ["Verif.Props.C108_rotation", "Verif.Props.C108_translation", "Verif.Props.C108_doubles", "Verif.Props.C108_translation_sharp"], "note": "Contract of rounded arithmetic in the trusted base; angles up to 4."},
  {"property": "C109", "status": "proved", "theorems": ["Verif.Props.C109_steps", "Verif.Props.C109_product", "Verif.Props.C109_doubles"], "note": "Contract of rounded arithmetic in the trusted base (as C108); steps with an angle of at most 4."},
  {"property": "C11", "status": "proved", "theorems": ["Verif.Props.C11_index_consistent", "Verif.Props.C11_insert_defined"], "note": "any history of insert calls and setting changes; std::unordered_map modelled as an association list"},
  {"property": "C110", "status": "proved", "theorems": ["Verif.Props.C110_pairs", "Verif.Props.C110_digits"], "note": "The reach of the poses (coordinate sums at most Z) and that no squared distance reaches the largest number are hypotheses; C110_digits shows them satisfiable together with success of the run."},
  {"property": "C111", "status": "proved", "theorems": ["Verif.Props.C111_descent", "Verif.Props.C111_digits", "Verif.Props.C111_gicp_digits"], "note": "Levenberg-Marquardt with the three factors in machine arithmetic, pairs and weights of an iteration kept; weights must be positive semidefinite with bounded entries (normals: always). Accuracy of the factor errors is a contract (Spec.TermAccuracy), met by the digit arithmetic for ICP and point-to-plane factors and, for Mahalanobis matrices of bounded condition, for GICP factors. Robust kernels: C112"},
  {"property": "C112", "status": "proved", "theorems": ["Verif.Props.C112_descent", "Verif.Props.C112_digits", "Verif.Props.exact_huber", "Verif.Props.exact_cauchy", "Verif.Props.digits_huber", "Verif.Props.digits_cauchy"], "note": "As C111 with a robust kernel; the accuracy of the kernel is a contract (Spec.KernelAccuracy), met exactly by the weights of the model without rounding and by both kernels in the digit arithmetic"},
  {"property": "C12", "status": "proved", "theorems": ["Verif.Props.C12_refines_abstract_map", "Verif.Props.C12_eviction_closed_form", "Verif.Props.C12_one_call", "Verif.Props.C12_zero_cycle_faults", "Verif.Props.C12_huge_horizon_deletes"], "note": "for clear cycle > 0 and horizon + number of calls < 2^64; the two excluded settings have their own theorems (division by zero, wrap-around deletes fresh voxels)"},
  {"property": "C13", "status": "proved", "theorems": ["Verif.Props.C13_id_round_trip", "Verif.Props.C13_id_injective", "Verif.Props.C13_returned_ids_resolve", "Verif.Props.C13_point_indices"], "note": "fewer than 2^32 voxels and points per voxel"},
  {"property": "C14", "status": "proved", "theorems": ["Verif.Props.C14_search_exact"], "note": "any offsets (duplicates included), both content types through the Lawful contract (flat_lawful, gaussian_lawful)"},
  {"property": "C15", "status": "proved", "theorems": ["Verif.Props.C15_block_search", "Verif.Props.C15_linear_voxelmap", "Verif.Props.C15_gaussian_voxelmap"], "note": "over any insertion history"},
  {"property": "C16", "status": "partial", "theorems": ["Verif.Props.C16_distinct_ids_partial", "Verif.Props.C16_duplicate_neighbors"], "note": "false for the 27 pattern (centre searched twice, witness proved); holds for distinct offsets"},
  {"property": "C17", "status": "proved", "theorems": ["Verif.Props.C17_flat_voxels"], "note": "over any insertion history"},
  {"property": "C18", "status": "proved", "theorems": ["Verif.Props.C18_gaussian_average", "Verif.Props.C18_order_independent", "Verif.Props.C18_batching_independent"], "note": "exact arithmetic"},
  {"property": "C19", "status": "proved", "theorems": ["Verif.Props.C19_fast_floor", "Verif.Props.C19_fast_floor_vec"], "note": "complete characterisation including the undefined inputs"},
  {"property": "C20", "status": "partial", "theorems": ["Verif.Props.C20_patterns_1_7", "Verif.Props.C20_pattern_27_duplicates_centre", "Verif.Props.C20_pattern_27_cells_partial"], "note": "set_search_offsets(27) appends: cells are right as a set, but the centre is listed twice (negation proved)"},
  {"property": "C21", "status": "proved", "theorems": ["Verif.Props.C21_key_iff_cell", "Verif.Props.C21_out_of_range_key", "Verif.Props.C21_key_defined_iff", "Verif.Props.C21_pack_injective"], "note": "exact arithmetic; cells outside int are undefined behaviour (proved); all four components incl. w are range-checked"},
  {"property": "C22", "status": "partial", "theorems": ["Verif.Props.C22_one_centroid_per_cell_partial", "Verif.Props.C22_centroid_in_cell", "Verif.Props.C22_empty", "Verif.Props.C22_undefined_outside_int", "Verif.Props.C22_all_out_of_range_emits_point"], "note": "holds whenever some point is in range; violated when every point is out of range: for all such clouds one out-of-range point is emitted (C22_all_out_of_range_emits_point); exact arithmetic, w = 1"},
  {"property": "C23", "status": "proved", "theorems": ["Verif.Props.C23_input_order", "Verif.Props.C23_fails_without_in_range_point"], "note": "for clouds with an in-range point (quantifier of the property), any two sorts; counterexample otherwise"},
  {"property": "C24", "status": "proved", "theorems": ["Verif.Props.C24_parallel_partition", "Verif.Props.C24_every_schedule_finishes", "Verif.Props.C24_at_least_one_per_block", "Verif.Props.C24_omp_block_count", "Verif.Props.C24_ten_percent_bound_fails"], "note": "every interleaving of reserve/store steps, every partition into blocks; also refutes the documented 10 % bound"},
  {"property": "C25", "status": "partial", "theorems": ["Verif.Props.C25_slots_disjoint", "Verif.Props.C25_out_of_range_points_partial", "Verif.Props.C25_omp_stray_points", "Verif.Props.C25_out_of_range_not_ignored"], "note": "slot disjointness and single writes proved for every schedule; out-of-range points are not ignored by blocks that start with one: exact number of stray points proved for the OMP variant, with counterexample"},
  {"property": "C26", "status": "proved", "theorems": ["Verif.Props.C26_quick_sort_omp", "Verif.Props.C26_every_schedule_finishes", "Verif.Props.C26_completes", "Verif.Props.C26_median3", "Verif.Props.C26_index_overflow", "Verif.Props.C26_meets_downsampling_contract"], "note": "Every schedule, every strict weak order, every input with 7*(N/8) <= INT_MAX; beyond that bound the int index arithmetic overflows (proved as C26_index_overflow). std::sort/std::partition by contract."},
  {"property": "C27", "status": "proved", "theorems": ["Verif.Props.C27_merge_sort_omp", "Verif.Props.C27_every_schedule_finishes", "Verif.Props.C27_completes"], "note": "Every schedule and input. std::sort/std::inplace_merge by contract."},
  {"property": "C28", "status": "proved", "theorems": ["Verif.Props.C28_radix_sort", "Verif.Props.C28_deterministic", "Verif.Props.C28_completes", "Verif.Props.C28_overload", "Verif.Props.C28_large_input_undefined"], "note": "every digit width, tile size and schedule; inputs within the int counters (larger ones shown undefined)"},
  {"property": "C29", "status": "proved", "theorems": ["Verif.Props.C29_random_sampling", "Verif.Props.C29_every_subset", "Verif.Props.C29_attributes_not_copied"], "note": "std::sample modelled as selection sampling with arbitrary draws; finding: normals and covariances of the result are indeterminate"},
  {"property": "C30", "status": "proved", "theorems": ["Verif.Props.C30_serial", "Verif.Props.C30_omp", "Verif.Props.C30_omp_completes", "Verif.Props.C30_omp_zero_threads", "Verif.Props.C30_tbb", "Verif.Props.C30_tbb_completes", "Verif.Props.C30_error"], "note": "serial, OpenMP and TBB reductions give the sum over the factors for every schedule, split and combination order (exact, commutative addition); num_threads = 0 reads outside the buffers"},
  {"property": "C31", "status": "proved", "theorems": ["Verif.Props.C31_correspondence", "Verif.Props.C31_inliers", "Verif.Props.C31_result", "Verif.Props.C31_any_rejector"], "note": "For every shipped factor (also robust ones), search, gate and pose; exact arithmetic. C31_result covers the reported count of a whole run of either optimiser; C31_any_rejector covers rejectors that look at the pose and the two points."},
  {"property": "C32", "status": "proved", "theorems": ["Verif.Props.C32_factor", "Verif.Props.C32_reduction"], "note": "all factor types including nested robust wrappers"},
  {"property": "C33", "status": "proved", "theorems": ["Verif.Props.C33_icp", "Verif.Props.C33_plane", "Verif.Props.C33_gicp", "Verif.Props.C33_robust", "Verif.Props.C33_accumulated", "Verif.Props.C33_step"], "note": "GICP under positive semi-definite covariances with invertible fusion"},
  {"property": "C34", "status": "proved", "theorems": ["Verif.Props.C34_icp", "Verif.Props.C34_plane", "Verif.Props.C34_gicp", "Verif.Props.C34_reduction"], "note": "Over the reals. The derivative of the evaluated error along T * se3_exp(s d) at s = 0 exists and equals b . d, per factor and for the whole sum. Source points are homogeneous (w = 1); GICP assumes symmetric covariances with zero border and the inverse contract. The robust factor is excluded: its b is the reweighted one."},
  {"property": "C35", "status": "partial", "theorems": ["Verif.Props.C35_violated", "Verif.Props.C35_plane_distance_partial"], "note": "equality with half the squared plane distance is false (witness); true for axis-aligned normals, lower bound and zero set in general"},
  {"property": "C36", "status": "proved", "theorems": ["Verif.Props.C36_huber", "Verif.Props.C36_cauchy", "Verif.Props.C36_robust_error"], "note": ""},
  {"property": "C37", "status": "proved", "theorems": ["Verif.Props.C37_only_masked", "Verif.Props.C37_masks", "Verif.Props.C37_bound"], "note": "bound e / lambda is stronger than claimed"},
  {"property": "C38", "status": "partial", "theorems": ["Verif.Props.C38_descent_partial", "Verif.Props.C38_registration_partial", "Verif.Props.C38_violated"], "note": "Proved for every problem whose general factor has no error of its own (NullFactor and RestrictDoFFactor, so all shipped registrations). Violated for general factors that add an error: optimizer.hpp:114 adds the trial error to the reference error; C38_violated is a concrete run, for every contract-abiding solver."},
  {"property": "C39", "status": "proved", "theorems": ["Verif.Props.C39_budget", "Verif.Props.C39_budget_gn", "Verif.Props.C39_genuine", "Verif.Props.C39_nonpositive"], "note": "Counts come from the ghost log of the model, one record per linearisation. Any reduction, error function, general factor and solver."},
  {"property": "C40", "status": "partial", "theorems": ["Verif.Props.C40_relation_partial", "Verif.Props.C40_violated"], "note": "The claim is false: iterations is the zero-based index of the last iteration. The exact relation is proved."},
  {"property": "C41", "status": "proved", "theorems": ["Verif.Props.C41_rigid", "Verif.Props.C41_drift", "Verif.Props.C41_drift_bound", "Verif.Props.C41_small_not_exact", "Verif.Props.C41_run"], "note": "Over the reals, with Eigen's quaternion-to-matrix formula. Steps with squared angle at least 1e-10 (or zero) keep the pose rigid; each smaller step stretches lengths by at most a factor 1 + 1e-44; a witness shows smaller steps are not exactly rigid. C41_run ties this to the pose reported by either optimiser. Rounding is not modelled."},
  {"property": "C42", "status": "proved", "theorems": ["Verif.Props.C42_zero", "Verif.Props.C42_closed_form", "Verif.Props.C42_exponential", "Verif.Props.C42_ode", "Verif.Props.C42_inverse", "Verif.Props.C42_small_deviation"], "note": "Over the reals. Above the threshold se3_exp is the matrix exponential of the twist. Below it the translation deviates; C42_small_deviation states how."},
  {"property": "C43", "status": "proved", "theorems": ["Verif.Props.C43_fixed_point", "Verif.Props.C43_matched", "Verif.Props.C43_icp", "Verif.Props.C43_plane", "Verif.Props.C43_gicp", "Verif.Props.C43_kdtree"], "note": "C43_fixed_point: LM and GN, exact nearest neighbour search as hypothesis ExactSearch; SoundAt instances for the three factors. C43_matched: sources whose points all lie on target points, in any order. C43_kdtree: the same on real containers, the kd-tree of the target under any builder, any reduction and execution, plain or robust factors; the search is the modelled one."},
  {"property": "C44", "status": "proved", "theorems": ["Verif.Props.C44_icp_factor", "Verif.Props.C44_gicp_factor", "Verif.Props.C44_robust_factor", "Verif.Props.C44_run", "Verif.Props.C44_plane_violated"], "note": "exact arithmetic; search commutes with the motion; pose-free rejector; the plane factor is shown not equivariant"},
  {"property": "C45", "status": "partial", "theorems": ["Verif.Props.C45_cloud_partial", "Verif.Props.C45_voxelmap_partial", "Verif.Props.C45_points_partial", "Verif.Props.C45_preprocess_partial", "Verif.Props.C45_python", "Verif.Props.C45_effect", "Verif.Props.C45_vgicp_violated", "Verif.Props.C45_identity_violated", "Verif.Props.C45_threads_violated"], "note": "Violated by the code: VGICP ignores the correspondence distance, the cloud overload refuses VGICP and returns the identity, and preprocessing downsamples on 4 threads. Everything else is honoured."},
  {"property": "C46", "status": "proved", "theorems": ["Verif.Props.C46_no_correspondence"], "note": "LM and GN, every shipped factor and general factor"},
  {"property": "C47", "status": "proved", "theorems": ["Verif.Props.C47_normals"], "note": "Exact real arithmetic; the eigen-solver is a parameter satisfying the contract EigenBasis."},
  {"property": "C48", "status": "proved", "theorems": ["Verif.Props.C48_covariances", "Verif.Props.C48_signs"], "note": "Exact real arithmetic; the eigen-solver is a parameter satisfying the contract EigenBasis."},
  {"property": "C49", "status": "proved", "theorems": ["Verif.Props.C49_parallel", "Verif.Props.C49_points"], "note": "Every interleaving of the per-point actions of the OMP/TBB versions, for every partition of the points into tasks."},
  {"property": "C50", "status": "proved", "theorems": ["Verif.Props.C50_operation_refines", "Verif.Props.C50_histories_refine", "Verif.Props.C50_resize", "Verif.Props.C50_constructor", "Verif.Props.C50_constructed_points"], "note": "refinement of the three arrays to a list of records"},
  {"property": "C51", "status": "partial", "theorems": ["Verif.Props.C51_fresh_partial", "Verif.Props.C51_clouds", "Verif.Props.C51_no_fault", "Verif.Props.C51_swap", "Verif.Props.C51_resolution_violated", "Verif.Props.C51_covariances_violated", "Verif.Props.C51_swapped_covariances_violated", "Verif.Props.C51_neighbours_violated"], "note": "Violated by the code: setVoxelResolution, setSource/TargetCovariances and setNumNeighborsForCovariance after an alignment leave stale voxel maps or covariances. Holds for every history without these; points, trees and sizes are right for every history."},
  {"property": "C52", "status": "partial", "theorems": ["Verif.Props.C52_parameters_partial", "Verif.Props.C52_stored", "Verif.Props.C52_resolution_violated"], "note": "Violated by the code: setVoxelResolution tests the old value. The other parameters are proved for every history."},
  {"property": "C53", "status": "partial", "theorems": ["Verif.Props.C53_genuine", "Verif.Props.C53_safe", "Verif.Props.C53_nearest_partial", "Verif.Props.C53_repeat_separates", "Verif.Props.C53_clamp_separates", "Verif.Props.C53_default", "Verif.Props.C53_projection", "Verif.Props.C53_narrow_violated", "Verif.Props.C53_words", "Verif.Props.C53_many_violated"], "note": "Genuine points, true distances, order and memory safety for every projection, border policy, window, image size and arithmetic. Distinctness and exactness over the window hold when the border policies separate the offsets (image wider than the window); C53_narrow_violated shows the same point returned twice in an image of 16 columns. Range and inverse of the shipped projection over the reals. C53_many_violated: with 2^32 points the last number is the mark of an empty pixel."},
  {"property": "C54", "status": "proved", "theorems": ["Verif.Props.C54_repeat", "Verif.Props.C54_unique", "Verif.Props.C54_clamp", "Verif.Props.C54_skip_columns", "Verif.Props.C54_skip_rows"], "note": "BorderRepeat wraps correctly exactly for coordinates within one width of the image."},
  {"property": "C55", "status": "partial", "theorems": ["Verif.Props.C55_knn_partial", "Verif.Props.C55_knn_fault", "Verif.Props.C55_footprint", "Verif.Props.C55_nearest", "Verif.Props.C55_nearest_footprint", "Verif.Props.C55_overflow_violated", "Verif.Props.C55_knn_exact", "Verif.Props.C55_nearest_exact", "Verif.Props.C55_batch_exact_partial", "Verif.Props.C55_nearest_batch_exact", "Verif.Props.C55_bad_k"], "note": "Every tree, query matrix, distribution over threads and schedule; an iteration touches only its own row. The k-nearest-neighbour batch is limited to results whose row offsets fit into int: C55_overflow_violated shows that the offset i * k is computed in int. The rows are the nearest neighbours of the query points (C55_*_exact). Non-positive k: exception below zero; k = 0 ends the process (C55_bad_k)."},
  {"property": "C56", "status": "partial", "theorems": ["Verif.Props.C56_roundtrip", "Verif.Props.C56_any_bytes", "Verif.Props.C56_ply_partial", "Verif.Props.C56_ply_three_violated", "Verif.Props.C56_ply_many_violated", "Verif.Props.C56_ply_none", "Verif.Props.C56_ply_negative", "Verif.Props.C56_ply_one_line"], "note": "read_points/write_points proved for all point lists and byte strings. read_ply proved complete for four float properties (any trailing data) and for three properties without trailing data; violated otherwise: it always reads 16 bytes per vertex, so three properties plus trailing data write past the buffer and five or more properties lose vertices. A one-line file of three or more bytes reads an empty vector (C56_ply_one_line)."},
  {"property": "C57", "status": "proved", "theorems": ["Verif.Props.C57_kdtree_registration", "Verif.Props.C57_empty_target", "Verif.Props.C57_missing_normals"], "note": "Exact arithmetic. Failing accesses, failing searches, all three reductions under any execution. C57_empty_target and C57_missing_normals show that the hypotheses (target point, normals for the plane factor) are needed."},
  {"property": "C58", "status": "proved", "theorems": ["Verif.Props.C58_voxel_registration", "Verif.Props.C58_far_guess"], "note": "Exact arithmetic, at most 2^32 voxels. C58_far_guess: an initial guess far enough away makes the registration undefined (int overflow)."},
  {"property": "C59", "status": "proved", "theorems": ["Verif.Props.C59_preprocess", "Verif.Props.C59_same_points", "Verif.Props.C59_executes", "Verif.Props.features_regular"], "note": "Exact arithmetic; contracts of nth_element, sort and the eigen solver in EnvMeets. Points outside the grid range are covered by the sampling specifications (SerialSample, BlockSample). C59_same_points: two executions return the same points up to order. features_regular: the result is what the registration theorems need."},
  {"property": "C60", "status": "proved", "theorems": ["Verif.Props.C60_steps", "Verif.Props.C60_descent"], "note": "Exact arithmetic; positive damping; SolveContract. The slope of the error is stated for ICP, point-to-plane and GICP without robust kernel; for robust kernels only C60_steps applies. GICP: target covariances positive definite on matched points."},
  {"property": "C61", "status": "proved", "theorems": ["Verif.Props.C61_clouds", "Verif.Props.C61_vgicp", "Verif.Props.C61_invalid_type", "Verif.Props.C61_self", "Verif.Props.C61_executes"], "note": "Exact arithmetic; contracts in EnvMeets. The statement records the faults of the code (empty target, cell overflow, abort) instead of denying them. The inlier counts need a gate below the largest double. VGICP ignores the correspondence distance (C45), hence the distance 1."},
  {"property": "C62", "status": "partial", "theorems": ["Verif.Props.C62_first_call_partial", "Verif.Props.C62_calls", "Verif.Props.C62_terminates", "Verif.Props.C62_no_race", "Verif.Props.C62_online", "Verif.Props.C62_same_trajectory", "Verif.Props.C62_reused_input", "Verif.Props.C62_second_call_violated"], "note": "Preprocessing and registration are arbitrary functions that may fail (C63 supplies the library functions). TBB nodes are modelled by their documented behaviour: unlimited and serial function nodes, sequencer nodes. Proved for the first call in a process, and exactly what later calls do; violated for later calls because last_frame is static."},
  {"property": "C63", "status": "proved", "theorems": ["Verif.Props.C63_online", "Verif.Props.C63_flow", "Verif.Props.prepare_ok", "Verif.Props.register_ok", "Verif.Props.frameRuns_exists"], "note": "Real arithmetic and the library contracts of C59. The serial voxelgrid_sampling is used by all engines, as in the code. Undefined behaviour on an empty frame before a non-empty one is stated in the theorem (an unset root is read)."},
  {"property": "C64", "status": "proved", "theorems": ["Verif.Props.C64_linear_voxelmap_registration", "Verif.Props.C64_attributes", "Verif.Props.map_registration"], "note": "Any Lawful contents (map_registration); flat containers after any history of operations (C64_linear_voxelmap_registration); C64_attributes ties what the factor reads to inserted source points."},
  {"property": "C65", "status": "proved", "theorems": ["Verif.Props.C65_model_odometry", "Verif.Props.C65_bounded_size", "Verif.Props.alignToMap_ok", "Verif.Props.gaussianKind_ok", "Verif.Props.linearKind_ok"], "note": "Generic over the contents; gaussianKind_ok and linearKind_ok instantiate it to both kinds of maps."},
  {"property": "C66", "status": "proved", "theorems": ["Verif.Props.C66_vgicp_odometry"], "note": ""},
  {"property": "C67", "status": "proved", "theorems": ["Verif.Props.C67_clouds", "Verif.Props.C67_determined", "Verif.Props.C67_fields", "Verif.Props.C67_vgicp", "Verif.Props.C67_vgicp_determined"], "note": "full functional specification of the result of align; for ICP, plane ICP and GICP any of several equally near partners is allowed"},
  {"property": "C68", "status": "proved", "theorems": ["Verif.Props.C68_online", "Verif.Props.C68_flow", "Verif.Props.C68_vgicp", "Verif.Props.C68_vgicp_model", "Verif.Props.C68_gicp_model"], "note": ""},
  {"property": "C69", "status": "proved", "theorems": ["Verif.Props.C69_trajectory", "Verif.Props.C69_null"], "note": "The property includes the behaviour on frames without points (finding 24)."},
  {"property": "C70", "status": "partial", "theorems": ["Verif.Props.C70_constructor", "Verif.Props.C70_points", "Verif.Props.C70_round_trip", "Verif.Props.C70_same_sample_partial", "Verif.Props.C70_same_preprocess_partial", "Verif.Props.C70_no_rows_violated", "Verif.Props.C70_fourth_column_violated", "Verif.Props.C70_preprocess", "Verif.Props.C70_same_points", "Verif.Props.C70_executes", "Verif.Props.C70_features", "Verif.Props.C70_features_tree", "Verif.Props.C70_foreign_tree", "Verif.Props.C70_align_columns", "Verif.Props.C70_align_refused"], "note": "Agreement of the overloads is violated for arrays without rows and for a fourth column other than 1 (C70_no_rows_violated, C70_fourth_column_violated); proved for all other arrays."},
  {"property": "C71", "status": "proved", "theorems": ["Verif.Props.C71_trajectory", "Verif.Props.C71_empty", "Verif.Props.C71_at_rest", "Verif.Props.C71_columns"], "note": "Scan-to-scan odometry of the Python example, for every sequence of scans."},
  {"property": "C72", "status": "proved", "theorems": ["Verif.Props.C72_odometry", "Verif.Props.C72_gap", "Verif.Props.C72_coasting", "Verif.Props.C72_lost", "Verif.Props.C72_columns"], "note": "Real arithmetic; numpy.linalg.inv is exact inversion, singular matrices raise"},
  {"property": "C73", "status": "partial", "theorems": ["Verif.Props.C73_gradient_partial", "Verif.Props.C73_descent_partial", "Verif.Props.C73_majorised", "Verif.Props.C73_scale", "Verif.Props.C73_huber_accepted", "Verif.Props.C73_violated"], "note": "Fails for the evaluated error (witness: C73_violated, for every solver, damping and number of trials); holds for the Huber and Cauchy losses."},
  {"property": "C74", "status": "proved", "theorems": ["Verif.Props.C74_descent", "Verif.Props.C74_reported", "Verif.Props.C74_budget", "Verif.Props.C74_align", "Verif.Props.C74_plane_rises"], "note": "For ICP on point clouds, with exact real arithmetic. C74_plane_rises shows that the claim is special to ICP."},
  {"property": "C75", "status": "proved", "theorems": ["Verif.Props.C75_brute_force", "Verif.Props.C75_nearest", "Verif.Props.C75_same_as_kdtree", "Verif.Props.C75_negative"], "note": "search class of the template example"},
  {"property": "C76", "status": "partial", "theorems": ["Verif.Props.C76_run_partial", "Verif.Props.C76_executes", "Verif.Props.C76_held", "Verif.Props.C76_usable", "Verif.Props.C76_unusable", "Verif.Props.C76_violated", "Verif.Props.C76_rejector_violated", "Verif.Props.C76_rejector_source", "Verif.Props.C76_traits", "Verif.Props.C76_general", "Verif.Props.C76_target_normals"], "note": "Proved for executions whose neighbour indices fit the source; the code violates the claim for small sources and in the rejector."},
  {"property": "C77", "status": "proved", "theorems": ["Verif.Props.C77_align", "Verif.Props.C77_unmasked", "Verif.Props.C77_determined", "Verif.Props.C77_held", "Verif.Props.C77_held_clouds", "Verif.Props.C77_limit"], "note": ""},
  {"property": "C78", "status": "proved", "theorems": ["Verif.Props.C78_new", "Verif.Props.C78_linearize", "Verif.Props.C78_sum", "Verif.Props.C78_align", "Verif.Props.C78_index", "Verif.Props.C78_empty", "Verif.Props.C78_foreign_tree", "Verif.Props.C78_rejector"], "note": "T is taken for a pose (last row 0 0 0 1)"},
  {"property": "C79", "status": "partial", "theorems": ["Verif.Props.C79_mean_std", "Verif.Props.C79_summarize", "Verif.Props.C79_median_partial", "Verif.Props.C79_median_violated", "Verif.Props.C79_wrong_median_violated"], "note": "Mean and deviation are proved in full; the code violates the claim on the median (arguments of nth_element exchanged), which is proved by two counterexamples. The partial theorem says what is returned instead."},
  {"property": "C80", "status": "proved", "theorems": ["Verif.Props.C80_files", "Verif.Props.C80_order", "Verif.Props.C80_frames", "Verif.Props.C80_numbered", "Verif.Props.C80_convert"], "note": "All data sets and listings."},
  {"property": "C81", "status": "partial", "theorems": ["Verif.Props.C81_options", "Verif.Props.C81_unknown", "Verif.Props.C81_missing_value_violated", "Verif.Props.C81_value_violated", "Verif.Props.C81_usage_violated"], "note": "Valid and unknown options are proved in full; the code violates the claim for a missing value, a value with two dashes and the stated default."},
  {"property": "C82", "status": "partial", "theorems": ["Verif.Props.C82_program", "Verif.Props.C82_gicp", "Verif.Props.C82_lines", "Verif.Props.C82_registry", "Verif.Props.C82_registration_order", "Verif.Props.C82_usage", "Verif.Props.C82_silent_violated"], "note": "Everything except that code 0 means a file was written, which the code violates."},
  {"property": "C83", "status": "partial", "theorems": ["Verif.Props.C83_separate", "Verif.Props.C83_histories_partial", "Verif.Props.C83_copy_violated", "Verif.Props.C83_evict_violated"], "note": "maps without copies fully proved; a copy shares its voxels with the original (two witnesses); missing: independence of copies, which the code does not provide"},
  {"property": "C84", "status": "proved", "theorems": ["Verif.Props.C84_system", "Verif.Props.C84_run", "Verif.Props.C84_align", "Verif.Props.C84_plane"], "note": "end to end through align for ICP and GICP; rigidity of the returned pose is a hypothesis of the uniqueness clause only (the exponential of the code is not exactly a rotation, C41)"},
  {"property": "C85", "status": "proved", "theorems": ["Verif.Props.C85_linearize", "Verif.Props.C85_error", "Verif.Props.C85_apart"], "note": "the contributions are taken as computed; only the additions of the reductions are rounded"},
  {"property": "C86", "status": "proved", "theorems": ["Verif.Props.C86_serial", "Verif.Props.C86_descent", "Verif.Props.C86_alone", "Verif.Props.C86_icp"], "note": "without a point in range the serial sampling does depend on the order (C23_fails_without_in_range_point); with ties or several points per cell and several threads only the set of possible outcomes is fixed"},
  {"property": "C87", "status": "proved", "theorems": ["Verif.Props.C87_run", "Verif.Props.C87_determined", "Verif.Props.C87_fields", "Verif.Props.C87_worse", "Verif.Props.C87_worse_reached"], "note": ""},
  {"property": "C88", "status": "partial", "theorems": ["Verif.Props.C88_search", "Verif.Props.C88_resolutions_partial", "Verif.Props.C88_resolutions_violated", "Verif.Props.C88_duplicate_violated", "Verif.Props.C88_main_partial", "Verif.Props.C88_main_violated", "Verif.Props.C88_empty_violated", "Verif.Props.C88_measurements", "Verif.Props.C88_negative_trials"], "note": "The code violates the claim: the search is undefined exactly on the scans (of two points or more) that no grid of 10^-1 to 10^-6 separates; proved in both directions."},
  {"property": "C89", "status": "proved", "theorems": ["Verif.Props.C89_gauss_newton", "Verif.Props.C89_levenberg_marquardt", "Verif.Props.C89_align_gauss_newton", "Verif.Props.C89_align"], "note": "All three metrics at the level of descents; ICP and GICP factors for clouds in memory. The term of eighth order is what the drift of the rotations (C41) leaves. Exact arithmetic."},
  {"property": "C90", "status": "proved", "theorems": ["Verif.Props.C90_examples_agree", "Verif.Props.C90_example1", "Verif.Props.C90_example2", "Verif.Props.C90_no_points", "Verif.Props.C90_program", "Verif.Props.C90_load", "Verif.Props.C90_python_agree", "Verif.Props.C90_numpy1", "Verif.Props.C90_numpy2", "Verif.Props.C90_small2", "Verif.Props.C90_script", "Verif.Props.C90_script_no_points", "Verif.Props.C90_executes"], "note": "Both example programs on all file contents; results are outcomes of the descent of C67 on the samples and neighbourhoods each example uses."},
  {"property": "C91", "status": "proved", "theorems": ["Verif.Props.C91_group", "Verif.Props.C91_resolutions", "Verif.Props.C91_times", "Verif.Props.C91_order", "Verif.Props.C91_command_line", "Verif.Props.C91_program", "Verif.Props.C91_executes"], "note": "for the program built without PCL; coordinates below 100 km"},
  {"property": "C92", "status": "proved", "theorems": ["Verif.Props.C92_exact", "Verif.Props.C92_cells", "Verif.Props.C92_serial", "Verif.Props.C92_parallel", "Verif.Props.C92_in_cell", "Verif.Props.C92_apart", "Verif.Props.C92_neighbour_cell", "Verif.Props.nearest_machine"], "note": "Rounded arithmetic is the contract Machine; points must be in the range of the keys (out-of-range points: C22, C25)."},
  {"property": "C93", "status": "partial", "theorems": ["Verif.Props.C93_flat", "Verif.Props.C93_gaussian", "Verif.Props.C93_reshape", "Verif.Props.C93_symmetric", "Verif.Props.C93_scan_to_model", "Verif.Props.C93_empty_violated", "Verif.Props.C93_unset_violated"], "note": "Holds for complete clouds on non-empty maps; the claim that all calls are defined is violated (empty map, clouds made of arrays)."},
  {"property": "C94", "status": "proved", "theorems": ["Verif.Props.C94_exact", "Verif.Props.C94_average", "Verif.Props.C94_apart", "Verif.Props.C94_shape", "Verif.Props.C94_variance", "Verif.Props.C94_definite", "Verif.Props.C94_batches_differ", "Verif.Props.C94_indefinite"], "note": "Per voxel; the transformed points and covariances are inputs."},
  {"property": "C95", "status": "proved", "theorems": ["Verif.Props.C95_example1", "Verif.Props.C95_exchange", "Verif.Props.C95_example2", "Verif.Props.C95_no_points", "Verif.Props.C95_program", "Verif.Props.C95_executes", "Verif.Props.rounded_disc", "Verif.Props.rounded_cloud"], "note": "Over the reals with float storage as a rounding function; the text printed (the inverse of the pose, the Hessian) is not modelled."},
  {"property": "C96", "status": "proved", "theorems": ["Verif.Props.C96_example1", "Verif.Props.C96_no_points", "Verif.Props.C96_program", "Verif.Props.C96_executes"], "note": "The text printed is not modelled."},
  {"property": "C97", "status": "proved", "theorems": ["Verif.Props.C97_levenberg_marquardt", "Verif.Props.C97_gauss_newton", "Verif.Props.C97_nan_guard", "Verif.Props.C97_nan_start", "Verif.Props.C97_exact", "Verif.Props.C97_gauss_newton_unguarded"], "note": "machine arithmetic V without any law; NaN rules only in the two NaN theorems"},
  {"property": "C98", "status": "proved", "theorems": ["Verif.Props.C98_nan_source", "Verif.Props.C98_exact", "Verif.Props.C98_exact_align", "Verif.Props.C98_example"], "note": "contract NaNStrict: comparisons with NaN are false and the operations used hand NaN on; nth_element permutes; C98_exact relates the machine model to the exact one"},
  {"property": "C99", "status": "proved", "theorems": ["Verif.Props.C99_icp_descent", "Verif.Props.C99_digits"], "note": "point-to-point ICP with the distance gate; poses of the run within reach Z is a hypothesis (C99_icp_descent: of the log, C99_digits: of a set closed under steps)"}
]}
