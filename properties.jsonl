{"id": "C01", "title": "k-NN result buffer keeps exactly the k smallest candidates", "statement": "After any sequence of candidates has been offered to a neighbour result of capacity k, the buffer contains, in ascending order of distance, the k candidates with the smallest distances (ties resolved in favour of earlier candidates, candidates at or above the maximum double ignored); num_found is min(k, number of accepted candidates); all remaining slots still hold the invalid index and the maximum distance; no access leaves the caller's arrays.", "quantifier": "for every capacity k >= 1 (both the compile-time sized and run-time sized buffer) and every finite sequence of (index, distance) candidates with totally ordered distances", "why_tests_cant": "insertion order, ties and saturation produce unboundedly many interleavings; a test samples a few of them", "anchors": ["include/small_gicp/ann/knn_result.hpp: KnnResult::KnnResult, KnnResult::push, KnnResult::worst_distance, KnnResult::num_found"]}
{"id": "C02", "title": "KdTree k-NN search is exact", "statement": "With the default search setting, KdTree::knn_search(q, k) returns min(k, N) distinct indices of the cloud, sorted by squared distance to q, each reported with its true squared distance, and no point left out is closer than any point returned.", "quantifier": "for every non-empty cloud of finite points, every query, every k >= 1, every behaviour of std::nth_element allowed by the standard and every leaf size the builder accepts", "why_tests_cant": "exactness must survive every combination of splits, ties on the splitting plane and pruning decisions; random clouds never hit the measure-zero tie cases", "anchors": ["include/small_gicp/ann/kdtree.hpp: KdTreeBuilder::build_tree, KdTreeBuilder::create_node, UnsafeKdTree::knn_search, UnsafeKdTree::knn_search_impl", "include/small_gicp/ann/projection.hpp: AxisAlignedProjection"]}
{"id": "C03", "title": "KdTree search is exact for arbitrary splitting directions", "statement": "The k-NN search stays exact when the tree splits along arbitrary directions (NormalProjection), provided each direction has norm at most one.", "quantifier": "for every cloud, query, k and every assignment of splitting directions of norm at most 1 to the nodes", "why_tests_cant": "the pruning bound depends on a real-valued inequality (Cauchy-Schwarz) for all directions, which samples cannot establish", "anchors": ["include/small_gicp/ann/projection.hpp: NormalProjection", "include/small_gicp/ann/kdtree.hpp: UnsafeKdTree::knn_search_impl"]}
{"id": "C04", "title": "Nearest-neighbour search returns a closest point", "statement": "nearest_neighbor_search on a non-empty cloud reports exactly one point, its true squared distance, and no point of the cloud is closer; the generic fallback that uses knn_search with k = 1 gives the same distance.", "quantifier": "for every non-empty cloud and query", "why_tests_cant": "minimality over all points and all tree shapes is a universal statement", "anchors": ["include/small_gicp/ann/kdtree.hpp: UnsafeKdTree::nearest_neighbor_search", "include/small_gicp/ann/traits.hpp: traits::nearest_neighbor_search"]}
{"id": "C05", "title": "Early termination only returns good-enough neighbours", "statement": "With a positive KnnSetting::epsilon the search either returns the exact k nearest neighbours, or returns k genuine points of the cloud whose squared distances are all below epsilon. With epsilon = 0 early termination never happens.", "quantifier": "for every epsilon, cloud, query and k", "why_tests_cant": "the early-exit flag is propagated through recursion; whether it can fire with a non-full or too-far result depends on the whole search history", "anchors": ["include/small_gicp/ann/knn_result.hpp: KnnSetting::fulfilled", "include/small_gicp/ann/kdtree.hpp: UnsafeKdTree::knn_search_impl"]}
{"id": "C06", "title": "KdTree construction terminates, stays in bounds and partitions the cloud", "statement": "Building a tree terminates, never writes outside the node array allocated for it, every point index is in exactly one leaf, and each inner node separates its two subtrees by its threshold.", "quantifier": "for every cloud and every max_leaf_size setting (holds for max_leaf_size >= 3 and for negative values; 1 and 2 overflow the node array and 0 never terminates - shown as counterexamples)", "why_tests_cant": "the node array bound is an arithmetic fact about all N; tests only use the default leaf size 20", "anchors": ["include/small_gicp/ann/kdtree.hpp: KdTreeBuilder::build_tree, KdTreeBuilder::create_node, KdTreeBuilder::max_leaf_size"]}
{"id": "C07", "title": "Parallel KdTree builders give the same tree under every schedule", "statement": "Whatever the interleaving of the tasks spawned by the OMP/TBB builders, construction finishes, node slots are never shared or out of range, and searching the result gives the same answer as searching the tree built by the single-threaded builder.", "quantifier": "for every cloud and every interleaving of the atomic steps of all tasks", "why_tests_cant": "a test run exercises one schedule out of exponentially many", "anchors": ["include/small_gicp/ann/kdtree_omp.hpp: KdTreeBuilderOMP::create_node", "include/small_gicp/ann/kdtree_tbb.hpp: KdTreeBuilderTBB::create_node"]}
{"id": "C08", "title": "k-NN exactness survives floating-point rounding", "statement": "Relative to the distances as computed with rounding, the axis-aligned tree search still never misses a closer point: pruning is sound for every monotone rounding of the elementary operations.", "quantifier": "for every monotone, sign-symmetric rounding function that fixes representable numbers (covers IEEE round-to-nearest without overflow), every cloud of representable points, query and k", "why_tests_cant": "rounding errors show up on specific bit patterns that random tests do not hit", "anchors": ["include/small_gicp/ann/kdtree.hpp: UnsafeKdTree::knn_search_impl", "include/small_gicp/ann/projection.hpp: AxisAlignedProjection::operator()"]}
{"id": "C09", "title": "Degenerate searches are reported, never undefined", "statement": "Searching an empty tree returns zero neighbours, asking for k <= 0 neighbours is rejected, and a NaN point cannot hide a real neighbour.", "quantifier": "for every k (including non-positive) and every cloud (including empty and containing NaN coordinates)", "why_tests_cant": "the failing inputs are outside what the test-suite feeds; the empty tree leaves the root uninitialised so the outcome is not observable by a test", "anchors": ["include/small_gicp/ann/kdtree.hpp: UnsafeKdTree::UnsafeKdTree, UnsafeKdTree::knn_search", "include/small_gicp/ann/knn_result.hpp: KnnResult::KnnResult, KnnResult::push"]}
{"id": "C10", "title": "Split axis selection samples valid points and picks a dominant axis", "statement": "find_axis only reads points of the given range, and returns one of the three spatial axes whose sampled variance is not smaller than that of the others.", "quantifier": "for every non-empty range and every max_scan_count >= 1", "why_tests_cant": "the strided sampling arithmetic must stay in range for all N", "anchors": ["include/small_gicp/ann/projection.hpp: AxisAlignedProjection::find_axis, NormalProjection::find_axis"]}
{"id": "C11", "title": "Incremental voxel map index stays consistent over any history", "statement": "After any sequence of insertions (including evictions) every occupied cell is looked up to exactly one voxel, every stored voxel is reachable through its cell coordinate, and no two voxels share a cell.", "quantifier": "for every sequence of insert calls with arbitrary clouds and poses and every LRU setting", "why_tests_cant": "the invariant concerns all histories; eviction renumbers voxels", "anchors": ["include/small_gicp/ann/incremental_voxelmap.hpp: IncrementalVoxelMap::insert"]}
{"id": "C12", "title": "LRU eviction removes exactly the stale voxels", "statement": "A voxel is removed by an insert call only at a clear cycle, and then exactly if its last insertion lies more than lru_horizon insert calls back; surviving voxels keep their contents and relative order.", "quantifier": "for every insertion history and every horizon / positive clear cycle", "why_tests_cant": "depends on unbounded histories and counter arithmetic", "anchors": ["include/small_gicp/ann/incremental_voxelmap.hpp: IncrementalVoxelMap::insert, lru_horizon, lru_clear_cycle, lru_counter"]}
{"id": "C13", "title": "Voxel-map point ids round-trip and always resolve", "statement": "Packing a voxel number and a point number (< 2^32 each) into one id and unpacking gives them back, different pairs get different ids, and every id returned by a search resolves to a stored point whose squared distance to the query is the reported one.", "quantifier": "for every pair of numbers, every map state reachable by insertions and every query", "why_tests_cant": "the id space has 2^64 values and map states are unbounded", "anchors": ["include/small_gicp/ann/incremental_voxelmap.hpp: calc_index, voxel_id, point_id, knn_search, nearest_neighbor_search"]}
{"id": "C14", "title": "Voxel-map search is exact over the searched cells", "statement": "knn_search / nearest_neighbor_search return the k nearest among all points stored in the cells given by the search offsets around the query's cell (sorted, true distances), and nothing else.", "quantifier": "for every reachable map state, query, k >= 1 and duplicate-free offset pattern", "why_tests_cant": "the result set is compared against all stored points", "anchors": ["include/small_gicp/ann/incremental_voxelmap.hpp: IncrementalVoxelMap::knn_search, nearest_neighbor_search", "include/small_gicp/ann/flat_container.hpp: FlatContainer::knn_search"]}
{"id": "C15", "title": "27-cell search finds the true nearest neighbour within one leaf size", "statement": "With the 27-cell pattern, every stored point closer than leaf_size to the query is among the candidates, hence if the true nearest stored point is closer than leaf_size the search returns a nearest point.", "quantifier": "for every reachable map state, every leaf size > 0 and every query", "why_tests_cant": "geometric covering argument over all real coordinates", "anchors": ["include/small_gicp/ann/incremental_voxelmap.hpp: set_search_offsets, nearest_neighbor_search", "include/small_gicp/util/fast_floor.hpp: fast_floor"]}
{"id": "C16", "title": "A voxel-map k-NN result never lists the same point twice", "statement": "All ids returned by knn_search are distinct.", "quantifier": "for every reachable map state, query, k and search pattern selected through set_search_offsets", "why_tests_cant": "the pattern list depends on the history of set_search_offsets calls; existing tests do not look for duplicates (the 27 pattern violates it)", "anchors": ["include/small_gicp/ann/incremental_voxelmap.hpp: set_search_offsets, knn_search"]}
{"id": "C17", "title": "Flat voxels respect capacity, spacing and location", "statement": "A linear voxel never holds more than max_num_points_in_cell points, any two points stored in it are at squared distance at least min_sq_dist_in_cell, every stored point lies in the voxel's own cell, and a rejected point is rejected only because of capacity or spacing.", "quantifier": "for every insertion history and setting", "why_tests_cant": "invariant over unbounded histories", "anchors": ["include/small_gicp/ann/flat_container.hpp: FlatContainer::add", "include/small_gicp/ann/incremental_voxelmap.hpp: IncrementalVoxelMap::insert"]}
{"id": "C18", "title": "Gaussian voxels hold the exact average of everything inserted", "statement": "After every insert call, a Gaussian voxel's mean and covariance are the arithmetic means of all transformed points and transformed covariances inserted in that cell since the voxel was created, independent of how they were batched into insert calls or ordered.", "quantifier": "for every history of insertions (exact arithmetic)", "why_tests_cant": "re-scaling between finalised and accumulating state happens on every batch; correctness is by induction over histories", "anchors": ["include/small_gicp/ann/gaussian_voxelmap.hpp: GaussianVoxel::add, GaussianVoxel::finalize"]}
{"id": "C19", "title": "fast_floor is the mathematical floor", "statement": "fast_floor(x) equals the floor of every coordinate, for coordinates whose truncation fits in an int (and whose floor does); outside it is undefined behaviour.", "quantifier": "for every real coordinate vector in range", "why_tests_cant": "boundary behaviour at negative integers and fractions for all reals", "anchors": ["include/small_gicp/util/fast_floor.hpp: fast_floor"]}
{"id": "C20", "title": "set_search_offsets selects exactly the documented pattern", "statement": "After set_search_offsets(n) with n in {1, 7, 27} the searched cells are exactly the centre cell, the centre and its 6 face neighbours, or the full 3x3x3 block, each once, regardless of earlier calls.", "quantifier": "for every history of set_search_offsets calls", "why_tests_cant": "the result depends on the previous state; tests only check the points that are found", "anchors": ["include/small_gicp/ann/incremental_voxelmap.hpp: set_search_offsets"]}
{"id": "C21", "title": "Voxel keys identify cells uniquely", "statement": "Two points get the same 64-bit key iff their cell coordinates agree in x, y and z, for all cells in the documented 21-bit range; points outside get a key no in-range cell has, and sort last.", "quantifier": "for all integer cell coordinates", "why_tests_cant": "2^63 cells", "anchors": ["include/small_gicp/util/downsampling.hpp: voxelgrid_sampling", "include/small_gicp/util/downsampling_omp.hpp: voxelgrid_sampling_omp", "include/small_gicp/util/downsampling_tbb.hpp: voxelgrid_sampling_tbb"]}
{"id": "C22", "title": "Serial voxel-grid sampling emits one centroid per occupied cell", "statement": "voxelgrid_sampling outputs exactly one point for each in-range occupied cell, namely the average of the input points in that cell (hence inside the cell), and ignores points outside the supported range.", "quantifier": "for every cloud, every leaf size > 0, every behaviour of std::sort (violated when all points are out of range - counterexample)", "why_tests_cant": "set of cells and ties is unbounded; the existing test only compares counts with tolerance 0.9", "anchors": ["include/small_gicp/util/downsampling.hpp: voxelgrid_sampling"]}
{"id": "C23", "title": "Voxel-grid sampling does not depend on the input order", "statement": "Permuting the input points does not change the output of voxelgrid_sampling.", "quantifier": "for every cloud and permutation (exact arithmetic, at least one in-range point)", "why_tests_cant": "N! permutations", "anchors": ["include/small_gicp/util/downsampling.hpp: voxelgrid_sampling"]}
{"id": "C24", "title": "Parallel voxel-grid sampling is a refinement of serial sampling under every schedule", "statement": "voxelgrid_sampling_omp/_tbb: for in-range input every output is the average of a non-empty set of points of one cell, these sets partition the input, the number of outputs is at least the number of occupied cells and at most that number plus (number of blocks - 1), and the multiset of outputs does not depend on the schedule.", "quantifier": "for every cloud, every admissible block partition and every interleaving of the block tasks", "why_tests_cant": "schedules and block boundaries are not under the control of a test", "anchors": ["include/small_gicp/util/downsampling_omp.hpp: voxelgrid_sampling_omp", "include/small_gicp/util/downsampling_tbb.hpp: voxelgrid_sampling_tbb"]}
{"id": "C25", "title": "Parallel voxel-grid sampling ignores out-of-range points and stays in bounds", "statement": "Concurrent block results are written to disjoint slots inside the output cloud, every slot below the final size is written exactly once, and points outside the supported range are ignored.", "quantifier": "for every cloud and every schedule (the last part is violated for blocks that start with an out-of-range point - counterexample)", "why_tests_cant": "races and the per-block seed point only show for specific sizes and schedules", "anchors": ["include/small_gicp/util/downsampling_omp.hpp: voxelgrid_sampling_omp", "include/small_gicp/util/downsampling_tbb.hpp: voxelgrid_sampling_tbb"]}
{"id": "C26", "title": "quick_sort_omp sorts", "statement": "quick_sort_omp terminates and leaves the range a sorted permutation of its input, whatever the order in which its tasks run.", "quantifier": "for every input sequence, every strict weak order and every schedule", "why_tests_cant": "all inputs, all schedules; pivot selection and termination on many equal keys", "anchors": ["include/small_gicp/util/sort_omp.hpp: quick_sort_omp, quick_sort_omp_impl, median3"]}
{"id": "C27", "title": "merge_sort_omp sorts", "statement": "merge_sort_omp terminates and leaves the range a sorted permutation of its input.", "quantifier": "for every input sequence, strict weak order and schedule", "why_tests_cant": "all inputs, all schedules", "anchors": ["include/small_gicp/util/sort_omp.hpp: merge_sort_omp, merge_sort_omp_impl"]}
{"id": "C28", "title": "radix_sort_tbb is a stable sort by key", "statement": "radix_sort_tbb leaves the range as the stable sort of its input by the unsigned key, for every digit width and tile size, and never writes out of bounds.", "quantifier": "for every input sequence, every key function with b-bit keys and every schedule of the tile tasks", "why_tests_cant": "offset arithmetic across tiles and digits for all sizes", "anchors": ["include/small_gicp/util/sort_tbb.hpp: radix_sort_tbb"]}
{"id": "C29", "title": "random_sampling draws distinct points", "statement": "random_sampling returns min(n, N) points, at strictly increasing (hence distinct) positions of the input, for every outcome of the random generator; every size-n subset can occur.", "quantifier": "for every cloud, n and every sequence of random draws", "why_tests_cant": "quantifies over generator outcomes", "anchors": ["include/small_gicp/util/downsampling.hpp: random_sampling"]}
{"id": "C30", "title": "Serial and parallel reductions agree under every schedule", "statement": "The system (H, b, e), the evaluated error and the per-point correspondence state are the same for SerialReduction, ParallelReductionOMP and ParallelReductionTBB, for every assignment of points to threads and every order/splitting of the work (exact arithmetic).", "quantifier": "for every number of points, number of threads >= 1, assignment and split/join tree", "why_tests_cant": "schedules are not controllable by tests", "anchors": ["include/small_gicp/registration/reduction.hpp: SerialReduction", "include/small_gicp/registration/reduction_omp.hpp: ParallelReductionOMP", "include/small_gicp/registration/reduction_tbb.hpp: ParallelReductionTBB, LinearizeSum, ErrorSum"]}
{"id": "C31", "title": "Correspondences obey the nearest-neighbour and distance-gate contract", "statement": "A source point contributes to the system iff the target search finds a neighbour and its squared distance does not exceed the rejector's limit; its correspondence is that neighbour; rejected points contribute nothing to H, b, e and have zero error; the reported number of inliers is the number of contributing points at the last linearisation.", "quantifier": "for every pair of clouds, pose, search structure and gate", "why_tests_cant": "decision logic over all inputs", "anchors": ["include/small_gicp/factors/icp_factor.hpp: ICPFactor", "include/small_gicp/factors/plane_icp_factor.hpp: PointToPlaneICPFactor", "include/small_gicp/factors/gicp_factor.hpp: GICPFactor", "include/small_gicp/registration/rejector.hpp: DistanceRejector"]}
{"id": "C32", "title": "Linearised error and evaluated error agree", "statement": "Evaluating the error at the pose used for linearisation gives exactly the error reported by the linearisation, per factor, per robustified factor and for the whole reduction.", "quantifier": "for every cloud pair, pose and every factor type", "why_tests_cant": "the accept/reject decision of the optimizer relies on it for all inputs", "anchors": ["include/small_gicp/factors/icp_factor.hpp: linearize, error", "include/small_gicp/factors/plane_icp_factor.hpp: linearize, error", "include/small_gicp/factors/gicp_factor.hpp: linearize, error", "include/small_gicp/factors/robust_kernel.hpp: RobustFactor"]}
{"id": "C33", "title": "The linear system is symmetric positive semi-definite and the error non-negative", "statement": "H is symmetric and positive semi-definite and e >= 0 for every accumulated system (for GICP whenever the covariances are positive semi-definite with invertible sum); with damping lambda > 0 the solved step is unique and a descent direction (b.delta <= 0, < 0 unless b = 0).", "quantifier": "for all clouds, poses, correspondences", "why_tests_cant": "inequality over all reals", "anchors": ["include/small_gicp/factors/*.hpp: linearize", "include/small_gicp/registration/optimizer.hpp: LevenbergMarquardtOptimizer"]}
{"id": "C34", "title": "b is the gradient of the registration error", "statement": "With correspondences fixed, the derivative of the evaluated error along pose * se3_exp(s * delta) at s = 0 equals b . delta for every direction delta (ICP, point-to-plane, GICP).", "quantifier": "for all clouds, rigid poses and directions", "why_tests_cant": "derivative identity over all reals", "anchors": ["include/small_gicp/factors/icp_factor.hpp", "include/small_gicp/factors/plane_icp_factor.hpp", "include/small_gicp/factors/gicp_factor.hpp", "include/small_gicp/util/lie.hpp: se3_exp, skew"]}
{"id": "C35", "title": "Point-to-plane error measures distance to the tangent plane", "statement": "The point-to-plane error is zero exactly when the transformed source point lies in the tangent plane of its correspondence, i.e. it equals half the squared plane distance.", "quantifier": "for all correspondences and unit normals (violated: the code uses the element-wise product with the normal; true for axis-aligned normals)", "why_tests_cant": "tests only check that registration converges", "anchors": ["include/small_gicp/factors/plane_icp_factor.hpp: PointToPlaneICPFactor"]}
{"id": "C36", "title": "Robust kernels down-weight and keep the order of errors", "statement": "Huber and Cauchy weights lie in (0, 1], are even and non-increasing in |e|, equal 1 at 0 (Huber: up to the width); the robustified error is non-negative, non-decreasing in the plain error and not larger than it.", "quantifier": "for all errors and kernel widths c > 0", "why_tests_cant": "inequalities over all reals", "anchors": ["include/small_gicp/factors/robust_kernel.hpp: Huber, Cauchy, RobustFactor"]}
{"id": "C37", "title": "DoF restriction leaves free directions alone and bounds restricted ones", "statement": "RestrictDoFFactor only changes diagonal entries of masked directions; b and e are unchanged; with weight lambda the computed step's masked components satisfy sum delta_i^2 <= 2 e / lambda.", "quantifier": "for every system produced by the factors, every 0/1 mask and lambda > 0", "why_tests_cant": "bound on all systems", "anchors": ["include/small_gicp/factors/general_factor.hpp: RestrictDoFFactor, NullFactor"]}
{"id": "C38", "title": "Levenberg-Marquardt only accepts steps that do not increase the error", "statement": "Within every outer iteration the accepted pose has, for the correspondences of that iteration, an error not larger than before; if no trial succeeds the pose is left unchanged and the optimisation stops without claiming convergence; the reported error is the error at the reported pose for the last correspondences.", "quantifier": "for every problem, solver outcome and setting; every general factor (violated for general factors that add their own error, since the trial error is added to the reference error - counterexample)", "why_tests_cant": "histories of accept/reject decisions are unbounded", "anchors": ["include/small_gicp/registration/optimizer.hpp: LevenbergMarquardtOptimizer::optimize"]}
{"id": "C39", "title": "Optimisers terminate within their budgets and convergence is genuine", "statement": "optimize performs at most max_iterations linearisations and max_iterations * max_inner_iterations error evaluations; it reports converged only if the last applied step satisfies both the rotation and translation thresholds; non-positive budgets return the initial guess.", "quantifier": "for every problem and setting", "why_tests_cant": "loop bounds over all problems", "anchors": ["include/small_gicp/registration/optimizer.hpp: GaussNewtonOptimizer, LevenbergMarquardtOptimizer", "include/small_gicp/registration/termination_criteria.hpp: TerminationCriteria::converged"]}
{"id": "C40", "title": "result.iterations counts the performed iterations", "statement": "RegistrationResult::iterations equals the number of optimisation iterations performed.", "quantifier": "for every problem (violated: it is the zero-based index of the last iteration - counterexample; exact relation proved)", "why_tests_cant": "tests do not look at it", "anchors": ["include/small_gicp/registration/registration_result.hpp: RegistrationResult::iterations", "include/small_gicp/registration/optimizer.hpp"]}
{"id": "C41", "title": "The estimated transform stays rigid", "statement": "Starting from a rigid initial guess every pose produced is rigid (rotation part orthogonal with determinant one, last row 0 0 0 1) as long as every step has rotation angle at least 1e-5; smaller steps deviate from orthogonality by a bounded, explicitly given amount.", "quantifier": "for every sequence of update steps", "why_tests_cant": "product of unboundedly many updates", "anchors": ["include/small_gicp/util/lie.hpp: so3_exp, se3_exp", "include/small_gicp/registration/optimizer.hpp"]}
{"id": "C42", "title": "se3_exp is the exponential map", "statement": "se3_exp(0) is the identity; for rotation angles above the small-angle threshold se3_exp equals the closed-form exponential (Rodrigues rotation and left Jacobian applied to the translation), it solves the defining differential equation, and se3_exp(-a) is the inverse of se3_exp(a).", "quantifier": "for every twist", "why_tests_cant": "identity over all reals", "anchors": ["include/small_gicp/util/lie.hpp: skew, so3_exp, se3_exp"]}
{"id": "C43", "title": "An already aligned pair is a fixed point", "statement": "Aligning a non-empty cloud with itself from the identity returns the identity, converged, with zero error and every point an inlier.", "quantifier": "for every non-empty cloud, factor type (ICP, plane ICP, GICP), thresholds >= 0 and gate >= 0", "why_tests_cant": "requires composing exact search, factors, reduction, solver and optimizer for all clouds", "anchors": ["include/small_gicp/registration/registration.hpp: Registration::align", "include/small_gicp/registration/optimizer.hpp", "include/small_gicp/factors/gicp_factor.hpp"]}
{"id": "C44", "title": "Registration is equivariant under rigid motion of the target frame", "statement": "Moving the target cloud (points, covariances) and the initial guess by a rigid motion G moves the result by G and leaves H, b, error, iterations and inliers unchanged (ICP and GICP); false for the element-wise point-to-plane factor.", "quantifier": "for every problem, rigid motion and neighbour search that commutes with G", "why_tests_cant": "continuum of motions, whole optimisation history", "anchors": ["include/small_gicp/factors/icp_factor.hpp", "include/small_gicp/factors/gicp_factor.hpp", "include/small_gicp/registration/optimizer.hpp"]}
{"id": "C45", "title": "Helper align honours the registration settings", "statement": "align(...) of the helper library runs the requested method with the requested thread count, thresholds, iteration limit and correspondence distance, for every registration type and overload.", "quantifier": "for every RegistrationSetting (violated: the VGICP overload ignores max_correspondence_distance; the cloud overload with type VGICP returns identity instead of registering)", "why_tests_cant": "tests use default settings only", "anchors": ["src/small_gicp/registration/registration_helper.cpp: align", "src/python/align.cpp: define_align"]}
{"id": "C46", "title": "No correspondences leaves the initial guess untouched", "statement": "If no source point finds a correspondence, the initial guess is returned unchanged with zero inliers and zero error.", "quantifier": "for every problem in which all points are rejected, including empty source clouds", "why_tests_cant": "degenerate input class", "anchors": ["include/small_gicp/registration/optimizer.hpp", "include/small_gicp/registration/registration.hpp"]}
{"id": "C47", "title": "Estimated normals are unit vectors facing the origin", "statement": "For each point with at least 5 neighbours found the estimated normal is the unit eigenvector of the smallest eigenvalue with w = 0, oriented so that point . normal <= 0; otherwise it is the zero vector.", "quantifier": "for every cloud, neighbour count and eigen-solver returning an orthonormal basis", "why_tests_cant": "orientation and validity for all inputs", "anchors": ["include/small_gicp/util/normal_estimation.hpp: NormalSetter, NormalCovarianceSetter, estimate_local_features"]}
{"id": "C48", "title": "Estimated covariances are regularised symmetric positive definite matrices", "statement": "The local scatter handed to the eigen-solver is the sample covariance (symmetric PSD); the stored covariance is V diag(1e-3,1,1) V^T padded with zeros, symmetric PSD with trace 2.001; with fewer than 5 neighbours it is diag(1,1,1,0); it does not depend on eigenvector signs.", "quantifier": "for every cloud and orthonormal eigenbasis", "why_tests_cant": "algebraic identity over all reals", "anchors": ["include/small_gicp/util/normal_estimation.hpp: CovarianceSetter, estimate_local_features"]}
{"id": "C49", "title": "Parallel feature estimation equals serial estimation", "statement": "estimate_normals/covariances with OMP or TBB give the same cloud as the serial version under every schedule, and leave the point coordinates untouched.", "quantifier": "for every order/interleaving of the per-point iterations", "why_tests_cant": "schedules", "anchors": ["include/small_gicp/util/normal_estimation_omp.hpp", "include/small_gicp/util/normal_estimation_tbb.hpp", "include/small_gicp/util/normal_estimation.hpp"]}
{"id": "C50", "title": "PointCloud attribute arrays stay aligned", "statement": "Construction and resizing keep points, normals and covariances the same length, resizing preserves the common prefix, constructed points have w = 1, and setting an attribute of one point changes nothing else.", "quantifier": "for every sequence of container operations", "why_tests_cant": "histories", "anchors": ["include/small_gicp/points/point_cloud.hpp: PointCloud", "include/small_gicp/points/traits.hpp"]}
{"id": "C51", "title": "RegistrationPCL never uses stale caches", "statement": "Whenever an alignment runs, the search tree, covariances and voxel map it uses belong to the current target/source clouds and to the current settings; swapping twice is the identity; swapping exchanges the complete per-cloud state.", "quantifier": "for every sequence of setter, swap, clear and align calls (violated by setVoxelResolution, setTargetCovariances and setNumNeighborsForCovariance after an alignment - counterexamples; holds without these)", "why_tests_cant": "histories of API calls", "anchors": ["include/small_gicp/pcl/pcl_registration_impl.hpp: setInputSource, setInputTarget, setSourceCovariances, setTargetCovariances, swapSourceAndTarget, clearSource, clearTarget, computeTransformation"]}
{"id": "C52", "title": "RegistrationPCL setters validate their arguments", "statement": "After any sequence of setter calls the number of threads is >= 1, the number of neighbours is >= 5, the registration type is GICP or VGICP and the voxel resolution is positive.", "quantifier": "for every sequence of setter calls (voxel resolution part violated - counterexample)", "why_tests_cant": "histories of calls", "anchors": ["include/small_gicp/pcl/pcl_registration_impl.hpp: setNumThreads, setNumNeighborsForCovariance, setVoxelResolution, setRegistrationType"]}
{"id": "C53", "title": "Projective search returns genuine, distinct neighbours", "statement": "Every neighbour returned by the projective search is a point of the cloud with its true distance, sorted, and no point appears twice.", "quantifier": "for every cloud, projection, window and image size (distinctness violated for images narrower than the window - counterexample)", "why_tests_cant": "image/window size combinations", "anchors": ["include/small_gicp/ann/projective_search.hpp: UnsafeProjectiveSearch::knn_search, BorderRepeat, BorderClamp"]}
{"id": "C54", "title": "Border policies map window columns into the image", "statement": "BorderRepeat maps every coordinate within one image width of the image to the congruent column in [0, width); BorderClamp leaves coordinates unchanged and out-of-image cells are skipped.", "quantifier": "for all integer coordinates and widths", "why_tests_cant": "all integers", "anchors": ["include/small_gicp/ann/projective_search.hpp: BorderRepeat, BorderClamp"]}
{"id": "C55", "title": "Batch searches equal individual searches", "statement": "Row i of a Python batch search equals the individual search for query i padded with -1 / max double, independent of the number of threads.", "quantifier": "for every query matrix, k and schedule", "why_tests_cant": "schedules and sizes", "anchors": ["src/python/kdtree.cpp: batch_nearest_neighbor_search, batch_knn_search"]}
{"id": "C56", "title": "Point files round-trip", "statement": "read_points(write_points(P)) returns P with w = 1; incomplete trailing records are ignored; read_ply returns all vertices of a file with 3 or more float properties; a header with a negative vertex count ends in an exception.", "quantifier": "for every point list and byte string (read_ply violated for property counts other than 4 - counterexample)", "why_tests_cant": "all byte strings", "anchors": ["include/small_gicp/benchmark/read_points.hpp: read_points, write_points, read_ply"]}
{"id": "C57", "title": "Registration on a kd-tree is memory safe and pairs true nearest neighbours", "statement": "Registration::align on point clouds with a kd-tree never reads outside the clouds, the tree or an unset attribute, terminates with a result, and (with the distance rejector) pairs exactly the source points that have a target point within the gate, each with a nearest target point; num_inliers is their number.", "quantifier": "for all clouds with the attributes the factor needs and a non-empty target, all builders and build schedules, all factor types, robust kernels, reductions and their executions, optimisers, settings and initial guesses", "why_tests_cant": "unbounded clouds, poses, schedules", "anchors": ["include/small_gicp/registration/registration.hpp: align", "include/small_gicp/factors/*.hpp: linearize, error", "include/small_gicp/registration/reduction*.hpp", "include/small_gicp/ann/kdtree.hpp: nearest_neighbor_search", "include/small_gicp/points/point_cloud.hpp: point, normal, cov"]}
{"id": "C58", "title": "Registration on a Gaussian voxel map faults only by cell overflow", "statement": "Registration::align with a GaussianVoxelMap as target never reads outside the map; it is undefined exactly when a pose at which it linearises puts a source point so far away that its cell or a searched neighbour cell does not fit into int; otherwise its correspondences are the nearest means among the searched voxels within the gate.", "quantifier": "for all maps reached by public operations, sources, factors without normals, executions, optimisers and initial guesses", "why_tests_cant": "unbounded maps and poses; the overflow depends on the run", "anchors": ["include/small_gicp/registration/registration.hpp: align", "include/small_gicp/ann/gaussian_voxelmap.hpp", "include/small_gicp/ann/incremental_voxelmap.hpp: nearest_neighbor_search, Traits", "src/small_gicp/registration/registration_helper.cpp: align (VGICP)"]}
{"id": "C59", "title": "Preprocessing yields a downsampled cloud with local features and a kd-tree on it", "statement": "preprocess_points returns a cloud whose points are the voxel-grid sample of the input (serial or parallel variant by num_threads), whose normal and covariance at every point are those of its k nearest sampled points (unit normal of least variance facing the origin, disc covariance; fixed defaults with fewer than 5 neighbours), and a kd-tree built on exactly these points; it does not fault.", "quantifier": "for all clouds with w = 1 and fewer than 2^32 points whose cell coordinates are defined, all leaf sizes other than 0, neighbour counts >= 1, thread counts and complete executions of the parallel parts", "why_tests_cant": "unbounded clouds and schedules; composition of four components", "anchors": ["src/small_gicp/registration/registration_helper.cpp: preprocess_points", "include/small_gicp/util/downsampling.hpp, downsampling_omp.hpp", "include/small_gicp/util/normal_estimation*.hpp", "include/small_gicp/ann/kdtree*.hpp"]}
{"id": "C60", "title": "Every optimiser step is the damped Gauss-Newton step of its iteration and a descent direction", "statement": "In every iteration the applied step is the unique minimiser of the damped quadratic model of the system linearised at that iteration's pose; for ICP, point-to-plane ICP and GICP the registration error with that iteration's correspondences has a negative directional derivative along it unless the step is zero; the reported H and b are those of the last iteration.", "quantifier": "for all runs of Levenberg-Marquardt and Gauss-Newton with positive damping, scenes, rejectors, initial guesses and the shipped general factors; source points with w = 1, and for GICP target covariances that are positive definite where matched", "why_tests_cant": "all scenes, poses and iterations; derivative of the error on SE(3)", "anchors": ["include/small_gicp/registration/optimizer.hpp: GaussNewtonOptimizer, LevenbergMarquardtOptimizer", "include/small_gicp/factors/icp_factor.hpp, plane_icp_factor.hpp, gicp_factor.hpp: linearize", "include/small_gicp/factors/general_factor.hpp"]}
{"id": "C61", "title": "align on raw points, end to end", "statement": "align on two vectors of points (preprocessing, map or tree, registration) has exactly the following outcomes. ICP, plane ICP and GICP read the unset root of the target tree iff the target is empty, the source is not and an iteration is allowed; otherwise they return a result: the initial guess moved by at most as many steps as iterations are allowed, with, as inlier count, the number of sampled source points that the pose of the last linearisation (at most one step before the result) puts within the correspondence distance of a sampled target point. VGICP faults only by overflow of a cell coordinate of a sampled target point or of a sampled source point at a pose visited from the initial guess; otherwise the same holds of the pose of the result, and the inlier count is, at the pose of the last linearisation, the number of sampled source points within distance 1 of the mean of the sampled target points of their cell. An unknown type aborts. A non-empty cloud aligned with itself from the identity gives the identity, converged, with zero error and every sampled point an inlier.", "quantifier": "for all vectors of points whose grid cells are defined, all settings with non-zero resolutions and at least one thread, all initial guesses, and all complete executions of the parallel parts of preprocessing and registration", "why_tests_cant": "unbounded inputs and schedules; the two preprocessing runs of one cloud may order the samples differently; composition of every component of the library", "anchors": ["src/small_gicp/registration/registration_helper.cpp: align, create_gaussian_voxelmap, preprocess_points"]}
{"id": "C62", "title": "Flow-graph odometry equals sequential odometry", "statement": "The odometry that runs as a TBB flow graph (preprocessing and registration of frames overlap in any order) returns the same trajectory as the frame-by-frame odometry: frame i+1 has the pose of frame i times the registration of the two frames, the first frame is at the identity. It fails only if the sequential odometry fails, takes nine events per frame, never gets stuck, and no two running bodies race on a frame. The sequential odometry resets its input pointers, so a used input vector cannot be used again. Violated for the second call in a process: the static variable last_frame makes the first frame be registered to the last frame of the previous call.", "quantifier": "for every sequence of clouds, every preprocessing and registration function, every order of events of the flow graph, every earlier history of calls", "why_tests_cant": "unbounded number of frames and of interleavings of graph nodes", "anchors": ["src/benchmark/odometry_benchmark_small_gicp_tbb_flow.cpp: SmallGICPFlowEstimationTBB::estimate", "src/benchmark/odometry_benchmark_small_gicp.cpp: SmallGICPOnlineOdometryEstimation::estimate", "include/small_gicp/benchmark/benchmark_odom.hpp: OnlineOdometryEstimation::estimate"]}
{"id": "C63", "title": "Odometry from raw frames", "statement": "Given frames of points whose voxel coordinates are defined, the GICP odometry engines (sequential, OpenMP, TBB, and the TBB flow graph on its first call) return one pose per frame: the first is the identity, each next pose is the one before it followed by at most 20 optimiser steps, a frame with the same points as the one before it (or with no sampled point within the correspondence distance of it) gets the same pose, and no pose stretches lengths by more than a factor 1 + 1e-34 during the first 10^8 frames. No access is undefined, with one exception: a frame without points directly before a frame with points makes the search read the unset root of an empty tree.", "quantifier": "for every number of frames, all points, every schedule of tree construction, covariance loop, reductions and flow graph", "why_tests_cant": "unbounded frames and points, all interleavings at four levels", "anchors": ["src/benchmark/odometry_benchmark_small_gicp.cpp: SmallGICPOnlineOdometryEstimation::estimate", "src/benchmark/odometry_benchmark_small_gicp_omp.cpp: SmallGICPOnlineOdometryEstimationOMP::estimate", "src/benchmark/odometry_benchmark_small_gicp_tbb.cpp: SmallGICPOnlineOdometryEstimationTBB::estimate", "src/benchmark/odometry_benchmark_small_gicp_tbb_flow.cpp: SmallGICPFlowEstimationTBB::estimate", "include/small_gicp/benchmark/benchmark_odom.hpp: OnlineOdometryEstimation::estimate"]}
{"id": "C64", "title": "Registration against an incremental voxel map of any contents", "statement": "Take a voxel map of flat containers (with or without normals and covariances) after any history of insertions and setting changes, a source cloud with regular covariances when the factor reads them, any factor whose target attributes the containers store, any initial guess, any interleaving of the parallel reduction and either optimizer. The total run ends; the C++ run equals it unless some query at a visited pose has a cell coordinate outside int, in which case it is an int overflow and nothing else. Every correspondence is the exact nearest stored point among the searched cells, and the point, normal and covariance the factor reads at its id are those of one source point of one insert call, moved by that call's transform.", "quantifier": "all histories, flat settings, source clouds, factors, guesses, thread counts and interleavings", "why_tests_cant": "The claim covers every eviction and insertion history and every schedule; tests register against maps built by one insertion with one thread count.", "anchors": ["include/small_gicp/ann/incremental_voxelmap.hpp:49-190", "include/small_gicp/ann/flat_container.hpp:24-185", "include/small_gicp/registration/registration.hpp:30-60"]}
{"id": "C65", "title": "Odometry against an accumulated voxel map", "statement": "The four scan-to-model engines (linear voxel map or Gaussian voxel map, OpenMP or TBB), given frames of points, return one pose per frame: the first is the identity, each next pose is within 20 optimiser steps of the one before, and equals it when no stored map point of the cell of a moved sampled point lies within distance 1. The final map is exactly the result of inserting every frame's sampled points with their local covariances under that frame's pose, and holds at most as many voxels as points inserted by the last 110 frames, however long the run. The only possible fault is an int overflow of a cell coordinate, and then a sampled point of the current frame has no int cell under a pose within 20 steps of the last one.", "quantifier": "all frame sequences shorter than 2^62 frames with at most 2^25 points each, all executions of the parallel parts, all parameters with nonzero resolutions", "why_tests_cant": "Unbounded run length, map eviction, and every schedule; a benchmark run has one dataset and one thread count.", "anchors": ["src/benchmark/odometry_benchmark_small_gicp_model_omp.cpp:14-60", "src/benchmark/odometry_benchmark_small_gicp_model_tbb.cpp:17-67", "src/benchmark/odometry_benchmark_small_vgicp_model_omp.cpp:14-60", "src/benchmark/odometry_benchmark_small_vgicp_model_tbb.cpp:17-67", "include/small_gicp/ann/incremental_voxelmap.hpp:49-84"]}
{"id": "C66", "title": "Frame-to-frame odometry on Gaussian voxel maps", "statement": "The engines small_vgicp_omp and small_vgicp_tbb, given frames of points, return one pose per frame: the first is the identity, each next pose is the one before followed by at most 20 optimiser steps, and equals it when no sampled point shares a voxel with sampled points of the previous frame whose mean is within the correspondence distance. The only fault is an int overflow of a cell coordinate of a sampled point as it is or moved by at most 20 steps; a frame without points is not a fault (unlike in the kd-tree engines).", "quantifier": "all frame sequences, all executions of the parallel parts, all parameters with nonzero resolutions", "why_tests_cant": "Covers every schedule, every sequence including empty frames, and all coordinates up to the int limits.", "anchors": ["src/benchmark/odometry_benchmark_small_vgicp_omp.cpp:15-47", "src/benchmark/odometry_benchmark_small_vgicp_tbb.cpp:17-51"]}
{"id": "C67", "title": "Registration is Levenberg-Marquardt descent on the cost of matched pairs", "statement": "The result of align (pose, converged flag, iteration number, inlier count, H, b, error) is the outcome of Levenberg-Marquardt descent from the initial guess on the sampled clouds with their local features. Each iteration pairs every moved source point with a nearest target point within the gate (VGICP: with the average of the target points of its voxel, if within distance 1), takes b as the gradient and H as the Gauss-Newton matrix of the summed pair cost along T*exp(x), tries steps with damping lambda, 10 lambda, ... (ten at most) until one does not increase the cost, and ends after a small step, without a step, or after max_iterations. When no two target points are equally near there is exactly one such outcome. VGICP gives a result exactly if all target points and all points that the descent moves have cells with int coordinates.", "quantifier": "all inputs, settings and initial guesses; all four methods; all thread numbers and executions of the parallel loops", "why_tests_cant": "A test compares final poses with a tolerance on a few scans; a wrong gradient, a wrong damping rule or a stale pairing still converges on easy data.", "anchors": ["src/small_gicp/registration/registration_helper.cpp:74-138", "include/small_gicp/registration/optimizer.hpp:75-142", "include/small_gicp/factors/icp_factor.hpp:19-70", "include/small_gicp/factors/plane_icp_factor.hpp:19-67", "include/small_gicp/factors/gicp_factor.hpp:24-77", "include/small_gicp/registration/termination_criteria.hpp:15-21"]}
{"id": "C68", "title": "Odometry is a chain of Levenberg-Marquardt descents, on neighbours, cell averages, or what cells remember", "statement": "On frames given as points, with any executions of the parallel parts, each pose returned by the odometry engines is determined by the points: the relative (or, against an accumulated map, absolute) pose is the end of a Levenberg-Marquardt descent (LMRun, C67) with the default settings, started at the identity (at the pose before), on the sampled points with covariances of their neighbourhoods. The partner of a point is (a) small_gicp_omp, small_gicp_tbb and the flow graph: the nearest sampled point of the frame before; (b) small_vgicp_omp, small_vgicp_tbb: the average of the sampled points of the frame before in its cell; (c) small_vgicp_model_*: the average of all sampled points of earlier frames, each moved by the pose of its frame, that its cell remembers; (d) small_gicp_model_*: the nearest of the first ten remembered points that are no closer than 0.1 to one kept before; in all cases only if within the correspondence distance. A cell remembers every point since it was created and is forgotten at a multiple of ten frames if none of the last 100 frames had a point in it. The only other outcomes are those of C63, C65 and C66.", "quantifier": "all frames, all executions of the parallel parts, all schedules of the flow graph, all parameters with nonzero resolutions", "why_tests_cant": "the claim is about exact partner sets, systems and accepted steps of every iteration of every frame, and about eviction after more than 100 frames, for all inputs and schedules", "anchors": ["src/benchmark/odometry_benchmark_small_gicp_omp.cpp:16-50", "src/benchmark/odometry_benchmark_small_vgicp_omp.cpp:16-55", "src/benchmark/odometry_benchmark_small_gicp_model_omp.cpp:16-50", "src/benchmark/odometry_benchmark_small_vgicp_model_omp.cpp:16-50", "src/benchmark/odometry_benchmark_small_gicp_tbb_flow.cpp:30-130", "include/small_gicp/ann/incremental_voxelmap.hpp:55-98", "include/small_gicp/ann/flat_container.hpp:43-61"]}
{"id": "C69", "title": "Odometry on the PCL interface: swapped source and target, float conversions, frames without points", "statement": "The engine small_gicp_pcl keeps one RegistrationPCL object and swaps its source and target after every frame. If the first two frames contain points, it returns the identity and then one pose per frame: the pose before it, multiplied by the float-rounded result of the Levenberg-Marquardt descent on the GICP cost that registers the float-rounded sampled points of the frame to those of the frame before, started from the identity, with the thresholds and the iteration limit of the PCL object, covariances being those of max(num_neighbors, 5) nearest points within the frame itself (never covariances, trees or clouds left over from another frame). A later frame without points is rejected by PCL, so the previous pair is registered once more the other way round and the current frame becomes the last but one. If the first or the second frame has no points, a null pointer is dereferenced.", "quantifier": "for all sequences of frames (points with weight one in the range of the sampler), parameters, roundings that fix 1, iteration limits, executions of the parallel functions, and all linear solvers, eigen solvers and sort/selection functions meeting their contracts", "why_tests_cant": "Stale caches show only after particular sequences of swaps and rejected clouds, and the results differ by small amounts; tests run short sequences without empty frames.", "anchors": ["src/benchmark/odometry_benchmark_small_gicp_pcl.cpp:15-50", "include/small_gicp/pcl/pcl_registration_impl.hpp:41-62", "include/small_gicp/pcl/pcl_registration_impl.hpp:113-118", "include/small_gicp/pcl/pcl_registration_impl.hpp:202-246", "include/small_gicp/pcl/pcl_proxy.hpp:13-37", "include/small_gicp/benchmark/benchmark_odom.hpp:49-80"]}
{"id": "C70", "title": "Python functions on numpy arrays: rows, shapes and agreement of the overloads", "statement": "PointCloud(a) of an N x 3 or N x 4 array holds exactly the rows of a in order (weight 1 appended to three columns), without normals and covariances, and points() returns them again; any other shape gives an empty cloud, and points() or normals() of an empty cloud reads element 0 of an empty vector. preprocess_points(a) on rows of weight 1 returns, for every execution, a block-wise sample of the rows with normal and covariance of the k nearest sampled points each, and a kd-tree of exactly these points. The three estimate functions give the same values with and without a tree of the cloud and for any number of threads; a tree of a larger cloud makes them read outside the cloud. The overload for an array gives the result of the overload for PointCloud(a), and align on two arrays does not read a fourth column. (Agreement is violated: for arrays without rows preprocess_points(a) gives an empty cloud and tree, preprocess_points(PointCloud(a)) gives None; for a fourth column other than 1 the cloud versions of the samplers divide by it, the array version does not read it.)", "quantifier": "for all arrays, clouds, resolutions, neighbour counts, thread numbers, executions of the parallel functions, and all eigen solvers and sort/selection functions meeting their contracts", "why_tests_cant": "The Python tests use arrays whose fourth column is absent or 1 and never empty ones; agreement for every array and schedule is a statement about unbounded inputs.", "anchors": ["src/python/pointcloud.cpp:20-39", "src/python/pointcloud.cpp:77", "src/python/pointcloud.cpp:88", "src/python/preprocess.cpp:24-76", "src/python/preprocess.cpp:108-188", "src/python/preprocess.cpp:210-273", "src/python/align.cpp:26-95"]}
{"id": "C71", "title": "Scan-to-scan odometry of the Python example: descents guided by the motion before", "statement": "ScanToScanMatchingOdometry of kitti_odometry.py returns one pose per scan: the identity for the first, then the pose before it multiplied by the motion where the Levenberg-Marquardt descent on the GICP cost ends that starts from the motion of the scan before (the identity at first) and brings a block-wise sample of the scan (leaf 0.25, covariances of its ten nearest sampled points) to the sample of the scan before, a partner being a nearest point within 1 m. While all scans have the same points every pose is the identity, whatever order the parallel sampler gives them. If a scan without points comes directly before one with points, an unset tree node is read; after a scan that has not three or four columns a null pointer is dereferenced.", "quantifier": "for all sequences of scans (arrays of three columns, or with ones in the fourth, in the range of the sampler), thread numbers, executions of the parallel functions, and all linear solvers, eigen solvers and sort/selection functions meeting their contracts", "why_tests_cant": "The example needs a dataset and a viewer and is not run by any test; the claim is about scan sequences of any length and every schedule of its parallel parts.", "anchors": ["src/example/kitti_odometry.py:11-31", "src/example/kitti_odometry.py:79-83", "src/python/align.cpp:149-195", "src/python/preprocess.cpp:210-232"]}
{"id": "C72", "title": "Scan-to-model odometry of the Python example: descents on what the voxel map remembers", "statement": "ScanToModelMatchingOdometry of kitti_odometry.py places scans at the identity until its Gaussian voxel map has a voxel; afterwards each pose is where the Levenberg-Marquardt descent on the GICP cost ends that starts from the pose predicted by the last motion, the partner of a point being the average of all placed points which its cell of side 1 remembers (cells not seen for more than 100 scans are forgotten at every tenth scan), if within 1 m; the scan is then placed at this pose. At a scan without points the last motion is repeated. The only faults are an overflow of cell coordinates, when a point of a sample is put beyond 2^31 cells, and an access to the first element of an empty vector by voxel_points(), when the map is cleared because the scans after one with points had none until a multiple of ten more than 100 scans later; there are poses for all scans only if there is no such gap. A scan with neither three nor four columns raises an exception.", "quantifier": "for all sequences of fewer than 2^62 scans of at most 2^25 points (arrays of three columns, or with ones in the fourth, in the range of the sampler), thread numbers, executions of the parallel functions, and all linear solvers, eigen solvers and sort/selection functions meeting their contracts", "why_tests_cant": "The example needs a dataset and a viewer and is not run by any test; eviction shows only after more than 100 scans, and the claim is about scan sequences of any length.", "anchors": ["src/example/kitti_odometry.py:33-57", "src/example/kitti_odometry.py:79-83", "src/python/voxelmap.cpp:57-59", "src/python/voxelmap.cpp:78-83", "src/python/voxelmap.cpp:96-101", "src/python/align.cpp:233-255", "include/small_gicp/ann/incremental_voxelmap.hpp:253-264"]}
{"id": "C73", "title": "Registration with a robust kernel descends the robust cost", "statement": "With the Huber or Cauchy kernel around any point factor, the accumulated b is the gradient of the robust error that the optimiser evaluates to accept steps, and every applied step is a descent direction of it. The code breaks this: b is the gradient of the Huber or Cauchy loss (whose slope in the squared error is the weight), a function that weight times error is not. What holds: b is the gradient of the total loss, every step descends the loss, the loss lies below the cost with frozen weights, and for Huber the evaluated error is between half the loss and the loss, so that an accepted step at most doubles the loss. Levenberg-Marquardt can stop at a pose where neither function is stationary.", "quantifier": "for all scenes, point factors, kernel widths c > 0, rejectors, general factors of the library, solvers, settings and runs of both optimisers", "why_tests_cant": "the test-suite only checks that robust runs end near the ground truth; derivative identities, the global bound of the loss and the impossibility of any accepted step for all damping values are statements over all reals", "anchors": ["include/small_gicp/factors/robust_kernel.hpp: Huber, Cauchy, RobustFactor", "include/small_gicp/registration/optimizer.hpp: LevenbergMarquardtOptimizer, GaussNewtonOptimizer"]}
{"id": "C74", "title": "ICP never returns a pose worse than the initial guess", "statement": "Of align() with ICP: the sum over the sampled source points of the squared distance to the nearest sampled target point, capped at the squared maximum correspondence distance, is at the returned pose at most what it is at the initial guess, with the nearest points found anew at each pose. Twice the reported error plus the gate times the number of points that are not inliers lies between the two, so a user can bound the remaining misfit from the result alone. Without ties, a larger iteration budget never gives a worse pose. None of this carries over to point-to-plane ICP.", "quantifier": "for all clouds in range of the sampler, initial guesses, settings with a gate below the largest double, thread numbers, complete executions, and all linear solvers, eigen solvers and selection functions meeting their contracts; the descent theorem for all lists of points, gates, dampings and budgets", "why_tests_cant": "The repository's tests compare the final pose with a ground truth for a few initial guesses near it; a pose that becomes worse after a change of partners would show only for particular clouds and guesses.", "anchors": ["include/small_gicp/registration/optimizer.hpp:83-157", "include/small_gicp/factors/icp_factor.hpp:20-65", "include/small_gicp/factors/plane_icp_factor.hpp:20-70", "include/small_gicp/registration/rejector.hpp:18-28", "src/small_gicp/registration/registration_helper.cpp:55-105"]}
{"id": "C75", "title": "Brute-force search of the template example", "statement": "The user-defined search of the template example returns, for any number of neighbours that is not negative, exactly the min(k, n) nearest points of the cloud in ascending order, touches nothing behind them in the output arrays, and agrees in number and distances with the k-d tree; the nearest-neighbour search that the library derives from it finds a nearest point of every non-empty cloud and nothing in an empty one. A negative k is converted to a huge unsigned number, so the whole cloud is returned and arrays shorter than the cloud are overrun.", "quantifier": "for all clouds, queries, k in the range of int, output arrays long enough, contents of the arrays before the call, and all priority queues meeting the contract of the standard; negative k: for all clouds larger than the arrays", "why_tests_cant": "the example is run by no test; which of several equally distant points the queue drops, and the overrun for negative k, depend on the library and on the memory behind the arrays", "anchors": ["src/example/03_registration_template.cpp:118-179", "include/small_gicp/ann/traits.hpp:54-57"]}
{"id": "C76", "title": "The template example registers two clouds on its own classes", "statement": "Run on the user-defined point cloud, search, rejector and general factor, example2 reads no memory outside its clouds and returns what its comments describe: the sampled source descended onto the sampled target by point-to-plane ICP from the identity, pairs more than 1 m apart or with dissimilar features left out, roll and pitch held by a stiffness of 1e8. In the code the search object of the source is built on the target, so neighbour indices of the target are read in the source cloud, and the rejector compares the target's features with themselves.", "quantifier": "for all input clouds in range of the sampler, schedules of the parallel loops, complete executions of the reductions, and all linear solvers, eigen solvers, sorts and priority queues meeting their contracts", "why_tests_cant": "The example is no test; with two scans of similar size the wrong indices are mostly inside the source cloud and the wrong source normals are never read by point-to-plane ICP, so the output looks right; the features are all filled with one value.", "anchors": ["src/example/03_registration_template.cpp:64-115", "src/example/03_registration_template.cpp:182-322"]}
{"id": "C77", "title": "Restricting degrees of freedom by stiffness", "statement": "Registration of clouds with a RestrictDoFFactor is the damped descent whose every linear system has lambda added on the diagonal of the masked directions and whose accepted errors are those of the clouds alone. Without a mask it is the unrestricted descent. Each step moves in the masked directions by at most the square root of n*w*gate/(2*lambda) (n source points, w = 1, for GICP 1000), and as lambda grows it tends to the step of the problem in which the masked directions do not exist, with a rate of 1/lambda in the square.", "quantifier": "for all clouds with local features, factors (ICP, point-to-plane, GICP), masks, lambda > 0, optimizer settings with positive damping, initial poses, complete executions and solvers meeting their contracts; the bounds for all positive semidefinite systems", "why_tests_cant": "A test sees one lambda and one scene; that no scene within the gate can push a masked direction further than the bound, and that lambda needs only be large, quantifies over all scenes and systems.", "anchors": ["include/small_gicp/factors/general_factor.hpp:30-75", "include/small_gicp/registration/optimizer.hpp:83-157", "include/small_gicp/registration/registration.hpp:25-60"]}
{"id": "C78", "title": "Factors called from Python compute the system that align solves", "statement": "For two clouds preprocessed in Python and the tree of the target, factor.linearize(target, source, tree, T, i, rejector) of each of the three factor classes succeeds exactly when a target point is within the distance set in the rejector, and returns the Gauss-Newton matrix, the gradient and the cost of source point i with a nearest target point (zeros otherwise). The sums over all source points, computed with one factor object in whatever state earlier calls left it, are the matrix, gradient and cost of the whole source; and H and b returned by align are these sums at the pose of the last linearisation, which is the returned pose or one damped step before it. An index outside the source reads out of bounds, as does the tree of another cloud whose near points the target does not have.", "quantifier": "all preprocessed clouds, poses, distances, methods, states of the factor object, numbers of threads, schedules", "why_tests_cant": "the repository's own test compares the sums at a different pose with a tolerance of 5 % on one pair of scans; it cannot distinguish which pose H belongs to, nor see state left in a reused factor", "anchors": ["src/python/factors.cpp:29-225", "src/test/python_test.py:143-166", "include/small_gicp/registration/rejector.hpp:19-30"]}
{"id": "C79", "title": "Benchmark statistics", "statement": "For any measurements pushed, mean_std returns their mean and the square root of the mean squared distance to it (never of a negative number), last returns the last one; without measurements both are NaN. The median with the full log is a median of the measurements. (Violated: nth_element is called with its last two arguments exchanged. An implementation may stop the program; one that only permutes the given range yields the measurement made in the middle of the time.)", "quantifier": "all lists of measurements, any square root, all implementations of nth_element that meet the standard", "why_tests_cant": "the tools only print; a median of one run looks plausible whatever element is returned", "anchors": ["include/small_gicp/benchmark/benchmark.hpp:35-94"]}
{"id": "C80", "title": "Data sets are read in the order of file names", "statement": "The frames of KittiDataset are the files of the directory whose names end in .bin (and have something before it), in ascending order of names, at most max_num_data of them, whatever order the directory is listed in and however they are sorted; files numbered with leading zeros come in the order of their numbers. Every content is read without a fault, as its complete records with w = 1, and convert makes a cloud of exactly these points; with release a second convert gives nothing.", "quantifier": "all directories, listings, contents, limits, sorting functions", "why_tests_cant": "the order of a directory listing depends on the file system; a test sees one", "anchors": ["include/small_gicp/benchmark/benchmark.hpp:96-144", "include/small_gicp/benchmark/read_points.hpp:15-33"]}
{"id": "C81", "title": "Command line of odometry_benchmark", "statement": "After the two paths, options with values in any order give every parameter the value given last, or the default; an unknown option ends the program with code 1 before anything is read or written. Every command line ends in one of these ways, a value is not read as an option, and the defaults are those in the usage text. (Violated: an option without its value at the end reads through a null pointer; a value beginning with two dashes is also an option; the usage text gives 2.0 for a voxel resolution of 1.0.)", "quantifier": "all lists of options and values, all conversions of texts to numbers", "why_tests_cant": "combinations of options are unbounded", "anchors": ["src/benchmark/odometry_benchmark.cpp:9-55", "include/small_gicp/benchmark/benchmark_odom.hpp:19-27"]}
{"id": "C82", "title": "odometry_benchmark from files to the trajectory file", "statement": "With valid options the engine registered under the chosen name, in whatever order engines were registered, is made with the chosen parameters and gets the clouds of the data set; the output file has one line for each file of the data set, the twelve numbers of the upper rows of the pose. For the frame-to-frame GICP engines the poses are an odometry trajectory in the sense of C63, or the program is undefined because a file without points comes directly before one with points. An unknown engine gives code 1. Code 0 means that the file was written. (The last is violated: a file that cannot be opened is not noticed.)", "quantifier": "all data sets of finite points, options, orders of registration, parallel executions", "why_tests_cant": "runs take minutes and need data; no test of the program exists", "anchors": ["src/benchmark/odometry_benchmark.cpp:57-97", "src/small_gicp/benchmark/benchmark_odom.cpp:7-27", "include/small_gicp/benchmark/benchmark_odom.hpp:44-82"]}
{"id": "C83", "title": "Voxel maps in memory do not interfere", "statement": "IncrementalVoxelMap keeps its voxels behind shared pointers. Several maps in one memory, each made by its own constructor and filled by insertions in any interleaved order, behave as independent values: every query on one of them gives what it would give had the others never existed. A copy of a map should be an independent map as well.", "quantifier": "all histories of constructions, insertions and copies of any number of maps, all point sets, poses, queries and voxel contents", "why_tests_cant": "Aliasing shows only for particular interleavings of operations on two objects, and absence of interference is a statement about all histories.", "anchors": ["include/small_gicp/ann/incremental_voxelmap.hpp:54-93", "include/small_gicp/ann/incremental_voxelmap.hpp:187-202"]}
{"id": "C84", "title": "When the matched points determine the pose", "statement": "With ICP and GICP, the Hessian that align returns is positive definite exactly if the source points matched in the last linearisation are not all on one line. The returned error is zero exactly if the returned pose brings every matched source point onto its partner; if the Hessian is also definite and the pose rigid, no other rigid pose does. With the point-to-plane factor, normals without a zero component give the same criterion, even for a single plane.", "quantifier": "all clouds, initial poses, thread counts, complete executions and numbers of iterations above zero", "why_tests_cant": "It is an equivalence between an algebraic property of a 6x6 matrix and the geometry of an arbitrary set of pairs, in exact arithmetic.", "anchors": ["include/small_gicp/registration/optimizer.hpp:83-145", "include/small_gicp/factors/icp_factor.hpp:20-65", "include/small_gicp/factors/gicp_factor.hpp:35-91", "include/small_gicp/factors/plane_icp_factor.hpp:20-69", "src/small_gicp/registration/registration_helper.cpp:60-122"]}
{"id": "C85", "title": "Sums of the reductions in floating-point arithmetic", "statement": "In floating-point arithmetic the serial, OpenMP and TBB reductions add in different orders and may give different systems. Under every schedule the factors still end up the same, no fault occurs, and every entry of H and b and the error is the exact sum of the N contributions up to ((1+u)^(N-1) - 1) times the sum of their absolute values, u being the unit roundoff; so two reductions or two runs differ by at most twice that.", "quantifier": "all factors, contributions, thread counts, distributions, splittings and interleavings, and all machine additions with relative error u", "why_tests_cant": "The order of additions is chosen by the scheduler; a test sees one order and cannot bound the others.", "anchors": ["include/small_gicp/registration/reduction.hpp:21-62", "include/small_gicp/registration/reduction_omp.hpp:20-66", "include/small_gicp/registration/reduction_tbb.hpp:30-138"]}
{"id": "C86", "title": "The order of the points does not matter", "statement": "align(target, source) does not depend on the order in which the points are given. With one thread the result is the same for every permutation of both inputs and every method (each input empty or with a point in the range of the down-sampling). The possible outcomes of a descent on nearest pairs do not depend on the order of the two clouds. When every point is in range and alone in its down-sampling cell, ICP is a descent on the points themselves, and if that descent meets no ties between nearest points its outcome is the result for every order, thread count and execution.", "quantifier": "all point vectors and permutations of them, settings, initial poses, thread counts, executions and descents", "why_tests_cant": "There are n! orders of n points, and for each of them as many executions as the schedulers allow; a test compares a few.", "anchors": ["include/small_gicp/util/downsampling.hpp:23-78", "include/small_gicp/util/downsampling_omp.hpp:25-90", "include/small_gicp/registration/registration.hpp:32-61", "src/small_gicp/registration/registration_helper.cpp:19-60"]}
{"id": "C87", "title": "Registration with the Gauss-Newton optimiser", "statement": "Registration::align with GaussNewtonOptimizer on two clouds with features and the k-d tree of the target does not fault and is, for any reduction and execution, the plain iteration: partners at the current pose, step of their system with constant damping, taken whatever it does to the cost, until a step is small or the budget is used up; its outcome is determined where nearest points are unique. H, b, num_inliers and error of the result describe the pose before the last step, not the returned one. Unlike with Levenberg-Marquardt (C74) the returned pose may be worse than the initial guess: with ICP and the default damping, on two points, the sum of squared distances to the nearest target points grows while the reported error stays that of the guess.", "quantifier": "all clouds with features, factor types, reductions, executions, initial poses, dampings and budgets", "why_tests_cant": "A test compares a few runs with ground truth; it does not say what the fields of the result belong to, nor find the configurations where the step overshoots.", "anchors": ["include/small_gicp/registration/optimizer.hpp:12-69", "include/small_gicp/registration/registration.hpp:32-61"]}
{"id": "C88", "title": "Benchmark of the kd-trees", "statement": "kdtree_benchmark finds for 10, 9, ..., 1 tenths of the points of the first scan a voxel resolution that leaves this number of points up to 0.1 %, or the middle of an interval that was halved between enough and too few points, downsamples the scan with each and measures the construction of trees of the ten clouds. Violated: the search for all points divides the resolution by ten until no points share a cell; if no grid of 10^-1 to 10^-6 does this within the range of the keys (two equal points are enough), the homogeneous coordinate 1 divided by the resolution leaves int at 10^-10 (undefined). A directory without scans is read out of bounds. With the default options (method small, 4 threads) nothing is measured.", "quantifier": "all scans, directories, options, sorting functions and measured times", "why_tests_cant": "The program is run on one data set; which scans make the search diverge depends on coincidences among all points and on all grid sizes.", "anchors": ["src/benchmark/kdtree_benchmark.cpp:12-167", "include/small_gicp/util/downsampling.hpp:23-78", "include/small_gicp/benchmark/benchmark.hpp:35-115"]}
{"id": "C89", "title": "Registration recovers the true pose from near it", "statement": "Two scans of the same points: a rigid pose T brings every source point onto a target point, target points are distinct, and the pairs determine the pose (for ICP and GICP: the source points are not on a line). Then there is a neighbourhood of T such that from every initial rotation and translation in it, both optimisers end at T: all source points are inliers, the distance to T shrinks by a constant factor per iteration if the iterations are used up, is of the order of the bounds for a small step if the result says converged, up to a term of eighth order in the initial distance (the rotations drift); with Gauss-Newton the result says converged after enough iterations.", "quantifier": "all clouds, poses T, gates > 0, dampings, initial poses in the neighbourhood, tolerances, iteration counts below 2^31, reductions and their complete executions", "why_tests_cant": "A test registers a few clouds from a few initial poses; that there is a whole neighbourhood for every pair of scans is a statement about infinitely many of both.", "anchors": ["include/small_gicp/registration/optimizer.hpp:14-156", "include/small_gicp/factors/icp_factor.hpp:20-69", "include/small_gicp/factors/plane_icp_factor.hpp:21-62", "include/small_gicp/factors/gicp_factor.hpp:29-81", "include/small_gicp/util/lie.hpp:76-96", "include/small_gicp/registration/registration.hpp:20-46"]}
{"id": "C90", "title": "The basic registration examples register what they say, in two grids and with two neighbourhood sizes", "statement": "01_basic_registration returns 1, without registering, if a file gives no points; otherwise 0, and each example computes the GICP registration of the sampled points with the default settings: example2 gives the same result as example1 for the same executions, and its second call is the registration of the target to the source on the same samples. The four examples of basic_registration.py are registrations of the same points, but not the same function of them: example_numpy1 and example_small2 sample sequentially, example_numpy2 and example_small1 block-wise (though with one thread) and agree with each other; example_small2 uses covariances of 20 neighbours, the others of 10. A file that cannot be read is not reported by the script: points() reads element 0 of an empty vector.", "quantifier": "all file contents, float values and complete executions of the parallel parts", "why_tests_cant": "The repository's test runs the examples on one pair of scans and accepts any pose near the known one; it cannot see that the examples compute different functions, nor what happens for other files.", "anchors": ["src/example/01_basic_registration.cpp:12-71", "src/example/basic_registration.py:11-187", "src/python/misc.cpp:19-26", "src/python/preprocess.cpp:24-277", "src/python/align.cpp:26-195"]}
{"id": "C91", "title": "The downsampling benchmark compares 15 resolutions whatever the rounding, and its lines are ordered", "statement": "With a valid command line, downsampling_benchmark (built without PCL) reads the first 1000 files of the directory (or as many as the option given last says) and prints the statistics of their sizes, a group of lines for the resolution 0.5, and exactly 15 groups for 0.1, 0.2, ..., 1.5, for every rounding of the loop variable with a relative error up to 1e-7. If all coordinates are below 100 km in absolute value, no run is undefined and in each group the mean number of points of voxelgrid_sampling is the mean number of cells that hold points, the one of the OMP variant is not smaller and exceeds it by at most the mean of (blocks of 1024 points - 1), and the one of the TBB variant lies between it and the mean number of points. The mean time of a line multiplied by the number of scans is the time elapsed over all of them. An empty data set gives NaN, no fault. An option without its value reads the null pointer argv[argc].", "quantifier": "all directories, files, command lines, roundings, clocks, divisions into blocks and schedules", "why_tests_cant": "The program has no test; the number of iterations depends on the accumulated rounding of 0.1, and the numbers of points of the parallel variants on the schedule.", "anchors": ["src/benchmark/downsampling_benchmark.cpp:22-137", "include/small_gicp/benchmark/benchmark.hpp:18-94", "include/small_gicp/util/downsampling.hpp:23-78", "include/small_gicp/util/downsampling_omp.hpp:26-95", "include/small_gicp/util/downsampling_tbb.hpp:26-93"]}
{"id": "C92", "title": "Voxel-grid sampling in floating-point arithmetic: cells and centroids are right up to rounding", "statement": "With every operation rounded (relative error u, absolute error eta on underflow, monotone; IEEE doubles included) and the points in the range of the keys, each point lies in the cell it is put into up to an error of ((1+u)^2-1)|x|/leaf + eta(1+(1+u)|x|) of its quotient, and cells are intervals of each coordinate. voxelgrid_sampling returns exactly one point per cell (as computed) that holds points; it is the mean of these points up to ((1+u)^m - 1) times the mean of the absolute values plus eta (m: number of the points), with a w of exactly 1. The OMP and TBB variants return such means of a partition of the input into sets of points of one cell each, at most one set more per further block, for all divisions into blocks and schedules. Means of the same points in different orders differ by at most twice the bound. Exact arithmetic gives the functions of C21-C25; with the 53 digits of a double a point can be put into the neighbouring cell (49 * (1/49) < 1).", "quantifier": "all roundings, point clouds in range, leaf sizes, sorting functions, divisions into blocks and schedules", "why_tests_cant": "The tests compare the samplers with each other on one cloud and a tolerance; they cannot bound the error for all inputs, nor for all orders of summation.", "anchors": ["include/small_gicp/util/downsampling.hpp:23-78", "include/small_gicp/util/downsampling_omp.hpp:26-95", "include/small_gicp/util/downsampling_tbb.hpp:26-93", "include/small_gicp/util/fast_floor.hpp:12-15"]}
{"id": "C93", "title": "Voxel maps in Python: rows of points, normals and covariances over all sequences of insert and set_lru", "statement": "After any sequence of insert and set_lru calls on any of the five voxel-map classes, len() is the number of cells in use: a cell is in use if its last insertion l is such that no later clearing (insertion j with the clear cycle then in force dividing j+1) was more than the horizon then in force after it. voxel_points, voxel_normals and voxel_covs have one row per stored point (per voxel for GaussianVoxelMap), in the same order, and rows with the same number belong to the same inserted point, moved by its transformation; a linear cell keeps at most 10 points at least 0.1 apart of those it got since it came into use, a Gaussian cell their averages. A row of voxel_covs is a matrix column by column, which numpy's reshape(4,4) reads correctly for symmetric matrices. All calls are defined. (The last is violated: the accessors of an empty map read element 0 of an empty vector, and inserting PointCloud(array) into any class but IncrementalVoxelMap reads normals or covariances that were never set.)", "quantifier": "all sequences of calls with complete clouds, all poses, LRU settings, leaf sizes", "why_tests_cant": "The tests insert one cloud once and compare sizes; they cannot cover histories with changing LRU settings, and unset memory often holds zeros.", "anchors": ["src/python/voxelmap.cpp:18-152", "include/small_gicp/ann/incremental_voxelmap.hpp:54-93", "include/small_gicp/ann/incremental_voxelmap.hpp:253-290", "include/small_gicp/ann/flat_container.hpp:43-61", "include/small_gicp/ann/gaussian_voxelmap.hpp:32-53"]}
{"id": "C94", "title": "Gaussian voxels in floating-point arithmetic: error of mean and covariance over all histories", "statement": "Whatever sequence of add and finalize calls a voxel has received, once finalized its mean and covariance are the averages of the transformed points and covariances added to it, up to one rounding error per point and two for every time that a finalized voxel received points again (finalize divides by the number of points, the next add multiplies again); the last component of the mean is exactly 1. Two voxels with the same points, in any order and distributed over calls in any way, differ by no more than the sum of these errors (they can differ: eight points in one or two calls). Symmetry and the zero last row and column of the covariances are kept exactly, variances stay non-negative, and in the directions of space the covariance is bounded from below like those added, up to three times the error of an entry (it need not be semidefinite if the covariances added are merely semidefinite).", "quantifier": "all sequences of calls, all inputs without overflow, all arithmetics with relative error u and underflow error eta per operation", "why_tests_cant": "The rounding errors of repeated re-opening accumulate over long runs of a mapping program; tests compare with a tolerance on short ones.", "anchors": ["include/small_gicp/ann/gaussian_voxelmap.hpp:20", "include/small_gicp/ann/gaussian_voxelmap.hpp:32-53"]}
{"id": "C95", "title": "What the example program with PCL interfaces computes", "statement": "On two files with points the program 02_basic_registration_pcl.cpp computes four registrations, for every complete execution of its parallel parts. example1: the VGICP registration of the rounded block-wise sample of the source to that of the target (covariances of twenty neighbours, averages over cells of side 1), and, after swapSourceAndTarget, of the target to the source with the voxel map of the source; there are results exactly if all points of both clouds and all positions looked up have cells, otherwise a coordinate overflows; on exchanged inputs the same two results come out exchanged. example2: the GICP registrations in both directions of clouds whose points and covariances have been stored as float; the rounded covariances are still symmetric and positive definite, so that every factor is defined. The program ends with status 0 and these four results; if a file yields no point it ends with status 1 and computes nothing.", "quantifier": "all files, all schedules of samplers, estimators, tree builders and reductions, all libraries meeting their contracts, all roundings with error below 1/3000 on [-1,1], all initial iteration limits of pcl::Registration", "why_tests_cant": "The example is not run by the tests; a regularised covariance has smallest eigenvalue 0.001, and that its float rounding stays positive definite concerns every direction.", "anchors": ["src/example/02_basic_registration_pcl.cpp:14-44", "src/example/02_basic_registration_pcl.cpp:47-81", "src/example/02_basic_registration_pcl.cpp:83-107", "include/small_gicp/pcl/pcl_point_traits.hpp:27-31", "include/small_gicp/pcl/pcl_registration_impl.hpp:205-240"]}
{"id": "C96", "title": "What the template example program computes", "statement": "On two files with points the program 03_registration_template.cpp first computes, for every complete execution of its parallel parts, the GICP registration of the block-wise samples with ten neighbours, by separate calls of sampler, tree builder, covariance estimation and Registration: the outcome meets the same specification as align() of 01_basic_registration.cpp. Then example2 runs: if the indices of the target points nearest to the source points can be used in the source, the program ends with status 0 and the two results; if for some source point they cannot, it ends with a fault (a read outside the source cloud if the source sample has fewer than ten and the target sample at least five points and more than the source). If a file yields no point it ends with status 1 and computes nothing.", "quantifier": "all files, all schedules of samplers, tree builders, estimators and reductions, all libraries meeting their contracts", "why_tests_cant": "Examples are not run by the tests, and the fault of example2 depends on the sizes of both samples.", "anchors": ["src/example/03_registration_template.cpp:21-59", "src/example/03_registration_template.cpp:324-337"]}
{"id": "C97", "title": "The optimisers in any machine arithmetic", "statement": "Whatever the arithmetic does (rounding, overflow, NaN, any order of summation), Levenberg-Marquardt takes a step only if the error computed there is at most the error computed before, so that the errors it computes never grow within an iteration and the pose returned is the initial guess or a pose it accepted; if comparisons with NaN are false, it never accepts a pose whose computed error is NaN, and if the error at the initial guess is NaN it returns the guess, not converged, after trying all inner iterations of one outer iteration. Gauss-Newton accepts every step and can return NaN. With exact arithmetic the machine model is the exact model.", "quantifier": "all number types with any operations, all problems, all settings, all initial guesses", "why_tests_cant": "Tests run on a few data sets with one floating-point format and never let the error become NaN.", "anchors": ["include/small_gicp/registration/optimizer.hpp:12-63", "include/small_gicp/registration/optimizer.hpp:66-156"]}
{"id": "C98", "title": "A NaN coordinate in a source point", "statement": "If one point of the source cloud has a NaN among its three coordinates, registration with Levenberg-Marquardt does not fault and returns the initial guess: not converged, iteration count 0, error NaN, after all inner iterations of one outer iteration. This holds for every factor and robust kernel of the library, the null and the distance rejector, the serial, OpenMP and TBB reductions, and every machine arithmetic that hands NaN on. The search matches the NaN point to the last point of the index array of the kd-tree, the distance gate lets the pair pass and the point is counted as an inlier.", "quantifier": "all non-empty target clouds below 2^32 points and source clouds, all factors, kernels, settings, initial guesses and schedules, all arithmetics with the NaN rules of IEEE", "why_tests_cant": "The test clouds have no NaN; a range image or PCL cloud with invalid points has, and one point among any number is enough.", "anchors": ["include/small_gicp/ann/kdtree.hpp:194-233", "include/small_gicp/ann/knn_result.hpp:71-98", "include/small_gicp/registration/rejector.hpp:19-28", "include/small_gicp/registration/optimizer.hpp:80-156"]}
{"id": "C99", "title": "Point-to-point ICP in machine arithmetic does not go uphill", "statement": "Levenberg-Marquardt with point-to-point factors, a distance gate, the kd-tree and any reduction, computed with rounding: the truncated cost (sum over the source points of half the smaller of the gate and the squared distance to the closest target point, taken exactly at the poses as stored) grows in no iteration by more than the factor 1+10e and the summand 8 N s, where s is 24 (c Z)^2/e plus underflow, c a small multiple of the unit roundoff, Z the largest coordinate sum met, N the number of source points and e any conceded relative error of at least N+1 roundings. So the whole run of n iterations ends at most at (1+10e)^n (initial cost + 8 n N s). Nearest neighbours may be chosen wrongly by rounding and the gate may decide differently; this is included.", "quantifier": "all clouds, poses within reach, settings, schedules and all arithmetics meeting the contract, among them every number of binary digits", "why_tests_cant": "Tests compare a few results with a tolerance of 0.2 m and 2.5 degrees; the bound covers all clouds, tie decisions and orders of summation.", "anchors": ["include/small_gicp/registration/optimizer.hpp:80-156", "include/small_gicp/factors/icp_factor.hpp:26-73", "include/small_gicp/registration/rejector.hpp:19-28", "include/small_gicp/ann/kdtree.hpp:194-233", "include/small_gicp/registration/reduction_omp.hpp:17-65"]}
{"id": "C100", "title": "No arithmetic makes registration fault", "statement": "Whatever the number type and its operations and comparisons do (NaN, infinities, inconsistent comparisons, wrong results), building the kd-tree of a non-empty target cloud with fewer than 2^32 points and registering with any factor, robust kernel, rejector, general factor, optimiser and reduction of the library reads nothing out of range or uninitialised, recurses within the depth given by the number of points, and terminates within the iteration budget; every factor then belongs to its own source point and refers to an existing target point or to none, and num_inliers is at most the number of source points. Both projections find an axis in any arithmetic. nth_element need only permute.", "quantifier": "all number types with any operations, all clouds holding what the factor reads, all factors, kernels, rejectors, optimisers, settings, guesses and schedules", "why_tests_cant": "Tests run with sane data; whether NaN, overflow or a degenerate cloud leads out of range depends on all comparisons in search and optimiser.", "anchors": ["include/small_gicp/ann/kdtree.hpp:62-233", "include/small_gicp/ann/knn_result.hpp:36-118", "include/small_gicp/ann/projection.hpp:14-87", "include/small_gicp/registration/optimizer.hpp:12-156", "include/small_gicp/factors/gicp_factor.hpp:28-96"]}
{"id": "C101", "title": "k-nearest-neighbour search in any arithmetic", "statement": "Whatever the number type and its operations and comparisons do, building a kd-tree on a non-empty cloud of fewer than 2^32 points and searching it for k > 0 neighbours (k known at compile time or at run time) does not fault. It writes the first k entries of the caller's arrays and no other: first the neighbours, then the invalid index and the largest distance. The neighbours are different points of the cloud, each with the distance computed for it; if no two numbers compare as less than each other, none is followed by one that compares as closer. If no distance and no squared distance to a splitting plane is out of range, min(k, size) neighbours are found.", "quantifier": "all number types with any operations, all clouds, queries, k, epsilon, array contents, splitting directions and permutations made by nth_element", "why_tests_cant": "Tests use a few hundred queries on finite coordinates.", "anchors": ["include/small_gicp/ann/kdtree.hpp:96-233", "include/small_gicp/ann/knn_result.hpp:36-110"]}
{"id": "C102", "title": "Preprocessing and registration of raw points in any arithmetic", "statement": "Whatever the number type and its operations and comparisons do, the only fault of preprocess_points on fewer than 2^32 set points with a positive number of neighbours, and of align on two vectors of points with a registration type on clouds, is the conversion of a scaled coordinate to int in the voxel grid (including the addition of the coordinate offset); if one conversion is undefined, every execution reaches it. Otherwise every execution, serial or parallel, ends: preprocessing with a cloud no larger than the input, empty only if the input is, with all points, normals and covariances set, and with the kd-tree of this cloud; registration (non-empty target) within the iteration budget. Parallel estimation of normals and covariances gives the very same cloud as the serial one.", "quantifier": "all number types with any operations and conversions, all raw points, resolutions, thread counts, schedules, divisions of loops, factors, robust kernels, optimisers and settings", "why_tests_cant": "Tests run a few clouds with finite coordinates in one arithmetic and see one schedule each.", "anchors": ["include/small_gicp/util/downsampling.hpp:23-78", "include/small_gicp/util/downsampling_omp.hpp:26-95", "include/small_gicp/util/normal_estimation.hpp:66-110", "include/small_gicp/util/normal_estimation_omp.hpp:10-26", "src/small_gicp/registration/registration_helper.cpp:22-69"]}
{"id": "C103", "title": "Voxel maps and VGICP in any arithmetic", "statement": "Whatever the number type and its operations and comparisons do: (1) insertion into an IncrementalVoxelMap of Gaussian or flat voxels faults exactly if a transformed point has a scaled coordinate that cannot be converted to int; otherwise table and flat array stay consistent, a cell that receives points has a voxel made of its earlier points and of those in order (number, mean and mean covariance; or the points that fit, each taken exactly if there is room and none compares as too close, with their attributes), other cells keep theirs, and stale voxels are removed every lru_clear_cycle calls. (2) A search faults exactly if the cell of the query or one around it has no number in the range of int; otherwise it finds stored points of those cells with their computed distances, k of them or all that compare as below the largest number, and leaves the caller's arrays beyond the first k alone. (3) Registration against the map, and VGICP on raw vectors, either ends without a fault within the iteration budget, or reaches a pose under which a source point has no cell, where the behaviour is undefined; a bad initial guess always is undefined.", "quantifier": "all number types with any operations and conversions, all maps, clouds, poses, settings, queries, thread counts, schedules, factors, robust kernels, optimisers", "why_tests_cant": "Tests see maps of a few scans with finite coordinates in one arithmetic; they cannot show that no other fault exists.", "anchors": ["include/small_gicp/ann/incremental_voxelmap.hpp:45-251", "include/small_gicp/ann/gaussian_voxelmap.hpp:18-90", "include/small_gicp/ann/flat_container.hpp:20-150", "include/small_gicp/util/fast_floor.hpp:10-16", "src/small_gicp/registration/registration_helper.cpp:50-65", "src/small_gicp/registration/registration_helper.cpp:130-142"]}
{"id": "C104", "title": "The odometry engines in any arithmetic", "statement": "Whatever the number type and its operations and comparisons do, for any sequence of non-empty frames of fewer than 2^32 points each: (1) preprocessing a frame faults exactly if a scaled coordinate cannot be converted to int by the sampler; otherwise its points and covariances are those one thread computes, and its tree answers every search as the tree of one thread does, whatever threads build it. (2) small_gicp, small_gicp_omp and small_gicp_tbb handle all frames exactly if every frame passes the sampler: the first pose is the identity, each later one the pose before it times the result of registering the frame to the one before it from the identity; every input pointer is reset. (3) The engines with a voxel map of the previous frame, and those with a map of all frames (Gaussian or flat voxels), either handle all frames the same way, the map being the one that the code's insertions of the earlier frames under their poses give, or stop with undefined behaviour at a frame of which a coordinate cannot be converted to int: by the sampler, by the insertion, or by a search under a pose the optimiser reaches.", "quantifier": "all number types with any operations and conversions, all sequences of frames, settings, poses, numbers of threads and schedules", "why_tests_cant": "A run sees one sequence in IEEE arithmetic on one schedule; it cannot show that the only fault is the conversion to int, or that the threads never change the result.", "anchors": ["src/benchmark/odometry_benchmark_small_gicp.cpp:16-43", "src/benchmark/odometry_benchmark_small_gicp_omp.cpp:16-48", "src/benchmark/odometry_benchmark_small_vgicp_omp.cpp:17-49", "src/benchmark/odometry_benchmark_small_gicp_model_omp.cpp:16-50", "src/benchmark/odometry_benchmark_small_vgicp_model_tbb.cpp:22-55", "include/small_gicp/benchmark/benchmark_odom.hpp:49-80"]}
{"id": "C105", "title": "Normals and covariances under rounding", "statement": "With floating-point arithmetic of relative precision u: (1) estimate_local_features never faults on a cloud of set points with an in-range search, and writes the zero normal and the invalid covariance exactly at points with fewer than five neighbours. (2) Elsewhere the matrix handed to the eigenvalue solver differs from the exact covariance matrix of the neighbours, in each entry, by at most 2 B^2 ((1+u)^(2n+4) - 1) plus underflow, for n neighbours with coordinates of at most B. (3) If the solver minimises the variance up to rho times the largest entry, and the two smallest exact variances differ by delta, the square of the sine of the angle between computed and exact normal is at most (6 E + rho (4 B^2 + E)) / delta with E the bound of (2); the plane-like covariances of GICP are off by a corresponding amount. (4) The bound in terms of the distance B from the origin is no artefact: in every binary precision of at least 16 digits there are neighbours that are machine numbers, at a distance of about the square root of 1/u times their extent, for which the computed normal is orthogonal to the exact one.", "quantifier": "all machine arithmetics meeting the stated rounding contract, all clouds, searches, settings, schedules; (4) all precisions and all orders of the neighbours", "why_tests_cant": "Tests use clouds near the origin, where the one-pass formula sum(p p^T) - mean sum(p)^T is harmless; how the error grows with the distance from the origin, and that it never exceeds the bound, is a statement about all clouds.", "anchors": ["include/small_gicp/util/normal_estimation.hpp:14-46", "include/small_gicp/util/normal_estimation.hpp:66-110", "include/small_gicp/util/normal_estimation_omp.hpp:12-19", "include/small_gicp/util/normal_estimation_tbb.hpp:13-22"]}
{"id": "C106", "title": "The spatial hash of the voxel maps", "statement": "XORVector3iHash (products with three primes modulo 2^64, combined by exclusive or): (1) equal is equality of the three coordinates, and equal voxels have equal hashes, as std::unordered_map requires. (2) Two voxels that differ in one coordinate have different hashes; their last b bits differ unless the coordinates differ by a multiple of 2^b, so that a run of 2^b voxels along an axis would fill a table of 2^b buckets without a collision. (3) But negating two coordinates leaves it unchanged whenever the two are divisible by the same powers of two, for instance whenever both are odd, so a map centred at the origin collides systematically. (4) The constants are prime.", "quantifier": "all voxel coordinates, all numbers of bits", "why_tests_cant": "There are 2^96 voxels; collisions do not change any result, so that no test of results sees them, and distinctness along all lines cannot be enumerated.", "anchors": ["include/small_gicp/util/vector3i_hash.hpp:13-24", "include/small_gicp/ann/incremental_voxelmap.hpp:201"]}
{"id": "C107", "title": "Poses stay rigid up to rounding", "statement": "Nothing in the library orthonormalises a pose. In rounded arithmetic: (1) the rotation part computed by se3_exp, on either branch of so3_exp and for every finite twist, lies within 213u+36g+12z+2*10^12h+4*10^-19 of a rotation (u, g, z, h: errors of an operation, of a product of three, of the functions of the library); the Taylor branch contributes only the 4*10^-19. (2) Each product of poses adds a fixed amount: after n iterations of either optimizer the rotation part of the result, and of every pose on the way, lies within the stated drift of a rotation, and so do all poses of the odometry engines, over the iterations of a frame and over the frames. (3) With double precision: 4*10^-14 for an increment, 3*10^-12 for a registration of at most 20 iterations, 10^-7 for 10000 frames. (4) A matrix that near to a rotation changes lengths by no more than that factor. (5) The linear growth is attained: some increments within the same bounds give it.", "quantifier": "all machine arithmetics within the stated error bounds, all twists, all problems, factors, methods, iteration counts and sequences of frames", "why_tests_cant": "Drift shows up over long runs and depends on all inputs; tests look at a few registrations of a few iterations with a tolerance of centimetres.", "anchors": ["include/small_gicp/util/lie.hpp:54-97", "include/small_gicp/registration/optimizer.hpp:53", "include/small_gicp/registration/optimizer.hpp:112", "src/benchmark/odometry_benchmark_small_gicp.cpp:37", "src/benchmark/odometry_benchmark_small_vgicp_omp.cpp:41", "src/benchmark/odometry_benchmark_small_gicp_model_omp.cpp:37"]}
{"id": "C108", "title": "se3_exp is the exponential map up to rounding", "statement": "In rounded arithmetic and for every twist with an angle of at most 4: (1) every entry of the rotation that se3_exp computes differs from that of the matrix exponential of the twist by at most 440e+10^-17 (e: the relative error of an operation), whichever branch of so3_exp is taken. (2) Every component of the computed translation differs from that of the exponential by at most (sqrt(2e)+470e+2*10^-9) times the sum of the absolute values of the translation part of the twist, and above an angle of 10^-9 by at most (e/angle+470e) times it. (3) With doubles: 6*10^-14 for the rotation, 1.8*10^-8 for the translation, 7*10^-13 above an angle of 2*10^-4. (4) The loss of half the digits of the translation at small angles is real: for every e there is an arithmetic within the same bounds and a twist for which the error is at least 0.49*sqrt(2e), because 1-cos(theta) is computed by subtraction.", "quantifier": "all machine arithmetics within the stated error bounds, all twists with an angle of at most 4 whose result is finite", "why_tests_cant": "The error is largest in a narrow range of small angles between the two branches and near the Taylor threshold; tests compare with a tolerance of 1e-3 for random twists.", "anchors": ["include/small_gicp/util/lie.hpp:13-23", "include/small_gicp/util/lie.hpp:54-97"]}
{"id": "C109", "title": "A registration returns the product of the exponentials of its steps, up to rounding", "statement": "(1) In any arithmetic, the pose returned by either optimizer is the initial pose with the accepted steps applied on the right one after the other, in the order of the iterations, at most max_iterations of them; trial steps that Levenberg-Marquardt rejects leave no trace. (2) In rounded arithmetic, with Y the exact product of the initial motion and the matrix exponentials of these steps: the rotation part of the result differs from that of Y in the Frobenius norm by at most the drift of n products (that of C107, with 1320e+3*10^-17 per step), and the translation by at most (1+u)^n((4K+A+3g+4u)S+n(8h+u(|t0|+S))), where K is the loss of se3_exp of C108, A the bound of the rotation, S the sum of the absolute values of the translations of the steps. (3) With doubles and at most 20 iterations: 10^-11 for the rotation and 7.5*10^-8 of the distance S plus 3*10^-15 of |t0| for the translation, if the initial rotation is exact.", "quantifier": "all problems, factors and methods, all initial poses, all machine arithmetics within the stated error bounds, all steps with an angle of at most 4, results without NaN and infinity", "why_tests_cant": "Tests compare the final pose with the ground truth with a tolerance of centimetres and half a degree; whether the pose is the composition of the steps, and how rounding accumulates, they do not see.", "anchors": ["include/small_gicp/registration/optimizer.hpp:40-58", "include/small_gicp/registration/optimizer.hpp:100-144", "include/small_gicp/util/lie.hpp:77-97"]}
{"id": "C110", "title": "Correspondences of a registration in machine arithmetic are right up to rounding", "statement": "Registration of point clouds with a kd-tree and the distance rejector, computed with rounding, with ICP, point-to-plane ICP or GICP factors (also robust ones), either optimizer and any reduction: in every iteration, at the pose this iteration starts from, (1) the partner of a source point satisfies (1-e)d <= gate + s and (1-e)d <= (1+e)d' + 2s for the squared distance d' of every other target point, (2) a source point without partner has gate < (1+e)d' + s for every target point; here d is the exact squared distance to the exactly transformed source point, e any conceded relative error of at least a few roundings, and s is 48 (c Z)^2/e plus underflow, with c a small multiple of the unit roundoff and Z the largest coordinate sum met. Factor i belongs to source point i. The returned factors are those of the last iteration, and num_inliers lies between the number of source points that surely have a target point within the gate and the number of those that possibly have one.", "quantifier": "all clouds of fewer than 2^32 target points within reach, all gates, factor types, configurations, optimizers, reductions and schedules, all machine arithmetics within the stated error bounds", "why_tests_cant": "Tests use separated points, where rounding changes no correspondence; near ties and points near the gate are decided by rounding, and only a bound over all inputs says by how much this can be wrong.", "anchors": ["include/small_gicp/factors/icp_factor.hpp:29-40", "include/small_gicp/factors/plane_icp_factor.hpp:29-40", "include/small_gicp/factors/gicp_factor.hpp:44-55", "include/small_gicp/registration/rejector.hpp:19-28", "include/small_gicp/registration/optimizer.hpp:60", "include/small_gicp/registration/optimizer.hpp:146", "include/small_gicp/ann/kdtree.hpp:176-241"]}
{"id": "C111", "title": "A step of Levenberg-Marquardt does not raise the exact cost of its pairs, up to rounding, for ICP, point-to-plane ICP and GICP", "statement": "Levenberg-Marquardt on point clouds computed with rounding, with a kd-tree, the distance rejector, no general factor term on the error, and ICP, point-to-plane ICP or GICP factors, any reduction: take the pairs an iteration has found and their weights (identity, squared components of the target normal, stored Mahalanobis matrix). The exact sum of half the weighted squared residuals of these pairs at the pose after the iteration is at most (1+10e) times the one at the pose before it plus 8 N s, for N source points; e is any conceded relative error of at least a few roundings and at least the error of a sum of N terms, s is 6 L (c Z)^2/e plus underflow, with L a bound of the entries of the weights, c a small multiple of the unit roundoff and Z the largest coordinate sum met. Robust kernels: C112.", "quantifier": "all clouds of fewer than 2^32 target points within reach, all gates, settings, reductions and schedules, the three factors, all machine arithmetics within the stated error bounds", "why_tests_cant": "The accepted step is chosen by comparing two rounded sums; a test sees both sums with the same rounding and so cannot say whether the exact cost went down, nor by how much a wrong decision can raise it for inputs not tried.", "anchors": ["include/small_gicp/registration/optimizer.hpp:71-149", "include/small_gicp/factors/icp_factor.hpp:27-64", "include/small_gicp/factors/plane_icp_factor.hpp:29-72", "include/small_gicp/factors/gicp_factor.hpp:44-94", "include/small_gicp/registration/reduction.hpp:16-48"]}
{"id": "C112", "title": "A step of Levenberg-Marquardt does not raise the exact robust cost of its pairs, up to rounding", "statement": "As C111, for Huber's or Cauchy's kernel around an ICP, point-to-plane ICP or GICP factor: with rho(x) = min(x, c sqrt x) for Huber and c x/(c + x) for Cauchy (weight times error, as the code evaluates it; C73 compares it with the loss), the exact sum of rho of half the weighted squared residual over the pairs of an iteration is at the pose after the iteration at most (1+30e) times the one before it plus 16 N s, e and s as in C111. The computed weight may come from a rounded root on the wrong side of the width.", "quantifier": "all clouds of fewer than 2^32 target points within reach, all gates, settings, kernel widths, reductions and schedules, the three factors, both kernels, all machine arithmetics within the stated error bounds", "why_tests_cant": "The weight is recomputed from a rounded error in linearize and again in error, and switches at the width; whether the comparison of the two rounded sums still bounds the exact cost depends on inputs near the width and near ties, which no finite set of inputs covers.", "anchors": ["include/small_gicp/factors/robust_kernel.hpp:24-27", "include/small_gicp/factors/robust_kernel.hpp:47", "include/small_gicp/factors/robust_kernel.hpp:70-98", "include/small_gicp/registration/optimizer.hpp:71-149"]}
