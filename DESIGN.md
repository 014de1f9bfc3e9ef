# Formal model of small_gicp: design

The model lives in `lean/Verif`, in four layers:

* `Verif/Model/*`  definitions only; every definition cites the C++ lines in `/repo` it models.
* `Verif/Spec/*`   small specifications; they share types with the model but no functions of it.
* `Verif/Proofs/*` helper lemmas.
* `Verif/Props/*`  the property theorems (`Cnn_...`) with examples next to them showing that the hypotheses can be met.

Naming: `Cnn_..._partial` proves a part of the property; `Cnn_..._violated` (and some names that say what happens, e.g.
`C16_duplicate_neighbors`) prove that the property is false of the code, with a concrete input or for a whole class of inputs.

## Conventions

* Undefined behaviour, `abort`, exceptions and unbounded recursion are distinct outcomes (`Fault`), never totalised away: a model
  function that can hit one returns `Res α = Except Fault α`.
* `double` is modelled by an arbitrary linearly ordered field (exact arithmetic), or by `ℝ` where `sqrt`, `sin`, `cos` occur.
  Comparison-only code (`KnnResult`) is modelled for any type with `<` and `≤`, so NaN can be represented. C08 proves the search
  theorem again for rounded arithmetic.
* `size_t` is `Nat`, with explicit `2^64` and `2^32` moduli and `int` range checks where a value can leave the range.
* Parallel code: each task is a sequence of atomic steps on shared state, and theorems quantify over all interleavings
  (`Verif/Model/Parallel.lean`). The runtime is trusted to run each task once and to respect joins.
* External functions are parameters with a contract, stated as a structure or hypothesis. An example shows that the contract can be met.

## Properties

| id | status | what is modelled | how it is proved |
|----|----|------------------|------------------|
| C01 | proved | `KnnResult` constructor and push on arrays (Model/KnnResult) | refinement: buffer = first k of the stable sort of the pushed sequence |
| C02 | proved | kd-tree build (index array, node array, node counter) and search (Model/KdTree) | build gives a well-formed tree; search invariant: buffer = result of pushing all points of the visited subtree, pruned pushes change nothing |
| C03 | proved | same with arbitrary directions | Cauchy-Schwarz makes pruning sound |
| C04 | proved | 1-NN specialisation and the generic fallback | corollary of C01 and C02 |
| C05 | proved | early exit flag | search invariant extended with the flag |
| C06 | partial | node allocation, leaf size | induction on the range length; counterexamples for leaf sizes 0, 1, 2 |
| C07 | proved | interleaving semantics of the builder tasks (Model/KdTreeParallel) | invariant over all steps; the tree shape does not depend on the schedule |
| C08 | proved | search over rounded arithmetic | monotone rounding makes the computed cut distance at most the computed distance |
| C09 | partial | empty tree, k <= 0, NaN | fault outcomes, counterexamples |
| C10 | proved | `find_axis` | index arithmetic, case analysis |
| C11 | proved | `IncrementalVoxelMap` over insert histories (Model/VoxelMap) | invariant by induction over histories |
| C12 | proved | LRU eviction | refinement to an abstract map, closed form |
| C13 | proved | packing of ids | bit arithmetic, search invariant |
| C14 | proved | search over offsets | refinement to the k best of all candidates |
| C15 | proved | 27 offsets | floor arithmetic |
| C16 | partial | search over offsets | distinctness from distinct offsets; witness for the 27 pattern |
| C17 | proved | `FlatContainer::add` | history invariant |
| C18 | proved | `GaussianVoxel` | history invariant on sums |
| C19 | proved | `fast_floor` (Model/FastFloor) | case analysis on truncation |
| C20 | partial | `set_search_offsets` | state machine over call histories |
| C21 | proved | key packing (Model/Downsampling) | natural-number arithmetic |
| C22 | partial | `voxelgrid_sampling` | fold over sorted runs = grouping |
| C23 | proved | `voxelgrid_sampling` | the sorted key list determines the output |
| C24 | proved | block versions with an atomic counter | per-block lemma and interleaving invariant |
| C25 | partial | block versions with an atomic counter | interleaving invariant |
| C26 | proved | `quick_sort_omp` tasks (Model/SortOmp) | invariant over all schedules, measure for termination |
| C27 | proved | `merge_sort_omp` tasks | invariant over all schedules |
| C28 | proved | `radix_sort_tbb` (Model/SortTbb) | one step is a stable counting sort, induction on digits |
| C29 | proved | `random_sampling` with arbitrary draws (Model/PointCloud) | induction on the selection loop |
| C30 | proved | the three reductions (Model/Reduction) | commutative-monoid folds, interleaving and split/join traces |
| C31 | proved | factors, rejector, search (Model/Factors) | decision logic, induction over the reduction |
| C32 | proved | linearize and error of all factors | algebra |
| C33 | proved | factors over Mathlib matrices | quadratic forms |
| C34 | proved | factors and `se3_exp` (Model/Lie) | derivatives over the reals |
| C35 | partial | point-to-plane factor | algebra, witness |
| C36 | proved | robust kernels | inequalities |
| C37 | proved | `RestrictDoFFactor` | energy argument |
| C38 | partial | LM optimiser (Model/Optimizer) | loop invariant over a ghost log |
| C39 | proved | both optimisers | loop invariant |
| C40 | partial | both optimisers | loop invariant, witness |
| C41 | proved | `so3_exp`, `se3_exp` and pose products | algebra and trigonometry, induction over steps |
| C42 | proved | `se3_exp` | matrix exponential and derivatives |
| C43 | proved | whole registration | composition of factor and optimiser lemmas; on kd-trees by refinement of the failing-access model to it |
| C44 | proved | whole registration | simulation relation |
| C45 | partial | helper and Python `align` functions (Model/Helper) | decision logic; the effect on the run |
| C46 | proved | whole registration | zero system gives zero step |
| C47 | proved | normal estimation (Model/Features) | algebra under the eigen-solver contract |
| C48 | proved | covariance estimation | algebra under the eigen-solver contract |
| C49 | proved | parallel estimation | interleaving invariant |
| C50 | proved | `PointCloud` | refinement to a list of records |
| C51 | partial | `RegistrationPCL` state machine (Model/PclRegistration) | invariant over call histories |
| C52 | partial | `RegistrationPCL` setters | invariant over call histories |
| C53 | partial | projective search (Model/Projective) | invariants of the two loops |
| C54 | proved | border policies | integer arithmetic |
| C55 | partial | Python batch search (Model/PythonSearch) | footprint of an iteration, all schedules |
| C56 | partial | point files (Model/PointFiles) | byte-level induction |
| C57 | proved | factors, reductions and `align` with failing accesses (`Verif.RegMem`) on `Cloud`s and kd-trees | simulation by the total model (`align_approx`): a failing step is excluded because the search returns valid indices; nearest neighbours from the exactness of the kd-tree search for any query (`knn_any`); log invariants of the optimisers |
| C58 | proved | the same with a `GaussianVoxelMap` as cloud and tree | the run on the total scene is the run of the code as long as every search is defined (`align_ok_iff`: a finished reduction has called every factor, under any execution); the search is undefined exactly outside the `int` range |
| C59 | proved | `preprocess_points` (`Verif.Pipeline.preprocess`): sampling, kd-tree, features, by number of threads | composition of the results on sampling, tree construction, exact kNN and feature estimation; `C59_executes` shows that executions exist for every number of threads |
| C60 | proved | both optimisers on any problem; registration problems of the three plain factors | loop invariant recording the system solved in each iteration (`lmLoop_steps`, `gnLoop_steps`); positive definiteness of the damped matrix; the derivative is `C34_reduction`. For robust kernels see C73 |
| C61 | proved | `align` on vectors of points (`Verif.Pipeline.align`): two preprocessing runs, then kd-tree registration or voxel map registration | composition of C59, C57, C58, C43, C18 and C12; `C61_executes` shows that complete executions exist; examples align a parabola with itself and show both faults |
| C62 | partial | `estimate` of the flow graph as a transition system over events (Model/Odometry), and of the sequential odometry | invariant over all orders of events (which frame is in which stage, what has been computed); every event decreases a counter; the chain of poses is unique, hence equality with the sequential loop |
| C63 | proved | the odometry engines with sampling, kd-tree, covariances and GICP registration of each frame (Model/OdometryPipeline) | C62 reduces every engine to a chain of registrations; each frame is prepared by the lemmas of C59 (`prepare_ok`), each pair registered by C57, C43 and C46 (`register_ok`); `frameRuns_exists` shows that parallel executions exist |
| C64 | proved | `Model/RegistrationMap.lean`: `mapWorld` – an `IncrementalVoxelMap` with any contents as target and as search structure; attribute accessors with out-of-range and unset reads as faults | `map_registration` transfers the pure run to the memory run under `Readable` (ids returned by the search can be read); flat containers meet it after any history (`flat_parallel`, `Stores`); `C64_attributes` via the received-points refinement of C12/C17 |
| C65 | proved | `Model/OdometryModel.lean`: `modelStep`, `modelOnline` for the four scan-to-model engines; sampling, own kd-tree, covariances, registration to the map (`max_correspondence_distance` unused, default gate 1), insertion | `alignToMap_ok` from C64 with the poses of C61; `model_frame` is one step of the invariant `ModelState`/`ModelTrajectory`, induction over the frames; `C65_bounded_size` bounds the number of voxels through the closed form of eviction (C12), which discharges the id range needed by the search |
| C66 | proved | `Model/OdometryModel.lean`: `prepareMapFrame`, `registerMapFrames`, `vgicpOnline` | C62 reduces the engine to a chain; `prepareMap_ok` (C63 preprocessing and C60 voxel map), `registerMap_ok` (C64) |
| C67 | proved | `Model/Pipeline.lean` `align` with everything below it (C61); Spec `Spec/Descent.lean`: `LMRun` | induction over the optimiser loop (`loop_run`): the accumulated system is the gradient and Gauss-Newton form of the pair cost (`system_linearised`, from C33 and the derivatives of C30-C32), the inner loop is the trial rule (`inner_trials`); `loop_agrees` for the converse with voxel maps; the spec is deterministic (`C67_determined`, uniqueness of derivative, of symmetric form and of the damped solution) |
| C68 | proved | the engines of C62, C63, C65, C66; Spec in `Props/OdometryDescent.lean` (`Descends`, `DescentChain`) and `Props/OdometryMemory.lean` (`memory`, `thin`, `AverageOf`, `ModelDescent`) | `clouds_align` and `map_descent` (C67) for each frame; `received_memory` turns the history of a voxel map into per-cell memories of scans; `thin_relOK` and `gauss_relOK` give the contents of voxels; `model_walk` is the induction over the frames; covariances stay regular since no pose shrinks lengths (C41) |
| C69 | proved | `Model/OdometryPcl.lean` (`pclEstimate`, `pclOnline`, `pclAlign`, `pclEnv`) over the state machine of `Model/PclRegistration.lean`; float conversions are a function `rnd` on the reals with `rnd 1 = 1`; a new cloud has an address different from all others | Invariant between frames (`PclHolds`: target, its tree and its covariances belong to the current frame, the source is the frame before), one step by cases on whether PCL accepts the cloud, induction over the frames; each alignment is a descent by `clouds_align` (C67). `C69_null`: the two cases that dereference a null pointer |
| C70 | partial | `Model/Python.lean` (`pointCloud`, `points`, `sampleArray`, `estimateFeatures`, `preprocessArray`, `preprocessCloud`, `alignArrays`); an array is a shape with entries | The loop that fills the cloud by induction (`fill_eq`); the overloads are rewritten into each other when the weights are 1; preprocessing by `block_sample`, `frameTree_ok` and the feature theorems of C60. `C70_no_rows_violated`, `C70_fourth_column_violated`: the two disagreements; `C70_foreign_tree`: the out-of-bounds read |
| C71 | proved | `Model/Python.lean` (`ScanToScan`, `estimate`, `scanToScan`, `alignClouds`) over the preprocessing of C70 and the registration of C61 | Induction over the scans with the preprocessed last scan as invariant (`PyPrepared`); each registration is a descent by `clouds_descent` (C67). `C71_at_rest` uses that two executions sample the same points up to order (`C70_same_points`) and C43 |
| C72 | proved | `Model/PythonVoxel.lean` (`ScanToModelPy`, `estimate`, `scanToModel`, `alignVoxels`, `insertCloud`, `voxelPointsArray`, `numpyInv`) over the preprocessing of C70 | Induction over the scans: the map is a history of insertions whose scans are `placed` (`MapHolds`), it is empty iff every cell has forgotten (`holds_empty`, via the history theorem of C12/C18), each registration is a descent by C68; `forgotten_iff` reduces forgetting to which scans are empty. The result, faults included, is characterised by an inductive specification (`MapOdometry`) |
| C73 | partial | RobustFactor around the three point factors, on both optimisers | derivative of the losses (one-sided at the kink of Huber) composed with `C34`; concavity in the squared error; step equation of C60; the stuck scene is solved exactly for every damping value. Nested robust wrappers: only the theorems for all shipped factors (C31-C33, C38) apply |
| C74 | proved | The descent of C67 on point pairs; the misfit is defined in Spec/Misfit.lean from points and poses alone (`nearestGap`, `misfit`). | Pairs found at a pose give the misfit there and bound it elsewhere (`misfit_pairs`); an accepted step lowers the cost of its pairs, and pairing anew lowers it again: induction over the descent (`C74_descent`, `C74_reported`, `C74_budget`). `C74_align` carries it to align() by `C67_clouds`. `C74_plane_rises` is a scene where one iteration of point-to-plane ICP raises the error over nearest pairs from 1/2 to above 3/2. |
| C75 | proved | The search class of src/example/03_registration_template.cpp with its priority queue; which element the queue has on top is a parameter with a contract (`TopSpec`). | The queue holds after each point the k nearest of the points seen (`fold_queue`, induction); emptying it from the back writes them in ascending order (`drain_spec`, induction). `C75_same_as_kdtree` follows with C02, since distances of k nearest points are unique. |
| C76 | partial | example2 as a whole with the traits, the rejector and the general factor of the example; schedules of the parallel loops are parameters. | The traits act on a cloud like those of PointCloud (`C76_traits`), so the theorems on sampling (C24) and normals (C47, C49) apply; the estimation is defined exactly if all neighbour indices fit (`normals2_iff`); the registration is C77's with a brute-force search (C75) and mask roll, pitch. Violated: `C76_violated` (every execution on a small source reads outside it), `C76_rejector_violated`. |
| C77 | proved | `RestrictDoFFactor` as the general factor of a registration of clouds on a k-d tree. | Induction over the optimizer's loop (`loop_stiff`) as for C60; `C77_held` by C37 applied to each accepted step, since every linearised system is one of a sum of squares (`linearised_good`); `C77_limit` by completing the square. |
| C78 | proved | `src/python/factors.cpp` and the loop of the Python test over one reused factor object | invariant of the state of the factor object (zero border of the GICP weight), so that each point's system is the one of a fresh factor; `Linearised` of C67 for one point and for all; the last entry of the optimiser's log |
| C79 | partial | `Summarizer` and `summarize`; numbers are those of an ordered field, NaN is `none`, `nth_element` is a parameter | induction on the measurements for the sums, algebra for the variance; the median by what an implementation must (`SelectsNth`) and may (`StaysInRange`) do. Violated: `C79_median_violated`, `C79_wrong_median_violated`. |
| C80 | proved | constructor and `convert` of `KittiDataset` on a disk of byte strings, `std::sort` by contract | sorted permutations are unique; lexicographic order of padded decimals by induction on the width; C56 for the contents, C50 for the clouds |
| C81 | partial | the argument loop; words are lists of characters, number conversion is a parameter | induction on the options, then on the list reversed for the value given last. Violated: `C81_missing_value_violated`, `C81_value_violated`, `C81_usage_violated`. |
| C82 | partial | `main`, the registry and the nine engines that process frame by frame | composition of C80, C81 and C63; `find_if` in a list of distinct names is invariant under permutation. Violated: `C82_silent_violated`. |
| C83 | partial | memory as a list of voxel cells, maps holding addresses; constructor, `insert`, searches, implicit copy constructor (`Model/VoxelHeap.lean`) | refinement to the value model of C19-C24 by a representation relation (pointers distinct, each leading to the voxel of the value) with a frame condition; invariant over all histories: maps of different constructions have disjoint pointers. Copies: only the variable last inserted into keeps its meaning; two concrete histories show the interference |
| C84 | proved | no new definitions: the descent of C67 (`Spec/Descent.lean`), the factors and `align` | the speed of a pair along a twist is R(p × w − v), which vanishes for all matched points exactly if they lie on one line; definite weights (identity, inverse of a sum of covariances with a positive part) carry this to the Hessian; the last linearisation of a run by induction over `LMRun`; two rotations that agree on two independent directions agree on their vector product |
| C85 | proved | the reductions of C30 (`Model/Reduction.lean`), which ask of the systems only a zero and an addition; machine addition by a contract (`Spec.MachineSum`) | relational parametricity: reductions of related values are related; the relation says how far a partial sum is from the exact sum of its terms, given their number and absolute sum, and these live in a commutative monoid where C30 applies. Shown for numbers with p+1 binary digits |
| C86 | proved | `Pipeline.align` as in C61/C67 and the descents of C67 | serial: the sampled lists are literally equal (C23), so everything after is; descents: sums over matched pairs are invariant under permutations and under forgetting features that the cost does not use; alone in the cell: the down-sampling only permutes, so C67 gives a descent on the raw points, unique when tie-free (C67) |
| C87 | proved | `gaussNewton` of `Model/Optimizer.lean` under `RegMem.align`; the iteration is specified by derivatives in `Spec/GaussNewton.lean` (`GNRun`) | as C67: each linearisation is `Linearised` (C67's `system_linearised`), the step solves the damped system by the contract of the solver; induction over the loop. The overshoot: two points, polarised Gauss-Newton matrix, closed form of the exponential (C42), for every damping up to 1/10, and reached by a run of the model |
| C88 | partial | `Model/KdtreeBenchmark.lean` (`scan`, `searchLoop`, `downsampleAll`, `measureAll`, `main`) over the models of the data set (C80), the voxel grid (C22) and the statistics (C79); what a search should find is `Spec/KdtreeBenchmark.lean`. The fractions after the first are exact | induction over the three phases of the search with their invariants; sizes are numbers of occupied cells by C22; the divergence by induction over the tenths. Violated: `C88_resolutions_violated` (exactly where the partial theorem does not apply, for two points or more), `C88_duplicate_violated`, `C88_main_violated`, `C88_empty_violated` |
| C89 | proved | the models of C67 and C87. Distance of poses: `Spec/Distance.lean`; overlap, observability and what recovery means: `Spec/Recovery.lean` | bounds of the exponential to second order (`Proofs/ExpBounds.lean`), error of a pose as a twist (`Proofs/PoseError.lean`), damped least squares with an almost consistent right-hand side (`Proofs/LeastSquares.lean`); near T the nearest points are the true partners (finitely many distinct points), the system is bounded from below by compactness (`Props/RecoveryStep.lean`); induction over the run with the drift of the rotation (C41) as a floor, for Levenberg-Marquardt with the invariant that above the floor the first trial is accepted and the damping never exceeds its initial value (`Props/Recovery.lean`); clouds in memory by C67 and C87 (`Props/RecoveryAlign.lean`) |
| C90 | proved | `Model/BasicExamples.lean`: both programs on the contents of their files, on top of the models of C56 (PLY files), C59/C61 (`align`) and C70 (Python functions). `DefaultGicp` states the registration independently of them | both programs unfolded step by step; C67 for `align` on vectors, `gicp_align` (descent of GICP on clouds of which points and covariances are set) for `align` on clouds, C70 for the Python preprocessing; complete executions exist (`C90_executes`) |
| C91 | proved | `Model/DownsamplingBenchmark.lean`: the program and the stopwatch, on top of the models of C22-C25 (voxel grids), C79 (statistics) and C80 (data sets). `GroupShows` states what a group of lines says | induction over the scans for the statistics and the laps of the stopwatch; the loop variable stays within 3e-7 times its step number of the decimal number, so that the comparison with 1.51 is decided; C22 and C24 for the numbers of points; complete executions exist (`C91_executes`) |
| C92 | proved | `Model/DownsamplingMachine.lean`: the samplers once more with the arithmetic as a parameter; `Machine` is the contract of rounded arithmetic, `roundedCell` the cell as computed, `AverageUpTo` a mean up to rounding | runs of the sorted array (as for C22) for any key; induction over the additions for the error of a sum; the count in w is exact; rounding to nearest with any number of binary digits is shown to meet the contract (`nearest_machine`), so that the premises are not empty |
| C93 | partial | `Model/PythonVoxelMaps.lean`: the class template with the five voxel types, attributes read from the cloud when needed; specification by `LastUse` and `Gathered` (cells in use and what they got) over the list of insertions with the setting in force | refinement of every call to the abstract map of C11/C12 with the setting of the moment; reverse induction over the insertions gives the closed forms; the invariants of C17 and C18 give the rows |
| C94 | proved | `Model/VoxelMachine.lean`: the two members of the voxel with the operations of `Ops`; specification `MeanAfter` (error bound with the number of points and of re-openings) over the contract `Spec.Machine` of C92 | the numbers of a voxel evolve independently; induction over the calls with an invariant for the open (sum) and the finalized (mean) state; agreement with the voxel of C18 in exact arithmetic; counterexamples in binary arithmetic with 53 digits |
| C95 | proved | `Model/BasicExamplesPcl.lean`: `main`, `example1` (the calls on the object of C51's model `Pcl`, then the registrations to voxel maps), `example2` (float storage as a rounding function `rnd`); specifications `PclVgicp`, `PlainGicp`, `RoundedSample`, `FloatRounding` | the calls on the object are run symbolically; `map_run` (descent to cell averages, from C67), `featured_align` (descent of clouds with any regular covariances), perturbation bound 0.001 − 3δ for the rounded disc covariances |
| C96 | proved | `Model/ExampleProgram.lean`: `example1`, `main` (with `example2` of C76); specification `DefaultGicp` of C90 | each parallel stage by its own theorem (sampler, tree builder, covariances), then `clouds_descent`; `main` by cases of C76 |
| C97 | proved | `Model/RegistrationMachine.lean`: `gaussNewton`, `levenbergMarquardt` over a number type without laws; `Spec.NaNCompares` is the only rule about NaN used | induction over the loops of the optimisers; `C97_exact` relates the model to that of C23 |
| C98 | proved | `Model/RegistrationMachine.lean`: factors, rejectors, kd-tree search, `align` over a number type of which only `Spec.NaNStrict` is known | shape of the tree without order, search by induction over the tree, reductions by `Faithful` of C85, then `C97_nan_start` |
| C99 | proved | `Model/RegistrationMachine.lean`; contract of the arithmetic: `Spec.FiniteArith`, `Spec.IcpAccuracy` (`Props/IcpRounding.lean`), shown to hold for numbers with p+1 digits cut off (`Props/IcpRoundingDigits.lean`) | error of each term relative to the exact distance (`term_error`, `dist_error`), almost optimal partner by exactness of the search in machine numbers (`nearest_rounded`), sums by C85, accepted step by C97, then summation over points and induction over the log |
| C100 | proved | `Model/RegistrationMachine.lean` over a number type without laws | shape of the tree without order (`construct_shape`), factors by `factor_behaves`, reductions by `reduce_inherits`, induction over the loops |
| C101 | proved | `Model/KdTree.lean`, `Model/KnnResult.lean` over a number type without laws; `Spec.FoundNeighbours`, `Spec.SearchInRange` | `shift_any` says where `push` inserts without using order; invariant `HoldsAny`, `Kept` over leaf loop and tree; number found by induction over the tree |
| C102 | proved | `Model/PreprocessMachine.lean`: voxel keys, samplers, feature estimation, `preprocess`, `alignVectors` over a number type without laws; `Spec.CoordDefined`, `Spec.PointDefined` | case analysis of the conversions; number of points emitted by the sum loop by induction; slot protocol of `Proofs/DownsamplePar.lean`; search results from C101; loop invariant over any order of the actions; registration from C100. `C102_exact_sampling`, `C102_exact_features`: exact arithmetic gives the earlier models |
| C103 | proved | `Model/VoxelMapMachine.lean`: voxels, insertion, eviction, search, `mapWorld`, `alignVgicp` over a number type without laws; `Spec.VoxelDefined`, `Spec.averaged`, `Spec.Filled`, `Spec.candidates`, `Spec.PoseDefined` | insertion by induction over the points with the invariant that table and flat array agree; search by induction over the cells and candidates; a factor that must fault makes every reduction fault, because no execution may depend on its result; loops of the optimisers by induction with the set of reachable poses. `C103_exact`: exact arithmetic gives `Model/VoxelMap.lean` |
| C104 | proved | `Model/OdometryMachine.lean`: the loop over the frames and the engines over a number type without laws; `Spec.InStep`, `Spec.SerialFrame`, `Spec.SampleDefined`, `Spec.InsertDefined` | one frame from C07 (parallel tree) and C102 in any arithmetic; the sequence by induction over the frames with the state of the engine described by the frame before; maps by C103. `frameGiven_parallel`: every frame has a parallel execution, so the hypotheses on schedules exclude no input |
| C105 | proved | `Model/FeatureMachine.lean` (sums and covariance matrix operation by operation) in `Model/PreprocessMachine.lean`; `Spec.covarianceOf` (two-pass definition), `Spec.IsNormal`, `Spec.SolverUpTo`, `Spec.MachineSub` | error of sums by induction, of the one-pass formula term by term; the normal by comparing variances along two directions under both matrices (no eigenvalue theory; `normal_of_eigen` relates it to eigenvalues). (4): a box with half lengths 1, 1/2, 1/4 at distance 2^k with k + 6 <= p, p + 3 <= 2k for p + 1 digits (doubles: k = 28 to 46); all operations but the squares are exact, the squares lose their last digit. `eigen_solver_exists` and `eigen_solver_exists_rat`: the contract on the solver can be met |
| C106 | proved | `Model/VoxelHash.lean` (64-bit words); `Spec.IsInt32`, `Spec.SameEvenness` | the last b bits of a product with an odd number determine the last b bits of the other factor; -a xor -b = a xor b exactly if a and b have the same lowest set bit. (3) is a property of the code, not a violation: no comment claims otherwise, and results do not depend on the hash (the map is never iterated) |
| C107 | proved | `Model/PoseMachine.lean` (product of poses, so3_exp, toRotationMatrix, operation by operation over `Ops`), `Model/RegistrationMachine.lean`, `Model/OdometryMachine.lean`; `Spec.NearRotation` (distance in the Frobenius norm to an orthogonal matrix of determinant one), `Spec.DotAccuracy`, `Spec.TrigAccuracy`, `Spec.rotationDrift`. The translation of se3_exp is arbitrary | a product of two matrices near rotations is near the product of the rotations; induction over the iterations and the frames. For se3_exp: the norm of the quaternion is one up to rounding on either branch, the matrix of a quaternion q is |q|^2-close to the rotation of q/|q|, and the rounded evaluation is entrywise close. `C107_exp` discharges the hypothesis on the increments; `C107_registration` puts all together |
| C108 | proved | `Model/PoseMachine.lean`: `so3Exp`, `toRotation`, `skewM`, `jacobianM`, `translationM`, `se3Motion`, operation by operation over `Ops` and `TrigOps`; specification: the matrix exponential of Mathlib (`NormedSpace.exp (twistMatrix a)`), `Spec.TrigAccuracy`, `Spec.ExpMapAccuracy` | the computed quaternion is close to (cos, sin) of half the angle on either branch (Taylor remainder, error of quotient and root); entries of a rotation are Lipschitz in the quaternion; the closed form of the exponential is C35's. Translation: the two factors (1-cos)/θ² and (θ-sin)/θ³ are bounded with the cancellation kept (error e/θ, or at most the size of the term), rows of the product summed. Below 1e-10 the code uses R in place of V. `C108_translation_sharp` builds the arithmetic whose cosine rounds to one |
| C109 | proved | `Model/RegistrationMachine.lean` (optimizers over any arithmetic, with a ghost log of the iterations), `Model/PoseMachine.lean`; specification: `Spec.motionAfter` (product of matrix exponentials of Mathlib), `Spec.travel`, `Spec.stepsOf` (steps of the log) | `C109_steps` by induction over the loops. `C109_product`: induction over the steps; rotation by `mul_error` (as C107 but measured from the exact product), translation by the triangle inequality over the five sources of error (addition, dot product, rotation so far, se3_exp, translation so far); the exponential of a twist is rigid and translates no further than the twist says (`exp_pose`); finiteness of all intermediate poses follows from that of the result |
| C110 | proved | `Model/RegistrationMachine.lean`, `Model/KdTree.lean`; specification: `Spec.PairsUpTo` (partners against exact distances, independent of tree and factors), `Spec.surelyWithin`, `Spec.possiblyWithin`; arithmetic as in C99 (`Spec.FiniteArith`, `Spec.IcpAccuracy`) | `C110_pairs`: error of a computed distance (`dist_error`, C99) and the search that loses no point under rounding (C08), then `factor_records` by induction over the library factors and an invariant over the loops of both optimizers; counts by comparison of the lists. `C110_digits`: numbers with p + 1 binary digits and any exponent, where tree and registration are shown to succeed |
| C111 | proved | `Model/RegistrationMachine.lean`, `Model/KdTree.lean`; specification: `Spec.frozenCost` (exact weighted cost of given pairs at a pose), `Spec.WeightedFactor` (weights of the three factors), `Spec.Moderate`; arithmetic as in C110 and `Spec.TermAccuracy` (error of a factor as a function of its residual; for GICP it includes the condition of the matrix). Robust kernels are in C112; general factors with an error of their own are not covered | `C111_descent`: error of a positive semidefinite quadratic form of an inexact residual (`quad_error`), what one call of a factor leaves behind (`weighted_terms`), rounding of the two reductions and their comparison (`frozen_iteration`), invariant over the loop. `C111_digits`: point-to-plane factors and numbers with p + 1 binary digits and any exponent, where tree and registration are shown to succeed. `C111_gicp_digits`: GICP factors in the same numbers, `0.5 * r^T M r` from left to right, for Mahalanobis matrices of condition K (`Conditioned`); `logged_factor` and `gicp_stored` say that the stored matrices are those the factor has computed |
| C112 | proved | `Model/RegistrationMachine.lean` (`robust`), `Model/Factors.lean` (`huberWeight`, `cauchyWeight`); specification: `Spec.frozenRobustCost`, `Spec.huberError`, `Spec.cauchyError`; contracts `Spec.KernelAccuracy` (weighted error up to a relative error) and `Spec.NonnegTerms`, else as C111 | `C112_descent`: the kernels are monotone, grow by at most their argument and at most in proportion (`kernel_laws`), so errors of the argument carry over (`kernel_error`); rest as C111 (`frozen_run`). `exact_huber`, `exact_cauchy`: the weights of the model meet the contract exactly. `C112_digits`, `digits_huber`, `digits_cauchy`: numbers with p + 1 binary digits, rounded root, quotient and product |

### What is missing in the partial ones

* **C06** (KdTree construction terminates, stays in bounds and partitions the cloud): true for max_leaf_size >= 3 or negative; false for 0, 1, 2 (proved out-of-bounds node writes)
* **C09** (Degenerate searches are reported, never undefined): only the k <= 0 clause is true of the code; the other two clauses are refuted
* **C16** (A voxel-map k-NN result never lists the same point twice): false for the 27 pattern (centre searched twice, witness proved); holds for distinct offsets
* **C20** (set_search_offsets selects exactly the documented pattern): set_search_offsets(27) appends: cells are right as a set, but the centre is listed twice (negation proved)
* **C22** (Serial voxel-grid sampling emits one centroid per occupied cell): holds whenever some point is in range; violated when every point is out of range: for all such clouds one out-of-range point is emitted (C22_all_out_of_range_emits_point); exact arithmetic, w = 1
* **C25** (Parallel voxel-grid sampling ignores out-of-range points and stays in bounds): slot disjointness and single writes proved for every schedule; out-of-range points are not ignored by blocks that start with one: exact number of stray points proved for the OMP variant, with counterexample
* **C35** (Point-to-plane error measures distance to the tangent plane): equality with half the squared plane distance is false (witness); true for axis-aligned normals, lower bound and zero set in general
* **C38** (Levenberg-Marquardt only accepts steps that do not increase the error): Proved for every problem whose general factor has no error of its own (NullFactor and RestrictDoFFactor, so all shipped registrations). Violated for general factors that add an error: optimizer.hpp:114 adds the trial error to the reference error; C38_violated is a concrete run, for every contract-abiding solver.
* **C40** (result.iterations counts the performed iterations): The claim is false: iterations is the zero-based index of the last iteration. The exact relation is proved.
* **C45** (Helper align honours the registration settings): Violated by the code: VGICP ignores the correspondence distance, the cloud overload refuses VGICP and returns the identity, and preprocessing downsamples on 4 threads. Everything else is honoured.
* **C51** (RegistrationPCL never uses stale caches): Violated by the code: setVoxelResolution, setSource/TargetCovariances and setNumNeighborsForCovariance after an alignment leave stale voxel maps or covariances. Holds for every history without these; points, trees and sizes are right for every history.
* **C52** (RegistrationPCL setters validate their arguments): Violated by the code: setVoxelResolution tests the old value. The other parameters are proved for every history.
* **C53** (Projective search returns genuine, distinct neighbours): Genuine points, true distances, order and memory safety for every projection, border policy, window, image size and arithmetic. Distinctness and exactness over the window hold when the border policies separate the offsets (image wider than the window); C53_narrow_violated shows the same point returned twice in an image of 16 columns. Range and inverse of the shipped projection over the reals. C53_many_violated: with 2^32 points the last number is the mark of an empty pixel.
* **C55** (Batch searches equal individual searches): Every tree, query matrix, distribution over threads and schedule; an iteration touches only its own row. The k-nearest-neighbour batch is limited to results whose row offsets fit into int: C55_overflow_violated shows that the offset i * k is computed in int. The rows are the nearest neighbours of the query points (C55_*_exact). Non-positive k: exception below zero; k = 0 ends the process (C55_bad_k).
* **C56** (Point files round-trip): read_points/write_points proved for all point lists and byte strings. read_ply proved complete for four float properties (any trailing data) and for three properties without trailing data; violated otherwise: it always reads 16 bytes per vertex, so three properties plus trailing data write past the buffer and five or more properties lose vertices. A one-line file of three or more bytes reads an empty vector (C56_ply_one_line).
* **C62** (Flow-graph odometry equals sequential odometry): Preprocessing and registration are arbitrary functions that may fail (C63 supplies the library functions). TBB nodes are modelled by their documented behaviour: unlimited and serial function nodes, sequencer nodes. Proved for the first call in a process, and exactly what later calls do; violated for later calls because last_frame is static.
* **C70** (Python functions on numpy arrays: rows, shapes and agreement of the overloads): Agreement of the overloads is violated for arrays without rows and for a fourth column other than 1 (C70_no_rows_violated, C70_fourth_column_violated); proved for all other arrays.
* **C73** (Registration with a robust kernel descends the robust cost): Fails for the evaluated error (witness: C73_violated, for every solver, damping and number of trials); holds for the Huber and Cauchy losses.
* **C76** (The template example registers two clouds on its own classes): Proved for executions whose neighbour indices fit the source; the code violates the claim for small sources and in the rejector.
* **C79** (Benchmark statistics): Mean and deviation are proved in full; the code violates the claim on the median (arguments of nth_element exchanged), which is proved by two counterexamples. The partial theorem says what is returned instead.
* **C81** (Command line of odometry_benchmark): Valid and unknown options are proved in full; the code violates the claim for a missing value, a value with two dashes and the stated default.
* **C82** (odometry_benchmark from files to the trajectory file): Everything except that code 0 means a file was written, which the code violates.
* **C83** (Voxel maps in memory do not interfere): maps without copies fully proved; a copy shares its voxels with the original (two witnesses); missing: independence of copies, which the code does not provide
* **C88** (Benchmark of the kd-trees): The code violates the claim: the search is undefined exactly on the scans (of two points or more) that no grid of 10^-1 to 10^-6 separates; proved in both directions.
* **C93** (Voxel maps in Python: rows of points, normals and covariances over all sequences of insert and set_lru): Holds for complete clouds on non-empty maps; the claim that all calls are defined is violated (empty map, clouds made of arrays).

## Trusted base

* The Lean 4 kernel and the axioms `propext`, `Classical.choice`, `Quot.sound`. No other axiom, no `sorry`, no `native_decide`.
* The reading of the C++ source. The code was read as text; nothing was compiled or run.

### Contracts of external functions

| function | contract | used in |
|---|---|---|
| `std::nth_element` | `Spec.NthElementSpec`: a permutation, split around position n | C02-C08, C59 |
| `std::nth_element` with machine numbers | a permutation (the library promises this only if no target point has a NaN coordinate, since `<` is no strict weak order otherwise) | C98, C100, C101 |
| floating-point operations | `Spec.NaNCompares`, `Spec.NaNStrict`: comparisons with NaN are false, the operations of the factors and the search hand NaN on, and each of the first three coordinates of `T * p` is computed from all of `p` | C97, C98 |
| `SelfAdjointEigenSolver::computeDirect` with rounding | `Spec.SolverUpTo`: the first column is not zero and minimises the variance given by the lower triangle up to ρ times a bound of the entries. `computeDirect` promises no such ρ; with a closed formula it may be larger than that of an iterative solver | C105 |
| `std::sin`, `std::cos`, `std::sqrt` and Eigen's products of 3x3 matrices, rounded | `TrigAccuracy`, `DotAccuracy`: relative error of an operation plus underflow, absolute error of the functions, finite results only from finite operands; no assumption on the order of a sum of three products, fused or not | C107 |
| `std::sin`, `std::cos` near zero, negation | `ExpMapAccuracy`: negation exact, sine with relative error, the error of the cosine at most twice its distance to one, sums of squares not negative, roots of finite numbers and products of moderate size finite | C108 |
| `std::sort` on strings, `std::stoi`, `std::stod`, `fmt::format` | `SortsTexts`; conversions are arbitrary functions | C80-C82 |
| `std::priority_queue` | `Spec.TopSpec`: the top is an element with the greatest distance | C75, C76 |
| `std::sort`, `std::partition`, `std::inplace_merge` | `Spec.LibSpec`; a sorted permutation in `SortSpec` for the down-sampling | C22-C27, C59 |
| `std::sample` | selection sampling with arbitrary draws, as in libstdc++ and libc++ | C29 |
| `std::unordered_map` | association list with unique keys | C11-C18 |
| Eigen `SelfAdjointEigenSolver` | `EigenBasis`: orthonormal eigenvectors, eigenvalues ascending; for `NormalProjection` a vector of norm at most one | C03, C47, C48, C59 |
| Eigen 3x3 `inverse` | `InverseContract`: the inverse where it exists | C33, C34, C43, C44, C60 |
| Eigen `ldlt().solve` | `SolveContract`: a solution where the matrix is positive definite | C33, C37, C38, C43, C44, C46, C60 |
| Eigen `toRotationMatrix` | its product formula, copied into the model | C41, C42 |
| `std::stol`, `getline`, stream extraction | modelled on bytes, "C" locale | C56 |
| `pcl::Registration` | stores pointers, rejects empty clouds, calls `computeTransformation` only with both clouds set | C51, C52 |
| `tbb::flow` nodes | a broadcast or function node delivers every message; unlimited nodes run bodies in any order, serial nodes one at a time in order of arrival; a sequencer forwards by increasing id | C62 |

### Simplifications

* Rounding is left out everywhere except C08 (searches), C85 (sums of the reductions), C92 (voxel grids; contract `Spec.Machine`), C94 (Gaussian voxels; same contract, with the transformed points and covariances as computed by Eigen as inputs), C105 (normals and covariances; `Spec.Machine`, `Spec.MachineSub`; no fused operations), C107 (rotations; `Spec.TrigAccuracy`, `Spec.DotAccuracy`), C108 (se3_exp; `Spec.TrigAccuracy`, `Spec.ExpMapAccuracy`), C109 (poses of the optimizers; same contracts), C110 (correspondences; `Spec.FiniteArith`, `Spec.IcpAccuracy`), C111 (descent with kept pairs; these and `Spec.TermAccuracy`), C112 (the same with robust kernels; also `Spec.KernelAccuracy`, `Spec.NonnegTerms`), the conversions to float in C69, C97, C98, C100, C101, C102, C103 and C104, which assume no law of arithmetic at all but (C97, C98) the behaviour of NaN, and C99 (contract below), all on `Model/RegistrationMachine.lean`. The other registration theorems hold for exact arithmetic.
* C85 assumes of the machine: an addition gives the rounded exact sum, machine numbers round to themselves, relative error of a sum of two machine numbers at most u up to a largest number (`Spec.MachineSum`; IEEE-754 addition in any rounding mode, with gradual underflow, without overflow).
* C99 assumes of the machine: rounding is monotone, odd and idempotent; +, - and * give the rounded exact result; relative error u of sums and differences up to a largest number; transformed points and squared norms have the usual error of a sum of four products plus underflow (`Spec.FiniteArith`, `Spec.IcpAccuracy`). No overflow; the solver and the pose update are arbitrary. `C99_digits` has none of these assumptions but works with unbounded exponents.
* Sequential consistency. Where tasks share arrays, disjoint footprints are part of the theorems (C07, C25, C26, C28, C30, C49, C55).
* Down-sampling, sorting and kd-tree tasks are interleaved step by step. The body of a sort task is one step because it touches only
  its own range; an iteration of a batch search is one step because of `C55_footprint`.
* The optimisers return a ghost log next to the result. The log has no influence on the result.
* `Factors`, `Reduction` and `Optimizer` read the clouds by total functions. `RegistrationMemory` has the same code with failing reads
  and searches; C57 and C58 relate the two.
* Helper `align` functions run the serial reduction. By C30 it equals the parallel one for at least one thread.
* `RegistrationPCL`: the points behind a pointer do not change while the object holds it.
* Point files: `float` is four bytes, little endian; writing to an open file succeeds.
* Messages on `std::cerr` and `std::cout`, timing and memory exhaustion are left out.

### Parts of the repository that are modelled

| file | model | left out |
|---|---|---|
| ann/knn_result.hpp | KnnResult | - |
| ann/kdtree.hpp, projection.hpp, kdtree_omp.hpp, kdtree_tbb.hpp | KdTree, KdTreeParallel | `UnsafeKdTree` ownership |
| ann/incremental_voxelmap.hpp, flat_container.hpp, gaussian_voxelmap.hpp | VoxelMap, VoxelMachine, VoxelHeap (the pointers), FastFloor, RegistrationMap | reference counts, freeing of voxels |
| ann/projective_search.hpp | Projective | - |
| util/downsampling*.hpp, vector3i_hash.hpp, fast_floor.hpp | Downsampling, DownsamplingMachine, PreprocessMachine, FastFloor | the hash value |
| util/sort_omp.hpp, sort_tbb.hpp | SortOmp, SortTbb | - |
| util/normal_estimation*.hpp | Features | - |
| util/lie.hpp | Lie (`skew` in Factors) | - |
| points/point_cloud.hpp | PointCloud | - |
| factors/*, registration/* | Factors, Reduction, Optimizer, RegistrationMemory, RegistrationMachine | printing |
| registration_helper.cpp, python/align.cpp | Helper, Pipeline | conversion of numpy matrices |
| python/kdtree.cpp | PythonSearch | the binding layer |
| src/python/pointcloud.cpp, preprocess.cpp, align.cpp (arrays), src/example/kitti_odometry.py, voxelmap.cpp, factors.cpp | Python, PythonVoxel, PythonVoxelMaps, PythonFactors | pybind11 conversions, messages, `__repr__`, viewer |
| pcl/pcl_registration_impl.hpp | PclRegistration | output cloud |
| benchmark/read_points.hpp | PointFiles | - |
| benchmark/benchmark_odom.hpp, src/benchmark/odometry_benchmark_small_gicp.cpp, odometry_benchmark_small_gicp_omp.cpp, odometry_benchmark_small_gicp_tbb.cpp, odometry_benchmark_small_gicp_tbb_flow.cpp | Odometry, OdometryPipeline | stopwatches, reports, visualisation |
| src/benchmark/odometry_benchmark_small_gicp_model_omp.cpp, odometry_benchmark_small_gicp_model_tbb.cpp, odometry_benchmark_small_vgicp_model_omp.cpp, odometry_benchmark_small_vgicp_model_tbb.cpp, odometry_benchmark_small_vgicp_omp.cpp, odometry_benchmark_small_vgicp_tbb.cpp | OdometryModel | stopwatches, reports, visualisation |
| src/benchmark/odometry_benchmark_small_gicp_pcl.cpp, pcl/pcl_proxy.hpp | OdometryPcl | stopwatches, reports; a cloud is never freed (a new one differs from every cloud in use) |
| benchmark/benchmark.hpp, benchmark/benchmark_odom.cpp, src/benchmark/odometry_benchmark.cpp | Benchmark, BenchmarkEngines | stopwatch, text on the terminal; the engines of other libraries |
| src/benchmark/kdtree_benchmark.cpp | KdtreeBenchmark | text on the terminal besides the statistics, warming up, rounding of the fractions |
| src/benchmark/downsampling_benchmark.cpp | DownsamplingBenchmark | the variants of PCL, text on the terminal besides the statistics, the limit of threads of TBB |
| src/example/02_basic_registration_pcl.cpp, include/small_gicp/pcl/pcl_point_traits.hpp | BasicExamplesPcl | text on the terminal; memory layout of the PCL point types; the covariances are rounded after all have been estimated |
| src/example/01_basic_registration.cpp, src/example/basic_registration.py, src/python/misc.cpp | BasicExamples | text on the terminal, the comparison with a known pose in the tests of the Python file |
| src/example/03_registration_template.cpp | Example, ExamplePipeline, ExampleProgram | printing |

Not modelled: the engines of PCL and fast_gicp, the remaining Python bindings, the memory layout of PCL point types, the tests, the plotting scripts and build files.

## Findings

Behaviour of the code that the proofs exposed (each has a theorem):

1. `max_leaf_size` 0, 1, 2: the kd-tree builder writes outside its node array, or does not end (C06).
2. Searching an empty kd-tree reads an unset node; NaN coordinates can hide neighbours (C09).
3. The 27-cell pattern appends to the old pattern and searches the centre twice; the same point can be returned twice (C16, C20).
4. `lru_clear_cycle = 0` divides by zero; a huge `lru_horizon` wraps and deletes fresh voxels (C12).
5. `voxelgrid_sampling` emits a point for a cloud that is entirely out of range; the parallel versions emit stray points (C22, C25).
6. The documented 10 % bound on extra points of the parallel down-sampling does not hold (C24).
7. `quick_sort_omp` and `radix_sort_tbb` use `int` for positions and overflow on very large inputs (C26, C28).
8. The buffer-less overload of `radix_sort_tbb` drops its template arguments (C28).
9. `random_sampling` leaves normals and covariances of the result unset (C29).
10. `num_threads = 0` makes the OMP reduction read outside its buffers (C30).
11. Point-to-plane uses the element-wise product with the normal, not the dot product: it does not measure the plane distance and is not
    equivariant (C35, C44).
12. LM adds the trial error of a general factor to the reference error (C38).
13. `iterations` is the index of the last iteration, not their number (C40).
14. `se3_exp` with an angle below 1e-10 multiplies the translation by R instead of V; below 1e-5 the quaternion is not exactly a unit
    (C41, C42).
15. Helper `align`: VGICP ignores the correspondence distance; the cloud overload refuses VGICP; down-sampling ignores the number of
    threads (C45).
16. `RegistrationPCL` keeps stale voxel maps and covariances after some setters, and `setVoxelResolution` tests the old value (C51, C52).
17. The projective search returns a point twice in images narrower than the window (C53).
18. Python `batch_knn_search` computes row offsets in `int` (C55).
19. `read_ply` reads 16 bytes per vertex whatever the properties are: heap overflow with three properties and trailing data, lost
    vertices with more than four; it compares the wrong length when it checks the properties (C56).
20. Registering against the kd-tree of an empty cloud reads the unset root at the first iteration (C57).
21. Registering against a voxel map overflows `int` when a pose puts a source point beyond 2^31 cells (C58).
22. The flow-graph odometry keeps `last_frame` in a static variable: a second call registers its first frame to the last frame of the first
    call, and its trajectory starts there (C62).
23. The scan-to-model engines ignore the parameter `max_correspondence_distance`; their gate is the default 1 m (C65, `modelStep`).
24. The PCL odometry engine dereferences a null pointer if its first or second frame has no points; a later frame without points makes it
    register the pair before once more, the other way round, and return the pose of the last but one frame (C69).
25. The fourth column of a numpy array is treated differently by functions of the Python module: `PointCloud(a)` and `preprocess_points(a)` keep it
    as the weight of the point and the samplers divide by it, `voxelgrid_sampling(a)` and `align(a, b)` ignore it; a KITTI scan has
    intensities there (C70).
26. Python `points()` and `normals()` of an empty cloud access element 0 of an empty vector; a kd-tree of another cloud passed to
    `estimate_*` makes them read outside the cloud (C70).
27. Python `voxel_points()` of a map without voxels accesses element 0 of an empty vector; the scan-to-model odometry of `kitti_odometry.py`
    does this when the map is cleared after more than 100 scans without points (C72, `C72_lost`).
28. A robust factor evaluates `weight * error`, which is not the loss whose gradient it accumulates; Levenberg-Marquardt can reject every step and stop where neither is stationary (C73).
29. The brute-force search of the template example converts a negative `k` to `size_t` and writes the whole cloud into the output arrays (C75).
30. The template example builds the search object of the source on the target cloud, so the normal estimation of the source reads the source at indices of the target: out of bounds if the source is smaller (C76).
31. The rejector of the template example reads the target's features twice; the source's features never matter (C76).
32. The Python factors do not check `source_index`, nor that the tree is one of the target: both read out of bounds; a negative maximum distance acts as its absolute value (C78).
33. `Summarizer::median` calls `nth_element` with `nth` and `last` exchanged: undefined, in practice the middle measurement in time (C79); `kdtree_benchmark` prints it.
34. `odometry_benchmark`: an option without value as the last word reads `argv[argc]`; the value of an option is scanned as an option again; the usage text states a wrong default for the voxel
    resolution; an output file that cannot be opened is not reported (C81, C82).
35. A copy of an `IncrementalVoxelMap` shares its voxels with the original: inserting into one moves means and sets time stamps of the other, so that the other may evict a voxel it has just
    used (C83). The repository itself never copies a map.
36. `GaussNewtonOptimizer` returns the error, `H`, `b` and number of inliers of the pose before its last step, and the returned pose may be worse than the initial guess (C87).
37. `kdtree_benchmark` is undefined on a scan with two equal points (or two that no grid down to a micrometre separates within the range of the keys): its search divides the leaf size until the homogeneous coordinate leaves `int`. It is also undefined on an empty directory, and measures nothing with its default options (C88).
38. `basic_registration.py` crashes (element 0 of an empty vector) if a file is missing, where the C++ example reports it; its last example estimates covariances with 20 neighbours, the others with 10 (C90).
39. `downsampling_benchmark` (like the other programs, C81) constructs a string from the null pointer if the last option has no value (C91).
40. Voxel-grid sampling multiplies by the rounded reciprocal of the leaf size, so that points on the boundary of a cell can end in the cell below: 49 with a leaf size of 49 (C92).
41. Python: `voxel_normals()` and `voxel_covs()` of a map without voxels access element 0 of an empty vector; inserting `PointCloud(array)` into a voxel map with normals or covariances (`GaussianVoxelMap` included) reads memory that was never set; `voxel_covs()` returns N x 16 where the documentation says N x 4 x 4 (C93).
42. `GaussianVoxel::add` multiplies the mean by the number of points and `finalize` divides again, so that a voxel map depends, in the last digits, on how the points are distributed over the calls; the average of semidefinite covariances can become indefinite (C94).
43. One source point with a NaN coordinate disables registration: the search returns a target point for it, the distance gate (`sq_dist > max`) lets it pass, the error is NaN and Levenberg-Marquardt returns the initial guess (C98). Gauss-Newton accepts every step and can return NaN (C97).

## Mutation tests

`seeded/LOG.jsonl` has one line per attempt. The edit is made in a scratch copy, everything is rebuilt, and `theorems_failed` lists the
theorems of the manifest whose proof, or a lemma it depends on, no longer compiles. A changed definition can also break the proof script of
a theorem that stays true; entries whose claim says "no claim broken" are edits of that kind, kept for completeness.
