{"id": "C01", "title": "ICP always stops, and the reported iteration count and reason agree", "statement": "ICP::align() runs at most Parameters::maxIterations iterations whatever the matchers, solvers, hook and quality evaluators do; Results::nIterations <= maxIterations, and Results::terminationReason is MaxIterations exactly when nIterations = maxIterations; any other reason is the reason of the one break that was taken.", "quantifier": "all matcher/solver/quality/hook behaviours (as arbitrary functions of iteration and pose), all parameter values, all initial guesses", "why_tests_cant": "A test runs a handful of registrations; the bound must hold for every possible sequence of matcher and solver answers.", "anchors": ["mp2p_icp/src/ICP.cpp: ICP::align"]}
{"id": "C02", "title": "The pose and pairings returned by align() are those of the last completed step", "statement": "After align(), Results::optimal_tf is the output of the last solver run that reported success (the initial guess if none ran), optimalScale its scale, and Results::finalPairings is the output of the last matcher run.", "quantifier": "all histories of matcher/solver answers, including solver failures at any iteration", "why_tests_cant": "The failing iteration can be any one of unboundedly many; tests exercise successful runs.", "anchors": ["mp2p_icp/src/ICP.cpp: ICP::align", "mp2p_icp/src/Solver_Horn.cpp", "mp2p_icp/src/Solver_OLAE.cpp"]}
{"id": "C03", "title": "Stalled means stalled", "statement": "If align() reports Stalled then the last pose increment, compared with the previous or with the one-before-previous pose, has translation norm below minAbsStep_trans and rotation norm below minAbsStep_rot; and no earlier iteration satisfied this.", "quantifier": "all pose sequences produced by solvers, all thresholds", "why_tests_cant": "Depends on the whole pose history, including two-cycles that tests rarely produce.", "anchors": ["mp2p_icp/src/ICP.cpp: ICP::align"]}
{"id": "C04", "title": "Quality checkpoints and the iteration hook stop the run exactly when they ask to", "statement": "If a quality checkpoint (iteration k, minimum q) exists, iteration k is reached without an earlier stop and the evaluated quality is below q, then align() ends at iteration k with QualityCheckpointFailed; if the user hook returns request_stop at iteration k, and nothing ended the run before, align() ends at k with HookRequest and the solution of iteration k is returned; and neither reason is ever reported otherwise.", "quantifier": "all checkpoint tables, all hook behaviours, all runs", "why_tests_cant": "Interaction of several stop conditions over unbounded histories.", "anchors": ["mp2p_icp/src/ICP.cpp: ICP::align"]}
{"id": "C05", "title": "Iteration details requested are iteration details logged", "statement": "With saveIterationDetails, and a log being recorded, the log contains an entry for iteration 0, and for iteration i iff i is a multiple of decimationIterationDetails (or it is 0) or the run stalled at i; enabling saveIterationDetails without asking for a log must not be an invalid memory access.", "quantifier": "all runs, all decimation values, all combinations of the log-enabling options", "why_tests_cant": "The combination of options and lengths is unbounded.", "anchors": ["mp2p_icp/src/ICP.cpp: ICP::align"]}
{"id": "C06", "title": "Overall ICP quality is a weighted mean in range and honours hard discard", "statement": "evaluate_quality() returns 0 as soon as one evaluator reports hard_discard; otherwise the weighted average of the evaluators' qualities, which lies between their minimum and maximum, hence in [0,1] when each of them does; it throws when the list is empty or a weight is not positive.", "quantifier": "all lists of evaluators, weights and qualities", "why_tests_cant": "Numerical range claim over all lists of weights.", "anchors": ["mp2p_icp/src/ICP.cpp: ICP::evaluate_quality"]}
{"id": "C07", "title": "The first solver that succeeds decides", "statement": "run_solvers() tries the solvers in order and returns the output of the first one that reports success; later solvers do not run; it reports failure iff all of them fail.", "quantifier": "all solver lists and behaviours", "why_tests_cant": "Unbounded list of solvers with arbitrary behaviour.", "anchors": ["mp2p_icp/src/ICP.cpp: ICP::run_solvers"]}
{"id": "C08", "title": "Debug-log numbering is collision-free and decimated exactly, under concurrency", "statement": "With generateDebugFiles on, over any interleaving of threads, no two calls of the ICP log writer get the same unique id, and with decimationDebugFiles = d > 1 exactly every d-th call writes a file.", "quantifier": "all interleavings of any number of threads and calls", "why_tests_cant": "Schedules cannot be enumerated by tests.", "anchors": ["mp2p_icp/src/ICP.cpp: ICP::save_log_file"]}
{"id": "C09", "title": "Debug-file name templates expand every placeholder", "statement": "The generated file name contains each occurrence of $UNIQUE_ID, $GLOBAL_ID, $GLOBAL_LABEL, $LOCAL_ID and $LOCAL_LABEL of the template replaced by the corresponding value, and the rest of the template unchanged.", "quantifier": "all templates and all ids and labels", "why_tests_cant": "Labels are arbitrary user strings, which can contain placeholders themselves.", "anchors": ["mp2p_icp/src/ICP.cpp: ICP::save_log_file"]}
{"id": "C10", "title": "Pipeline lists from YAML contain exactly the enabled entries, in order", "statement": "initialize_matchers/solvers/quality_evaluators replace the previous list by the objects of the entries not marked enabled:false, in the order of the file; calling twice does not accumulate.", "quantifier": "all YAML sequences", "why_tests_cant": "Arbitrary configuration files.", "anchors": ["mp2p_icp/src/ICP.cpp: initialize_matchers, initialize_solvers, initialize_quality_evaluators"]}
{"id": "C11", "title": "Combining pairings loses nothing and is associative", "statement": "Pairings::push_back appends each list after the existing ones, adds the counters of potential pairings, has the empty container as neutral element and is associative; the copy and the move overloads give the same result.", "quantifier": "all Pairings values", "why_tests_cant": "Algebraic law over all containers.", "anchors": ["mp2p_icp/src/Pairings.cpp: Pairings::push_back"]}
{"id": "C12", "title": "size() and empty() of pairings agree with the contents", "statement": "Pairings::size() is the sum of the lengths of the five lists, empty() holds iff it is zero, contents_summary lists exactly the non-empty kinds, and size is additive under push_back.", "quantifier": "all Pairings values", "why_tests_cant": "Universal statement on containers.", "anchors": ["mp2p_icp/src/Pairings.cpp: size, contents_summary", "mp2p_icp/include/mp2p_icp/Pairings.h: empty"]}
{"id": "C13", "title": "Running matchers concatenates their outputs in order", "statement": "run_matchers() returns the concatenation, in matcher order, of the pairings each matcher adds, with the potential-pairings counts added, including the per-layer weights of the point-to-point pairings.", "quantifier": "all matcher lists and behaviours", "why_tests_cant": "Arbitrary lists of arbitrary matchers.", "anchors": ["mp2p_icp/src/Matcher.cpp: run_matchers", "mp2p_icp/src/Pairings.cpp: push_back"]}
{"id": "C14", "title": "Matchers and solvers run only inside their iteration window", "statement": "A matcher (solver) with runFromIteration=a and runUpToIteration=b contributes at iteration i iff it is enabled, a <= i and (b = 0 or i <= b).", "quantifier": "all windows, all iterations", "why_tests_cant": "Unbounded integers.", "anchors": ["mp2p_icp/src/Matcher.cpp: Matcher::match", "mp2p_icp/src/Solver.cpp: Solver::optimal_pose"]}
{"id": "C15", "title": "A solver retired by the translation-correction rule never comes back", "statement": "Once a solver with runUntilTranslationCorrectionSmallerThan > 0 has seen a step smaller than the threshold, it declines every later call of the same ICP run, whatever the later steps are; before it, it is not declined by this rule.", "quantifier": "all sequences of step sizes", "why_tests_cant": "History property over unbounded sequences.", "anchors": ["mp2p_icp/src/Solver.cpp: Solver::optimal_pose"]}
{"id": "C16", "title": "The paired ratio is a ratio", "statement": "QualityEvaluator_PairedRatio returns a value in [0,1] for pairings obtained by run_matchers, and 0 when there are no potential pairings; hard_discard is set iff the ratio is below the configured minimum.", "quantifier": "all pairings obtainable from matchers", "why_tests_cant": "Needs the invariant #pairings <= #potential, across all matchers.", "anchors": ["mp2p_icp/src/QualityEvaluator_PairedRatio.cpp", "mp2p_icp/src/Matcher_Points_DistanceThreshold.cpp"]}
{"id": "C17", "title": "The already-paired flags behave as a set of points", "statement": "After any sequence of initialisations and mark_as_set() calls, dense or sparse, reading a flag gives true iff that point of that layer was marked since it was last initialised; dense and sparse storage are indistinguishable for in-range indices.", "quantifier": "all operation sequences", "why_tests_cant": "Unbounded operation sequences.", "anchors": ["mp2p_icp_map/include/mp2p_icp/pointcloud_bitfield.h"]}
{"id": "C18", "title": "Each point is used at most once by point-to-point matching when so configured", "statement": "With the default options (already-matched points not allowed) and pairingsPerPoint=1, after any list of matcher runs no global point appears in two pairings and no local point appears in two pairings of the same layers.", "quantifier": "all clouds, all nearest-neighbour results, all matcher lists", "why_tests_cant": "Depends on an invariant over all points and all matchers.", "anchors": ["mp2p_icp/src/Matcher_Points_DistanceThreshold.cpp", "mp2p_icp/src/Matcher_Points_InlierRatio.cpp", "mp2p_icp_map/include/mp2p_icp/pointcloud_bitfield.h"]}
{"id": "C19", "title": "Distance thresholds are respected and complete", "statement": "Each pairing produced by Matcher_Points_DistanceThreshold has squared distance below threshold^2 + angularThreshold^2*|p|^2, at most pairingsPerPoint pairings are made per local point, and (re-matching allowed) each neighbour reported by the map that satisfies the test is paired.", "quantifier": "all clouds, thresholds and neighbour lists", "why_tests_cant": "Universal over geometric inputs.", "anchors": ["mp2p_icp/src/Matcher_Points_DistanceThreshold.cpp"]}
{"id": "C20", "title": "Limiting the number of local points keeps matching memory-safe", "statement": "With maxLocalPointsPerLayer = m > 0 smaller than the cloud, the matcher considers m of its points, each of them eligible, and does not access memory out of bounds.", "quantifier": "all cloud sizes, all m, all random permutations", "why_tests_cant": "Out-of-bounds depends on sizes; random choice.", "anchors": ["mp2p_icp/src/Matcher_Points_Base.cpp: transform_local_to_global", "mp2p_icp/src/Matcher_Points_DistanceThreshold.cpp"]}
{"id": "C21", "title": "InlierRatio keeps the requested fraction of best pairings", "statement": "Matcher_Points_InlierRatio outputs at most round(n*inliersRatio) of the n candidate pairings, and no candidate that was left out for its rank has an error smaller than one kept.", "quantifier": "all candidate lists and ratios", "why_tests_cant": "Order statistics over all inputs.", "anchors": ["mp2p_icp/src/Matcher_Points_InlierRatio.cpp"]}
{"id": "C22", "title": "Point-to-plane and point-to-line pairings respect the distance threshold", "statement": "Each pairing of Matcher_Point2Plane has a local point within distanceThreshold of the plane; each line of Matcher_Point2Line is fitted only to global points within distanceThreshold of the transformed local point; each local point gets at most one pairing.", "quantifier": "all clouds and parameters", "why_tests_cant": "Universal over geometric inputs.", "anchors": ["mp2p_icp/src/Matcher_Point2Plane.cpp", "mp2p_icp/src/Matcher_Point2Line.cpp"]}
{"id": "C23", "title": "The adaptive matcher never exceeds its correspondence limits", "statement": "Matcher_Adaptive produces per local point either one point-to-plane pairing or at most maxPt2PtCorrespondences point-to-point pairings, each below the adaptive distance limit; it is well defined on any input, also when no neighbour is found.", "quantifier": "all clouds and neighbour lists", "why_tests_cant": "Universal; includes the no-neighbour corner.", "anchors": ["mp2p_icp/src/Matcher_Adaptive.cpp"]}
{"id": "C24", "title": "Layer selection of point matchers", "statement": "A point matcher matches exactly the pairs (global layer, local layer) listed in its weights table, or the identically named ones when no table is given; listing a missing local layer is an error; the weights recorded cover exactly the point-to-point pairings, block by block.", "quantifier": "all maps and weight tables", "why_tests_cant": "Arbitrary maps of layers.", "anchors": ["mp2p_icp/src/Matcher_Points_Base.cpp: impl_match"]}
{"id": "C25", "title": "Converting line and plane pairings keeps the information", "statement": "pt2ln_pl_to_pt2pt turns each selected point-to-plane/line pairing into a point-to-point pairing with the closest point of the plane/line as target, keeps at least all the worst ones, and keeps the point-to-point pairings it was given.", "quantifier": "all pairings and poses", "why_tests_cant": "Universal over containers.", "anchors": ["mp2p_icp/src/pt2ln_pl_to_pt2pt.cpp"]}
{"id": "C26", "title": "Robust centroids exclude exactly the outliers", "statement": "eval_centroids_robust with an outlier list (sorted, without repetition) returns the means of the point pairs whose index is not in the list, and is refused when no pair would remain.", "quantifier": "all pairings and outlier lists", "why_tests_cant": "Index-merge loop; any list.", "anchors": ["mp2p_icp/src/Pairings.cpp: eval_centroids_robust"]}
{"id": "C27", "title": "Correspondence weights are normalised and block-accurate", "statement": "When the solvers walk over the correspondences, the weights used are those of the block each point pair belongs to, the outlier pairs are skipped and only they, and with no robust kernel and no discarded pair the base weights add up to one.", "quantifier": "all block tables, outlier sets and pair counts", "why_tests_cant": "Cursor-based loop, unbounded blocks.", "anchors": ["mp2p_icp/src/visit_correspondences.h"]}
{"id": "C28", "title": "Horn's solution is the optimal rotation and translation", "statement": "The pose computed by optimal_tf_horn minimises the weighted sum of squared distances between the transformed local points and their global partners over all rigid transformations, given an exact eigen-solver; and recovers exactly the true motion for noise-free data.", "quantifier": "all point sets and weights", "why_tests_cant": "Optimality over all rigid motions cannot be sampled.", "anchors": ["mp2p_icp/src/optimal_tf_horn.cpp"]}
{"id": "C29", "title": "OLAE recovers noise-free rotations", "statement": "For noise-free pairings the linear system assembled by optimal_tf_olae has the true Gibbs vector among its solutions, and the sequential-rotation variants are consistent with it. Hence optimal_tf_olae returns the true rigid motion for every noise-free set of pairings with two directions that are not parallel.", "quantifier": "all rotations and vector pairs", "why_tests_cant": "Universal algebraic identity.", "anchors": ["mp2p_icp/src/optimal_tf_olae.cpp"]}
{"id": "C30", "title": "Robust kernels weight in (0,1] and never favour larger errors", "statement": "For each kernel the weight function is positive, not larger than at zero error, and non-increasing in the squared error.", "quantifier": "all errors and kernel parameters", "why_tests_cant": "Real-valued universal claim.", "anchors": ["mp2p_icp/include/mp2p_icp/robust_kernels.h"]}
{"id": "C31", "title": "Error terms vanish exactly at alignment", "statement": "error_point2point, error_point2plane, error_point2line and error_plane2plane are zero iff the transformed local primitive lies on the global one, with norm equal to the geometric distance.", "quantifier": "all poses and primitives", "why_tests_cant": "Real-valued universal claim.", "anchors": ["mp2p_icp/src/errorTerms.cpp"]}
{"id": "C32", "title": "Jacobians are the exact derivatives", "statement": "The Jacobian each error term reports equals the exact first-order change of the error with respect to the 12 pose-matrix entries, at every pose.", "quantifier": "all poses and primitives", "why_tests_cant": "Tests compare numerically at a few poses.", "anchors": ["mp2p_icp/src/errorTerms.cpp"]}
{"id": "C33", "title": "Gauss-Newton starts every iteration from a fresh system and does not depend on how it is parallelised", "statement": "The linear system used by optimal_tf_gauss_newton at each inner iteration is the sum over all pairings of the contributions at the current pose, the same for serial and parallel builds and for any partition or order of the reduction.", "quantifier": "all pairings, all partitions and reduction orders, all iteration counts", "why_tests_cant": "Schedules; hidden state across iterations.", "anchors": ["mp2p_icp/src/optimal_tf_gauss_newton.cpp"]}
{"id": "C34", "title": "Per-layer weights are applied to their own pairings in every Gauss-Newton iteration", "statement": "At every inner iteration each point-to-point pairing is weighted with the weight of the block it belongs to.", "quantifier": "all block tables, all iterations", "why_tests_cant": "Cursor state across iterations.", "anchors": ["mp2p_icp/src/optimal_tf_gauss_newton.cpp"]}
{"id": "C35", "title": "Covariance stacks one block of rows per pairing without overlap", "statement": "covariance() assigns to each pairing its own rows of the stacked error vector, rows of different pairings are disjoint and all are written; with no pairings it returns the huge default covariance.", "quantifier": "all pairing counts", "why_tests_cant": "Depends on the counts of five kinds.", "anchors": ["mp2p_icp/src/covariance.cpp"]}
{"id": "C36", "title": "Pairings survive serialization", "statement": "serializeFrom(serializeTo(p)) gives back p for every Pairings value, consuming exactly the bytes written; an unknown version is refused; older versions load with the counter reset.", "quantifier": "all Pairings values and byte streams", "why_tests_cant": "Round trip over all values.", "anchors": ["mp2p_icp/src/Pairings.cpp: serializeTo, serializeFrom"]}
{"id": "C37", "title": "Parameters, weights and results survive serialization", "statement": "Reading back what was written gives the same Parameters, WeightParameters, PairWeights and Results, in every field, and unknown versions are refused.", "quantifier": "all values", "why_tests_cant": "Round trip over all values.", "anchors": ["mp2p_icp/src/Parameters.cpp", "mp2p_icp/src/WeightParameters.cpp", "mp2p_icp/src/Results.cpp", "mp2p_icp/src/PairWeights.cpp"]}
{"id": "C38", "title": "Metric maps survive serialization", "statement": "metric_map_t written to a stream and read back, into any previous object, gives the same map (layers, lines, planes, id, label, georeferencing, metadata); streams of every older version load with the defaults in missing fields.", "quantifier": "all maps, all prior contents of the receiving object", "why_tests_cant": "Universal round trip, versions, stale state.", "anchors": ["mp2p_icp_map/src/metricmap.cpp: serializeTo, serializeFrom"]}
{"id": "C39", "title": "Georeferencing survives YAML", "statement": "FromYAML(ToYAML(g)) = g for each georeferencing, including absent.", "quantifier": "all georeferences", "why_tests_cant": "Existing test samples one value.", "anchors": ["mp2p_icp_map/src/metricmap.cpp: FromYAML, ToYAML"]}
{"id": "C40", "title": "Velocity buffer YAML state round trip and merge", "statement": "Loading the YAML of a buffer into any buffer makes both hold the same samples, reference time and parameters.", "quantifier": "all buffers", "why_tests_cant": "Universal round trip.", "anchors": ["mp2p_icp_map/src/LocalVelocityBuffer.cpp: toYAML, fromYAML"]}
{"id": "C41", "title": "The velocity buffer holds exactly the recent samples", "statement": "After any sequence of insertions with non-decreasing times, the buffer holds exactly the inserted samples (last writer wins per time stamp) not older than the window with respect to the last insertion; none is lost and none is kept too long.", "quantifier": "all insertion histories", "why_tests_cant": "History property.", "anchors": ["mp2p_icp_map/src/LocalVelocityBuffer.cpp: add_linear_velocity, add_angular_velocity, delete_too_old_entries"]}
{"id": "C42", "title": "Pose reconstruction around the reference time is safe and covers the span", "statement": "reconstruct_poses_around_reference_time returns poses at the samples around the reference, identity at the reference stamp, is empty iff no sample is within tolerance, and never reads past the end of the buffer.", "quantifier": "all buffers and spans", "why_tests_cant": "End-of-container corner over all buffers.", "anchors": ["mp2p_icp_map/src/LocalVelocityBuffer.cpp: reconstruct_poses_around_reference_time"]}
{"id": "C43", "title": "Dynamic parameters take the value of their formula at every realize()", "statement": "After ParameterSource::realize() each attached parameter equals its formula evaluated at the current variables; constants keep their value; unrealized parameters are detected; order of attachment does not matter.", "quantifier": "all sequences of attach/update/realize", "why_tests_cant": "History property.", "anchors": ["mp2p_icp_map/src/Parameterizable.cpp"]}
{"id": "C44", "title": "Merging maps keeps everything", "statement": "metric_map_t::merge_with appends the other map's lines, planes and layers to this one, leaves the other unchanged and does not drop any layer of either.", "quantifier": "all pairs of maps and optional poses", "why_tests_cant": "Universal over maps.", "anchors": ["mp2p_icp_map/src/metricmap.cpp: merge_with"]}
{"id": "C45", "title": "Box, range, ring and intensity filters partition the cloud", "statement": "FilterBoundingBox/ByRange/ByRing/ByIntensity send each input point to exactly the output layer its attribute selects, in the original order, each point exactly once, and never modify the input layer unless it is also the output.", "quantifier": "all clouds and parameters", "why_tests_cant": "Universal over clouds; aliasing corner.", "anchors": ["mp2p_icp_filters/src/FilterBoundingBox.cpp", "mp2p_icp_filters/src/FilterByRange.cpp", "mp2p_icp_filters/src/FilterByRing.cpp", "mp2p_icp_filters/src/FilterByIntensity.cpp"]}
{"id": "C46", "title": "Filters whose output layer is their input layer terminate", "statement": "Running a partition filter with the same layer as input and as output terminates and keeps the earlier points.", "quantifier": "all clouds", "why_tests_cant": "Non-termination cannot be observed by a test.", "anchors": ["mp2p_icp_filters/src/FilterBoundingBox.cpp", "mp2p_icp_filters/src/FilterByRange.cpp"]}
{"id": "C47", "title": "Intensity normalisation maps into [0,1] monotonically", "statement": "FilterNormalizeIntensity outputs intensities within [0,1], preserving order, with or without a remembered or fixed range; the remembered range only grows.", "quantifier": "all clouds, all histories of calls", "why_tests_cant": "History + numeric range.", "anchors": ["mp2p_icp_filters/src/FilterNormalizeIntensity.cpp"]}
{"id": "C48", "title": "Timestamp adjustment shifts, never distorts", "statement": "FilterAdjustTimestamps with MiddleIsZero/EarliestIsZero shifts all stamps by one constant so that the middle/earliest becomes zero (before the user offset), keeping differences; Normalize maps them to [0,1] affinely; the reference time is moved by the same amount.", "quantifier": "all clouds", "why_tests_cant": "Universal numeric claim; degenerate spans.", "anchors": ["mp2p_icp_filters/src/FilterAdjustTimestamps.cpp"]}
{"id": "C49", "title": "Voxel decimation keeps one representative per occupied voxel", "statement": "FilterDecimateVoxels outputs exactly one point per occupied voxel; in FirstPoint, ClosestToAverage and RandomPoint modes it is an input point of that voxel, in VoxelAverage their mean; nothing is output for empty voxels; small clouds pass through.", "quantifier": "all clouds, resolutions and modes", "why_tests_cant": "Universal over clouds.", "anchors": ["mp2p_icp_filters/src/FilterDecimateVoxels.cpp", "mp2p_icp_filters/src/PointCloudToVoxelGridSingle.cpp", "mp2p_icp_filters/src/PointCloudToVoxelGrid.cpp"]}
{"id": "C50", "title": "Voxel indexing is uniform", "statement": "Two points with the same voxel index are less than one voxel side apart in each coordinate, also around the origin.", "quantifier": "all coordinates and resolutions", "why_tests_cant": "Real-valued, sign corner.", "anchors": ["mp2p_icp_filters/include/mp2p_icp_filters/PointCloudToVoxelGrid.h: coord2idx"]}
{"id": "C51", "title": "Adaptive decimation terminates, respects the target and never duplicates a point", "statement": "FilterDecimateAdaptive terminates, outputs at most the desired number of points, each an input point and no input point twice, visiting voxels round-robin; well defined for every input.", "quantifier": "all clouds and parameters", "why_tests_cant": "Termination and degenerate counts.", "anchors": ["mp2p_icp_filters/src/FilterDecimateAdaptive.cpp"]}
{"id": "C52", "title": "Occupancy filter splits static and dynamic points without loss", "statement": "FilterRemoveByVoxelOccupancy sends each point to the static or dynamic output, or drops it, according to the occupancy of its voxel; no point is in both.", "quantifier": "all clouds and occupancy maps", "why_tests_cant": "Universal.", "anchors": ["mp2p_icp_filters/src/FilterRemoveByVoxelOccupancy.cpp"]}
{"id": "C53", "title": "Curvature filter classifies each eligible point once", "statement": "FilterCurvature sends each point to at most one of the outputs larger/smaller/other, processing each ring independently and in order; ring bookkeeping is valid for each ring id.", "quantifier": "all clouds, including the extreme ring ids", "why_tests_cant": "Integer width corner; universal.", "anchors": ["mp2p_icp_filters/src/FilterCurvature.cpp"]}
{"id": "C54", "title": "Deskew keeps the number of points and moves each by its own stamp", "statement": "FilterDeskew appends one output point per input point, the i-th being the input moved by the motion at its time stamp; with zero twist or zero stamp the point is unchanged.", "quantifier": "all clouds, twists and stamps", "why_tests_cant": "Universal; origin points.", "anchors": ["mp2p_icp_filters/src/FilterDeskew.cpp"]}
{"id": "C55", "title": "Filter pipelines compose sequentially", "statement": "apply_filter_pipeline applies the filters in order; applying a concatenation equals applying one after the other; an empty pipeline changes nothing; an exception stops the later filters.", "quantifier": "all pipelines", "why_tests_cant": "Universal over lists.", "anchors": ["mp2p_icp_filters/src/FilterBase.cpp"]}
{"id": "C56", "title": "Layer deletion and creation", "statement": "FilterDeleteLayer removes exactly the named layers, erroring on missing ones when so configured; GetOrCreatePointLayer returns the existing layer or creates exactly one.", "quantifier": "all maps", "why_tests_cant": "Universal.", "anchors": ["mp2p_icp_filters/src/FilterDeleteLayer.cpp", "mp2p_icp_filters/src/GetOrCreatePointLayer.cpp"]}
{"id": "C57", "title": "simplemap_to_metricmap processes exactly the requested keyframes", "statement": "simplemap_to_metricmap processes keyframes start_index..end_index (inclusive, clipped to the map), each observation handled by at least one generator triggers the filters once, and final filters run once at the end with their parameters realized.", "quantifier": "all maps, index ranges and generator behaviours", "why_tests_cant": "Ranges and histories unbounded.", "anchors": ["mp2p_icp_filters/src/sm2mm.cpp"]}
{"id": "C58", "title": "Simple-map tools select and concatenate keyframes exactly", "statement": "sm-cli cut keeps exactly keyframes from..to, trim exactly those in the box, join concatenates in order, tf composes and is undone by the inverse transform.", "quantifier": "all maps", "why_tests_cant": "Universal over lists.", "anchors": ["apps/sm-cli/sm-cli-cut.cpp", "apps/sm-cli/sm-cli-trim.cpp", "apps/sm-cli/sm-cli-join.cpp", "apps/sm-cli/sm-cli-tf.cpp"]}
{"id": "C59", "title": "Generators: any handler marks the observation handled", "statement": "apply_generators passes each observation to each generator in order, and reports handled iff at least one generator handled one.", "quantifier": "all generator lists and observations", "why_tests_cant": "Universal.", "anchors": ["mp2p_icp_filters/src/Generator.cpp: apply_generators"]}
{"id": "C60", "title": "txt2mm honours its layer and format options", "statement": "txt2mm stores the points in the layer the user names, with all the channels of the chosen format.", "quantifier": "all option values and inputs", "why_tests_cant": "Universal over inputs.", "anchors": ["apps/txt2mm/main.cpp"]}
{"id": "C61", "title": "A robust kernel needs a pose estimate, which the solvers never supply", "statement": "With a robust kernel selected, the closed-form solvers use no pair unless a pose estimate is present in the parameters; Solver_Horn with a robust kernel and no estimate in its own parameters never returns a pose, whatever guess the ICP loop gives it.", "quantifier": "all pairings, weights and guesses", "why_tests_cant": "A test shows one set of pairings which is refused; the statement says that no set of pairings can be solved.", "anchors": ["mp2p_icp/src/visit_correspondences.h: visit_correspondences", "mp2p_icp/src/Solver_Horn.cpp: Solver_Horn::impl_optimal_pose", "mp2p_icp/include/mp2p_icp/WeightParameters.h"]}
{"id": "C62", "title": "Gauss-Newton keeps an exact solution", "statement": "optimal_tf_gauss_newton started at a pose which aligns all pairings exactly returns that pose unchanged, in at most one inner iteration, in every build.", "quantifier": "all pairings, poses, weights, kernels, priors, builds and schedules", "why_tests_cant": "any alignment, weights and solver behaviour", "anchors": ["mp2p_icp/src/optimal_tf_gauss_newton.cpp: optimal_tf_gauss_newton", "mp2p_icp/src/errorTerms.cpp"]}
{"id": "C63", "title": "Gauss-Newton terminates and reports validity", "statement": "optimal_tf_gauss_newton ends within the configured number of inner iterations, throws without a linearization point, returns the guess when no iterations are allowed, and returns false when the pairings are too few for a unique solution.", "quantifier": "all pairings, parameters, builds", "why_tests_cant": "unbounded inputs and solver answers", "anchors": ["mp2p_icp/include/mp2p_icp/optimal_tf_gauss_newton.h", "mp2p_icp/src/optimal_tf_gauss_newton.cpp: optimal_tf_gauss_newton", "mp2p_icp/src/Solver_GaussNewton.cpp: impl_optimal_pose"]}
{"id": "C64", "title": "Log records survive save and load", "statement": "LogRecord::load_from_file after save_to_file gives back every field of the record; load_from_file reports false, and throws nothing, for a truncated file.", "quantifier": "all log records, all truncation points", "why_tests_cant": "unbounded record contents and every cut point", "anchors": ["mp2p_icp/src/LogRecord.cpp: serializeTo, serializeFrom, save_to_file, load_from_file"]}
{"id": "C65", "title": "Parameters and weights survive YAML", "statement": "Parameters/PairWeights/WeightParameters saved with save_to and loaded with load_from are the same in every configurable field; only the documented mandatory keys are required; quality checkpoints are exactly those of the file.", "quantifier": "all parameter values, all prior contents of the receiving object, all YAML files", "why_tests_cant": "unbounded values and file contents", "anchors": ["mp2p_icp/src/Parameters.cpp: load_from, save_to", "mp2p_icp/src/WeightParameters.cpp: load_from, save_to", "mp2p_icp/src/PairWeights.cpp: load_from, save_to"]}
{"id": "C66", "title": "Exported trajectories and rawlogs hold every keyframe", "statement": "sm-cli export-keyframes writes one pose per keyframe, at the time of its first stamped observation; export-rawlog writes each observation of each keyframe in order.", "quantifier": "all simple maps", "why_tests_cant": "Universal over lists; equal stamps and null pointers are corner cases.", "anchors": ["apps/sm-cli/sm-cli-export-kfs.cpp", "apps/sm-cli/sm-cli-export-rawlog.cpp"]}
{"id": "C67", "title": "Quadratic decimation keeps one point per warped cell", "statement": "FilterDecimateVoxelsQuadratic appends to its output layer exactly one representative for each occupied cell of its non-linear lattice, leaving all other layers as they were, for every visiting order of the hash map; cells are intervals of each axis, coincide with the plain lattice beyond the reference radius and are not narrower than the resolution within it; missing inputs are an error if so configured.", "quantifier": "all clouds, layers, resolutions, reference radii and hash orders", "why_tests_cant": "the warp is a real function with a square root inverse, cells and aliasing of layers unbounded", "anchors": ["mp2p_icp_filters/src/FilterDecimateVoxelsQuadratic.cpp: filter", "mp2p_icp_filters/src/PointCloudToVoxelGridSingle.cpp"]}
{"id": "C68", "title": "FilterMerge adds the input layer to the target, transformed by the robot pose", "statement": "FilterMerge inserts every point of the input layer, at the robot pose (or in local coordinates if so configured), after what the target layer holds, and touches no other layer; it refuses missing or incompatible layers.", "quantifier": "all maps, poses and target classes", "why_tests_cant": "unbounded contents; aliasing of input and target", "anchors": ["mp2p_icp_filters/src/FilterMerge.cpp: filter"]}
{"id": "C69", "title": "FilterVoxelSlice projects exactly the wanted heights", "statement": "FilterVoxelSlice writes a 2D grid in which exactly the voxels with height between slice_z_min and slice_z_max are entered, at the x and y of their centre; it refuses layers of other classes.", "quantifier": "all voxel maps and height ranges", "why_tests_cant": "unbounded grids and boundaries", "anchors": ["mp2p_icp_filters/src/FilterVoxelSlice.cpp: filter"]}
{"id": "C70", "title": "Range-image quality is a well behaved score", "statement": "The range image of a cloud holds for each pixel the range of the nearest point falling there; the quality is between 0 and 1, does not depend on which map is called global (with the inverse pose), and is 1 for a perfect registration, i.e. global = pose composed with local.", "quantifier": "all clouds, cameras and poses", "why_tests_cant": "unbounded clouds, all poses; the symmetric convention is invisible with identity poses", "anchors": ["mp2p_icp/src/QualityEvaluator_RangeImageSimilarity.cpp: evaluate, projectPoints, scores"]}
{"id": "C71", "title": "Voxel quality is a well behaved score", "statement": "QualityEvaluator_Voxels compares each sufficiently observed voxel of each map with the voxel of the other map at the same place under the pose; the quality is between 0 and 1, does not depend on which map is called global, and prefers agreement.", "quantifier": "all voxel maps, resolutions, poses", "why_tests_cant": "unbounded grids of different resolutions", "anchors": ["mp2p_icp/src/QualityEvaluator_Voxels.cpp: evaluate, loss"]}
{"id": "C72", "title": "Edge extraction from range images selects what is documented", "statement": "GeneratorEdgesFromRangeImage puts into the target layer exactly the points whose range differs from the trend of its neighbours (rotating scans), or whose block's second difference stands out (depth images), in image order and in the robot's frame; plane points go to their own layer, which may be left empty; no input makes it misbehave and other layers are left alone.", "quantifier": "all range images, poses, thresholds and maps", "why_tests_cant": "fixed-point arithmetic wraps or overflows only for some images; aliasing of layers depends on names", "anchors": ["mp2p_icp_filters/src/GeneratorEdgesFromRangeImage.cpp: calcStats, filterRotatingScan, filterScan3D"]}
{"id": "C73", "title": "Edge extraction from curvature selects the corners", "statement": "GeneratorEdgesFromCurvature puts into the target layer exactly the points of a rotating scan at which three consecutive valid and separated points form an angle whose cosine is below the maximum; the selection depends neither on the frame nor on the direction of scanning; other observations are reported as not handled; inconsistent scans are refused.", "quantifier": "all scans, poses, parameters and maps", "why_tests_cant": "unbounded scans; invariance under all rigid motions", "anchors": ["mp2p_icp_filters/src/GeneratorEdgesFromCurvature.cpp: process, filterRotatingScan"]}
{"id": "C74", "title": "Pole detection splits the points cell by cell", "statement": "FilterPoleDetector appends each point of a cell with enough points to the layer of poles if the cell stands out from its neighbours and to the other layer if not; every point goes somewhere, the outcome depends neither on the order of the points or of the hash map nor on the height of the frame, other layers are left alone, and no finite cloud makes it misbehave.", "quantifier": "all clouds, parameters, maps and iteration orders of the hash map", "why_tests_cant": "iteration order of a hash map is not observable in a test; unbounded clouds", "anchors": ["mp2p_icp_filters/src/FilterPoleDetector.cpp: filter"]}
{"id": "C75", "title": "Edge/plane extraction classifies voxels by their shape", "statement": "FilterEdgesPlanes sends points of straight structures to the edge layer, points of flat ones to the plane layer, and adds one plane patch per flat voxel, through its centroid and with its normal towards the vehicle; a decimated copy of the whole cloud is produced; the call ends for all parameters and independently of the order of the voxels; other layers are left alone.", "quantifier": "all clouds, parameters, maps, containers and iteration orders", "why_tests_cant": "every eigenvalue configuration and order of the hash map; termination", "anchors": ["mp2p_icp_filters/src/FilterEdgesPlanes.cpp: filter"]}
{"id": "C76", "title": "Principal directions of a cloud are the least-squares plane and line", "statement": "estimate_points_eigen returns the centroid and covariance of exactly the selected points; the plane through the mean normal to the first eigenvector is a best-fitting plane, the line along the last one a best-fitting line; eigenvalues are the residuals, zero exactly for flat or straight clouds; results follow rigid motions and do not depend on the order; fewer than three points are refused.", "quantifier": "all point arrays, index sets and counts", "why_tests_cant": "optimality over all planes and lines; invariance under all motions", "anchors": ["mp2p_icp_map/src/estimate_points_eigen.cpp: estimate_points_eigen, vector_of_points_to_xyz"]}
{"id": "C77", "title": "Every Gauss-Newton step minimises the linearised weighted cost", "statement": "optimal_tf_gauss_newton starts at the given guess and every iteration replaces the pose T by T * exp(d), where d is the minimiser, over all increments, of the weighted cost with the residuals linearised at T; it stops when the increment or the cost is below the thresholds given or after the given number of iterations, and never earlier.", "quantifier": "all pairings, weights, guesses, thresholds and iteration limits", "why_tests_cant": "minimality over all increments at every iteration for every input", "anchors": ["mp2p_icp/src/optimal_tf_gauss_newton.cpp: optimal_tf_gauss_newton"]}
{"id": "C78", "title": "A generator puts each observation into its layer, where the robot saw it", "statement": "Generator::process adds exactly the points of a cloud observation to its target layer, each at robotPose * sensorPose * point with its channels, creating the layer if it does not exist; repeated calls accumulate; observations filtered out by class or label, comments, GPS and poses have no effect and give false; IMU angular velocities go, rotated to the vehicle frame, to the attached velocity buffer; the stamp of each observation of points becomes the reference time; the answer is true exactly if the observation was used; with throw_on_unhandled_observation_class an unused one is an exception; other layers are never touched.", "quantifier": "all observations of every kind, poses, maps, filters, sequences of calls", "why_tests_cant": "every kind of observation, layer state and sequence of calls", "anchors": ["mp2p_icp_filters/src/Generator.cpp: Generator::process, implProcessDefault, implProcessCustomMap, filterPointCloud, filterVelodyneScan, processIMU"]}
{"id": "C79", "title": "The definition of a custom map reaches the map as written", "statement": "The configuration which a generator gives to a custom metric map holds exactly the class asked for, and for each section of metric_map_definition its keys and values, with every $f{...} replaced by its current value; a definition with a stray scalar, a sequence, a nested value or an unclosed formula is refused; without a class no map is made.", "quantifier": "all definitions and values of formulas", "why_tests_cant": "every definition: no key lost, added or misplaced", "anchors": ["mp2p_icp_filters/src/Generator.cpp: Generator::Parameters::load_from_yaml, implProcessCustomMap"]}
{"id": "C80", "title": "An ICP pipeline is what its YAML file describes", "statement": "icp_pipeline_from_yaml returns an ICP object of the class asked for whose solvers, matchers and quality evaluators are exactly the enabled entries of their sections, in order, with their weights, plugins being loaded before the classes they define are looked up, and the parameters of the params section; it throws exactly if a mandatory part is missing or a part cannot be built.", "quantifier": "all YAML configurations, registries and plugins", "why_tests_cant": "every combination of sections, disabled entries, plugins and failures", "anchors": ["mp2p_icp/src/icp_pipeline_from_yaml.cpp: icp_pipeline_from_yaml", "mp2p_icp/src/ICP.cpp: initialize_solvers, initialize_matchers, initialize_quality_evaluators"]}
{"id": "C81", "title": "mm-georef moves geo-references between maps without harming them", "statement": "mm-georef --extract-from-map writes exactly the map's georeference; --inject-to-map replaces the georeference of the map and leaves every layer, line, plane, id, label and the metadata as they were; extract followed by inject transfers the reference; a run that fails changes no file; after a crash at any moment the map file is the old map, the new map, or refused by the loader, never another map.", "quantifier": "all maps, georeferences, paths and crash points", "why_tests_cant": "every crash point and every map content", "anchors": ["apps/mm-georef/main.cpp: run_mm_extract, run_mm_inject", "mp2p_icp_map/src/metricmap.cpp: save_to_file, load_from_file"]}
{"id": "C82", "title": "mm-filter, mm2txt and kitti2mm change only what they are asked to", "statement": "mm-filter writes the input map after all filters in order, or with one layer renamed and everything else equal; a failure writes no file and the input is not touched; mm2txt writes each selected layer to a file of its own; kitti2mm writes the scan under the layer name given, with id and label.", "quantifier": "all maps, pipelines, names and selections", "why_tests_cant": "every map and every name, and every failing step", "anchors": ["apps/mm-filter/main.cpp: run_mm_filter", "apps/mm2txt/main.cpp: run_mm2txt", "apps/kitti2mm/main.cpp: main"]}
{"id": "C83", "title": "rawlog-filter writes one frame per handled observation of the range", "statement": "rawlog-filter processes exactly the entries between --from and --to, in order; each entry handled by a generator gives one frame with the entry and all clouds of its filtered map, labelled out_<layer> with the entry's stamp; entries not handled give none; a failure keeps the frames before it.", "quantifier": "all data sets, ranges, generators and filters with state", "why_tests_cant": "every range and every sequence of handled and unhandled entries", "anchors": ["apps/rawlog-filter/main.cpp: run_mm_filter"]}
{"id": "C84", "title": "A configuration is accepted exactly when the documentation allows it, and sets exactly the options it names", "statement": "For every filter, generator, matcher, solver and quality evaluator, initialize(yaml) succeeds iff every mandatory option is given, every option given can be read as its documented type, and the documented conditions hold (at least one output layer, ranges of values); afterwards each option named has its value, every other one its former value (documented default for a new object), and nothing else has changed.", "quantifier": "all 29 classes plus the paired-ratio evaluator, all configurations, all former states of the object", "why_tests_cant": "every combination of present, absent and unreadable options in every class", "anchors": ["mp2p_icp_filters/src/Filter*.cpp: Parameters::load_from_yaml, initialize", "mp2p_icp/src/Matcher_*.cpp: initialize", "mp2p_icp/src/Solver*.cpp: initialize", "mp2p_icp/src/QualityEvaluator_*.cpp: initialize", "mp2p_icp_map/include/mp2p_icp/Parameterizable.h: DECLARE_PARAMETER_IN_REQ, DECLARE_PARAMETER_IN_OPT"]}
{"id": "C85", "title": "The 3D view of a map shows what was asked for, and leaves the map alone", "statement": "get_visualization() fails iff a visible plane is off its centroid, a layer named does not exist, or a cloud is to be coloured without a coordinate; otherwise the view has one grid per visible plane, one segment per visible line with its length, and the objects of exactly the layers asked for, with the sizes and colours asked for; the map is not changed.", "quantifier": "all maps, layers and rendering parameters", "why_tests_cant": "every combination of layers, classes of maps and parameters", "anchors": ["mp2p_icp_map/src/metricmap.cpp: metric_map_t::get_visualization, get_visualization_planes, get_visualization_lines, get_visualization_points, get_visualization_map_layer", "mp2p_icp_map/include/mp2p_icp/render_params.h"]}
{"id": "C86", "title": "The 3D view of pairings links each local point to its counterpart", "statement": "Pairings::get_visualization shows, for each kind that is visible, exactly one segment per pairing, from the local point moved by the pose to the global point, plane centroid or line base, plus one patch per plane and one segment per line; nothing for hidden kinds; line-line and plane-plane pairings are not shown.", "quantifier": "all pairings, poses and parameters", "why_tests_cant": "every set of pairings and every pose", "anchors": ["mp2p_icp/src/Pairings.cpp: Pairings::get_visualization"]}
{"id": "C87", "title": "The libpointmatcher wrapper returns the pose that registers the maps", "statement": "ICP_LibPointmatcher::align gives libpointmatcher the points of all clouds and voxel maps of the local map, moved by the initial guess, and those of the global map; if the library's answer registers the moved points with the global ones, the returned pose registers the local map with the global map; on a convergence error the initial guess is returned. Calls without the library, with maps of different numbers of layers, with an empty map or without settings end with an exception. Quality and covariance describe the registration found; the iteration count is the one the library reports (1 if none).", "quantifier": "all pairs of maps, initial guesses, settings, quality evaluators and answers of the library", "why_tests_cant": "the order of composition is invisible for guesses that commute with the correction (identity, pure translations), which are what tests use; the library is usually not built in", "anchors": ["mp2p_icp/src/ICP_LibPointmatcher.cpp: align, pointsToPM, initialize_derived", "mp2p_icp_map/src/metricmap.cpp: MapToPointsMap, size"]}
{"id": "C88", "title": "icp-run loads its inputs as documented and aligns them as configured", "statement": "icp-run takes an input `<file>.rawlog:<N>` as entry N of a rawlog (through the generators, default ones if there are none), a `.mm` file as a metric map, an `.icplog` file as one of the maps of a log, and any other file as text points; it filters both maps with the pipelines of the options or, if not given, of the configuration file, aligns them with the configured ICP from the given guess, and exits with 0 if and only if everything succeeded, otherwise 1.", "quantifier": "all command lines, configurations, files and ICP algorithms", "why_tests_cant": "every file name (also those with the extensions in the middle), every combination of options and configuration entries", "anchors": ["apps/icp-run/main.cpp: load_input_pc, pc_from_rawlog, runIcp, main"]}
{"id": "C89", "title": "load_plugin loads the first matching file of the search path, once", "statement": "load_plugin(name) loads the file itself if the name is absolute and otherwise the first match in the existing directories of the search path; it throws if there is no such file or the loader refuses it; afterwards the module is loaded, and loading it again changes nothing.", "quantifier": "all names, search paths, file systems and behaviours of the dynamic loader", "why_tests_cant": "every search path and history of loads", "anchors": ["mp2p_icp_map/src/load_plugin.cpp: load_plugin, internal_load_plugin, safe_add_to_list"]}
{"id": "C90", "title": "Small map utilities: sanity checks, text loading, layer access and the summary of a map", "statement": "pointcloud_sanity_check accepts exactly the clouds whose channels have the length of the cloud; load_xyz_file loads any existing file with points; point_layer returns the cloud of that name and throws for absent or other layers; MapToPointsMap converts clouds and voxel maps; contents_summary names identity, lines, planes, points and voxels of the map, or `empty`.", "quantifier": "all maps, layers and files", "why_tests_cant": "every map and combination of contents", "anchors": ["mp2p_icp_map/src/metricmap.cpp: contents_summary, point_layer, MapToPointsMap", "mp2p_icp_map/src/pointcloud_sanity_check.cpp", "mp2p_icp_map/src/load_xyz_file.cpp", "mp2p_icp_map/include/mp2p_icp/metricmap.h: MapToNN"]}
{"id": "C91", "title": "sm-cli: exit codes, outputs and the info report", "statement": "sm-cli runs the command named by its first argument; it exits with 0 exactly if the command was valid and computed its result, which is then in the output file; on failure nothing is written; `info` reports the number of keyframes, the bounding box of their positions, the time span of the observations and the number and class of observations per label.", "quantifier": "all command lines, maps and file systems", "why_tests_cant": "every combination of command, options, maps and failures", "anchors": ["apps/sm-cli/sm-cli-main.cpp", "apps/sm-cli/sm-cli-cut.cpp", "apps/sm-cli/sm-cli-join.cpp", "apps/sm-cli/sm-cli-trim.cpp", "apps/sm-cli/sm-cli-tf.cpp", "apps/sm-cli/sm-cli-level.cpp", "apps/sm-cli/sm-cli-info.cpp", "apps/sm-cli/sm-cli-export-kfs.cpp", "apps/sm-cli/sm-cli-export-rawlog.cpp"]}
{"id": "C92", "title": "sm2mm and mm-info as programs", "statement": "sm2mm reads the simplemap, loads the plugins and the pipeline it is given, builds the map from the selected keyframes and writes it to the output; it exits with 0 exactly if all of this succeeded, and otherwise touches no file; what it wrote is what later tools load. mm-info prints the summary of the map in the file and fails if there is none.", "quantifier": "all command lines, simplemaps, pipelines and file systems", "why_tests_cant": "every combination of options, of readable and unreadable files and of failures", "anchors": ["apps/sm2mm/main.cpp: run_sm_to_mm, main", "apps/mm-info/main.cpp: run_mm_info, main", "mp2p_icp_filters/src/sm2mm.cpp: simplemap_to_metricmap"]}
{"id": "C93", "title": "Exact registration is found, from any guess close enough", "statement": "If the local points, moved by some rigid motion T, are all points of the global map, and the initial guess is close enough to T that each local point, placed by the guess, is nearer to its true place than to any other map point and within the matcher's threshold, then ICP::align with the distance-threshold matcher, the Horn solver and the paired-ratio quality returns exactly T with scale 1 and quality 1, with every local point paired with its true place, after at most two iterations, and reports that it stalled (converged). With one or two local points it instead returns the identity pose, reason SolverError, and still quality 1. The same holds with the OLAE solver if the quaternion of the rotation of T has a unique component of largest absolute value, or a z component that is not zero.", "quantifier": "all point clouds, maps, rigid motions T, guesses close enough to T, thresholds, ICP parameters with at least one iteration and positive step limits", "why_tests_cant": "A test registers a few clouds with noise tolerances; the claim is for all clouds and all guesses in the basin, and is exact.", "anchors": ["mp2p_icp/src/ICP.cpp:ICP::align", "mp2p_icp/src/Matcher_Points_DistanceThreshold.cpp", "mp2p_icp/src/Solver_Horn.cpp", "mp2p_icp/src/optimal_tf_horn.cpp", "mp2p_icp/src/QualityEvaluator_PairedRatio.cpp", "mp2p_icp/src/Solver_OLAE.cpp", "mp2p_icp/src/optimal_tf_olae.cpp"]}
{"id": "C94", "title": "No iteration makes the fit worse", "statement": "In an ICP::align run with the distance-threshold matcher (several local points may share a map point), and the Horn solver, the pose found at each iteration does not fit the map worse than the pose the iteration started from, where the misfit of a pose is the sum over the local points of the squared distance to the nearest map point, truncated at the square of the threshold; so the final pose does not fit the map worse than the initial guess, and all poses are rigid motions.", "quantifier": "all clouds, maps, initial guesses, thresholds and parameters; all iterations of the run", "why_tests_cant": "Monotonicity is a statement on all histories of the loop; a test sees a few runs.", "anchors": ["mp2p_icp/src/ICP.cpp:ICP::align", "mp2p_icp/src/Matcher_Points_DistanceThreshold.cpp", "mp2p_icp/src/optimal_tf_horn.cpp"]}
{"id": "C95", "title": "The log viewer shows the selected record", "statement": "After any sequence of actions in icp-log-viewer (record slider, back/next buttons, play mode, keys, iteration slider, check boxes, manual changes) on logs that have both maps and the layers of the first one: the window shows the record nearest to the record slider, with the checked layers of that record's own maps, the local map at the pose of the logged iteration nearest to the iteration slider (without logged iterations: at the initial guess or the result, as the box says), and the pairings of that same choice; no action fails unless the slider is off its range; and at most one log is in memory, whatever the files and the exceptions.", "quantifier": "all log lists with the layers of the first, all histories of actions, all slider values; for the memory bound also all logs and exceptions", "why_tests_cant": "The view depends on static variables, cached renderings and sliders set by earlier actions: only an invariant over all histories excludes a stale view.", "anchors": ["apps/icp-log-viewer/main.cpp:rebuild_3d_view", "apps/icp-log-viewer/main.cpp:DelayedLoadLog", "apps/icp-log-viewer/main.cpp:main_show_gui"]}
{"id": "C96", "title": "Navigation, initial guess and manual changes in the log viewer", "statement": "In icp-log-viewer the back and next buttons, the keys and the play mode visit the neighbouring records one by one and stop at the ends; \"Show at INITIAL GUESS pose\" shows the initial guess; a manual change of the solution is shown in the view and kept; and a record that cannot be shown is never shown with the maps of another one.", "quantifier": "all logs, histories and slider positions", "why_tests_cant": "Fails only for particular histories: halves of the slider, logs with details, layers missing in a later log.", "anchors": ["apps/icp-log-viewer/main.cpp:processAutoPlay", "apps/icp-log-viewer/main.cpp:rebuild_3d_view", "apps/icp-log-viewer/main.cpp:main_show_gui"]}
{"id": "C97", "title": "mm-viewer shows the map and options it says", "statement": "After starting mm-viewer with a map file, and after any sequence of clicks, slider moves, camera moves and map loads, the window shows exactly the layers of the loaded map whose boxes are checked, with the point size, colours and voxel options of the widgets, at the georeferenced pose if asked for and available, under the name of the loaded file; the trajectory has one segment per pair of consecutive positions; 'fit view' centres the box of the clouds; exporting writes the marked layers.", "quantifier": "all maps, georeferences, trajectories, configuration files, loaded files (missing, broken, good) and all finite histories of window events", "why_tests_cant": "The program is interactive and caches the rendering between events: a test plays one history of events, the property is about all of them.", "anchors": ["apps/mm-viewer/main.cpp: loadMapFile, rebuildLayerCheckboxes, rebuild_3d_view, onSaveLayers, main_show_gui", "mp2p_icp_map/include/mp2p_icp/render_params.h: operator==", "mp2p_icp_map/src/metricmap.cpp: get_visualization"]}
{"id": "C98", "title": "mm-viewer: camera keys, camera path and saved settings", "statement": "The arrow keys turn the camera about its own position and the other keys slide it horizontally ahead, back, left and right; a camera recorded as a key frame is shown again as recorded; playing a camera path shows its poses at times increasing by one frame period from the first key frame to the last one and then stops; the options, slider values and camera of a session are those of the next one.", "quantifier": "all camera states, key frames, frame rates, interpolation functions (with the value at key frames as contract), sessions and configuration files", "why_tests_cant": "The path of the camera depends on real-valued times and an unbounded number of frames; the saved settings on every widget.", "anchors": ["apps/mm-viewer/main.cpp: onKeyboardAction, processCameraTravelling, camTravellingStop, main_show_gui (save_UI_state_to_user_config, load_UI_state_from_user_config)"]}
{"id": "C99", "title": "Normalised intensities in floating point", "statement": "In machine arithmetic (rounding, overflow, not-a-number), normalising intensities always gives numbers from 0 to 1 or not-a-number and changes nothing else. For a cloud with finite intensities normalised to its own range, the order of the intensities is kept, the smallest gives exactly 0, and a result that is not a number occurs exactly if the width of the range or its inverse overflows; the same order and range hold with the remembered range. In single precision, with a width from 2^-126 to 2^125, each result is within 12*2^-24 of the exact one; the largest need not give exactly 1. An intensity that is not a number spoils the whole cloud (and, with memory, all later clouds) if it is the first one, and nothing but itself otherwise.", "quantifier": "all clouds with any floating point intensities, all options and memories, every IEEE-like rounding (order, sign and range), single precision (accuracy)", "why_tests_cant": "Rounding, overflow and NaN behaviour depend on all pairs of values; a test tries a few.", "anchors": ["mp2p_icp_filters/src/FilterNormalizeIntensity.cpp: FilterNormalizeIntensity::filter"]}
{"id": "C100", "title": "Adjusted time stamps in floating point", "statement": "In machine arithmetic, the shifting methods take one and the same number from every finite stamp and add it to the reference time: no stamp becomes not-a-number and no two change order; with EarliestIsZero without offset the first stamp is exactly 0, none is negative, and nothing at all is rounded if the stamps are multiples of a unit and span less than 2^24 units; with single precision stamps within 2 s of zero and a double precision reference below 2^31 s no point moves in absolute time by more than a microsecond. Normalize keeps the order and, unless the width or its inverse overflows, makes the first stamp exactly the offset. A stamp that is not a number spoils all if it is the first one and only itself otherwise; stamps whose sum overflows are all lost with MiddleIsZero.", "quantifier": "all clouds with any floating point stamps, all methods, offsets and reference times, every IEEE-like rounding; single/double precision for the error bounds", "why_tests_cant": "Rounding of absolute times depends on all values; NaN and overflow are never in test data.", "anchors": ["mp2p_icp_filters/src/FilterAdjustTimestamps.cpp: FilterAdjustTimestamps::filter"]}
{"id": "C101", "title": "Quality, paired ratio and robust kernels in floating point", "statement": "In machine arithmetic: if every evaluator answers with a number from 0 to 1, the quality is a number from 0 to 1 unless the sum of the weights overflows; exactly 1 if all answer 1; with one evaluator of weight 1 exactly its answer; and a registration that no evaluator finds worse does not get a smaller quality. The paired ratio is a number from 0 to 1, exactly 1 if all are paired, 0 without potential pairings, and not decreasing in the number of pairings. A robust kernel whose squared parameter neither overflows nor underflows gives exactly 1 for no error, numbers from 0 to 1 otherwise, and no larger factor for a larger error; it may be 0 for huge errors, and not-a-number for a tiny parameter.", "quantifier": "all evaluator lists, finite weights, answers, pairings, kernel parameters and errors, every IEEE-like rounding", "why_tests_cant": "Only a proof excludes that some combination of roundings gives 1.0000000000000002 or turns an order around.", "anchors": ["mp2p_icp/src/ICP.cpp: ICP::evaluate_quality", "mp2p_icp/src/QualityEvaluator_PairedRatio.cpp: evaluate", "mp2p_icp/include/mp2p_icp/robust_kernels.h: create_robust_kernel"]}
{"id": "C102", "title": "Voxel indices in floating point", "statement": "In machine arithmetic, the voxel index of a coordinate is not decreasing along the axis and symmetric about the origin; coordinates that are not finite, and a zero resolution, have no index (undefined behaviour); in single precision every coordinate up to 2^31-128 resolutions has one and none of 2^31 or more; up to 2^24-1 resolutions it is the exact index, or one more for coordinates within one rounding of the far side of their voxel (which does happen); two coordinates with the same index are less than a voxel side apart (two for index 0), but for the rounding of the quotients.", "quantifier": "all coordinates, resolutions and roundings", "why_tests_cant": "Which points fall into which voxel depends on the rounding of each quotient; tests use round numbers.", "anchors": ["mp2p_icp_filters/include/mp2p_icp_filters/PointCloudToVoxelGrid.h: coord2idx", "mp2p_icp_filters/include/mp2p_icp_filters/PointCloudToVoxelGridSingle.h: coord2idx"]}
{"id": "C103", "title": "Box, range and intensity filters in floating point", "statement": "In machine arithmetic, each point goes to exactly one of the outputs, with all its channels, whatever its coordinates and intensity are (not-a-number and infinite values included): the box filter compares exactly, a point with a coordinate that is not a number is outside every box and every range, an intensity that is not a number is 'mid'; the range filter in single precision can misplace a point within 2^60 of the centre only if its squared distance is within 8*2^-24 (relative) plus 2^-147 of a squared bound; beyond, squares overflow and far points can be taken for inside.", "quantifier": "all clouds, filter options and floating point values, single precision for the margin", "why_tests_cant": "Points near the bound and special values are infinitely many and rarely tested.", "anchors": ["mp2p_icp_filters/src/FilterBoundingBox.cpp: FilterBoundingBox::filter", "mp2p_icp_filters/src/FilterByRange.cpp: FilterByRange::filter", "mp2p_icp_filters/src/FilterByIntensity.cpp: FilterByIntensity::filter"]}
{"id": "C104", "title": "An ICP run in machine arithmetic is as documented, and numbers which are not numbers never end it", "statement": "Whatever type of numbers align() computes with (in particular IEEE float or double with rounding, overflow, infinities and NaN): the iteration count is at most the limit, equal to it exactly when the reason is MaxIterations, every other reason is justified by the last iteration, and result, log and reported quality are those of the last iteration. With step sizes that are numbers and not negative, Stalled means that the step was below both thresholds with respect to the last pose or the one before. A step which is NaN is never Stalled, a quality or threshold which is NaN never fails a checkpoint, one evaluator answering NaN makes the overall quality NaN; so a run whose poses become NaN goes on to the iteration limit and can return a NaN pose with quality 1.", "quantifier": "all number types with a comparison, in particular all IEEE-like arithmetics; all matchers, solvers, evaluators, hooks, parameters and initial poses", "why_tests_cant": "Comparisons with NaN, rounding and the histories of iterations cannot be enumerated; tests use benign numbers.", "anchors": ["mp2p_icp/src/ICP.cpp: ICP::align, ICP::evaluate_quality"]}
{"id": "C105", "title": "Point matchers in machine arithmetic", "statement": "In the arithmetic of the machine (float/double with rounding, overflow and NaN): a pairing made by the distance-threshold, inlier-ratio, point-to-plane or adaptive matcher is always of a local point with a neighbour the search reported for it, and its (squared) distance is below the limit as long as limit and distance are numbers; rounding can change the outcome only for distances within a few parts in 2^24 of the documented limit; candidates are kept in order of error; no access out of bounds; the paired ratio of the result is in [0,1]; no point is used twice and layers and weights are handled as with exact numbers.", "quantifier": "every IEEE-like format and rounding (margins: float), every cloud including points with NaN, infinite or overflowing coordinates, every pose, search result, flag state and option", "why_tests_cant": "overflow and NaN make comparisons fail in ways that depend on which side of the comparison they are on; a test uses a few ordinary coordinates", "anchors": ["mp2p_icp/src/Matcher_Points_DistanceThreshold.cpp:48-269", "mp2p_icp/src/Matcher_Points_InlierRatio.cpp:41-143", "mp2p_icp/src/Matcher_Point2Plane.cpp:41-114", "mp2p_icp/src/Matcher_Adaptive.cpp:59-314", "mp2p_icp/src/Matcher_Points_Base.cpp:30-249"]}
{"id": "C106", "title": "Voxel decimation in floating point", "statement": "In machine arithmetic, whatever the rounding: if every point to decimate has a voxel as computed, FilterDecimateVoxels gives exactly one representative per occupied voxel (as computed): the first point, a point of the voxel, a point of the voxel such that no other is nearer to the computed average (as computed, even if that average is not finite), or the computed average; a single point with a coordinate that is not finite, or whose index does not fit 32 bits, makes the whole filter undefined. In single precision the computed average is within (n+2)M/2^23 of the true one for n < 2^23 points with coordinates up to M; it may be outside of the voxel, infinite, or far from all the points when they are very many.", "quantifier": "all clouds, resolutions, methods, roundings and orders of visit", "why_tests_cant": "Rounding, overflow and the number of points range over infinite sets; no finite set of clouds shows the bound.", "anchors": ["mp2p_icp_filters/src/FilterDecimateVoxels.cpp", "mp2p_icp_filters/src/PointCloudToVoxelGrid.cpp", "mp2p_icp_filters/src/PointCloudToVoxelGridSingle.cpp", "mp2p_icp_filters/include/mp2p_icp_filters/PointCloudToVoxelGrid.h"]}
{"id": "C107", "title": "Decimating twice is decimating once", "statement": "Decimating the output of FilterDecimateVoxels again, with the same parameters, gives the same points, in some order.", "quantifier": "all input clouds, resolutions, methods, flattening heights and minimum counts, orders of visit, draws and roundings", "why_tests_cant": "Idempotence ranges over all clouds.", "anchors": ["mp2p_icp_filters/src/FilterDecimateVoxels.cpp"]}
{"id": "C108", "title": "The voxel size of adaptive decimation", "statement": "FilterDecimateAdaptive takes as voxel size the diagonal of the cloud's bounding box (each side at least the assumed minimum) divided by maximum_voxel_count_per_dimension: it does not depend on where the cloud is or on the order of its points, along each axis the voxels of the cloud's points span at most that number plus one (the promised maximum itself can be exceeded by one), all voxel indices fit 32 bits if no coordinate reaches 2^31 times the assumed minimum by the maximum count, or if the bounding box contains the origin, and then a call with at least one point and every voxel usable is well defined. In machine arithmetic the results of C51 hold with the voxels as computed; a coordinate that is not a finite number makes the call undefined; with a maximum count of 0, or a diagonal that overflows, the size is infinite and all finite points share one voxel. Without an assumed minimum a cloud whose points coincide is undefined behaviour.", "quantifier": "all clouds, all parameters, all vector lengths no shorter than the components, all floating point formats", "why_tests_cant": "Ranges over all clouds; overflow and degenerate extents are not sampled by tests.", "anchors": ["mp2p_icp_filters/src/FilterDecimateAdaptive.cpp:FilterDecimateAdaptive::filter", "mp2p_icp_filters/include/mp2p_icp_filters/FilterDecimateAdaptive.h"]}
{"id": "C109", "title": "A registration depends neither on the frame of the map nor on the order of the points", "statement": "Do a registration twice: the second time with the map (and the initial guess) moved by any rigid motion and its points stored in any other order, and the local points in any other order. Both end after the same number of iterations, for the same reason, with the same quality, scale and pairs and the same log, and the second pose is the first one moved by the same motion.", "quantifier": "all maps, local clouds, orders, rigid motions, guesses, parameters and numbers of iterations", "why_tests_cant": "A test compares two frames and two orders; the statement is about all of them and about every iteration of the run.", "anchors": ["mp2p_icp/src/ICP.cpp: ICP::align", "mp2p_icp/src/Matcher_Points_DistanceThreshold.cpp: implMatchOneLayer", "mp2p_icp/src/Solver_Horn.cpp: impl_optimal_pose", "mp2p_icp/src/optimal_tf_horn.cpp: optimal_tf_horn"]}
{"id": "C110", "title": "Gauss-Newton does not depend on the frame of the map, nor on the order of the pairings", "statement": "Move everything on the side of the map (points, lines and planes of the pairings), the initial guess and the prior by any rigid motion: `optimal_tf_gauss_newton` / `Solver_GaussNewton` then goes through the same linear systems and the same number of inner iterations, ends in the same way, and the pose it returns is the first one moved by that motion. Nor does the order of the pairings matter (when no weights by position are given), nor how a parallel build splits its sums. So a registration with the distance-threshold matcher and this solver gives the same number of iterations, reason, quality, pairs and (moved) pose in every frame and for every order of the points.", "quantifier": "every rigid motion, set of pairings, order, robust kernel, weights, guess, number of iterations, build, schedule and map", "why_tests_cant": "tests use one frame, usually the identity guess; errors such as a transposed rotation are invisible there", "anchors": ["mp2p_icp/src/optimal_tf_gauss_newton.cpp: optimal_tf_gauss_newton", "mp2p_icp/src/errorTerms.cpp: error_point2point, error_point2line, error_point2plane, error_plane2plane, error_line2line", "mp2p_icp/src/Solver_GaussNewton.cpp: impl_optimal_pose", "mp2p_icp/src/ICP.cpp: align"]}
{"id": "C111", "title": "Gauss-Newton takes away an error of pure translation in one step", "statement": "If the pairings given to the Gauss-Newton solver agree exactly with some rigid motion T and determine it (no small motion of the body keeps every paired point on its point, line or plane and every paired normal where it is), and the initial guess has the rotation of T, then the solver returns exactly T, however far away the guess is, after at most one step, with any positive weights, any robust kernel and in both builds (serial, TBB with any split of the sums). Hence a whole registration whose local points are all in the map, started with the right rotation and close enough that the matcher finds the true neighbours, returns exactly T with quality 1.", "quantifier": "all numbers of point-to-point, point-to-line, point-to-plane and plane-to-plane pairings, all coordinates, rotations, translations of the guess, positive weights, tables of weights, kernels, kernel parameters, cost limits, schedules of the parallel sums; all maps and local clouds for the registration", "why_tests_cant": "A test registers a few clouds from a few guesses and checks that the error is small; that one step is exact for every configuration, however large the error and whatever the weights, needs algebra.", "anchors": ["mp2p_icp/src/optimal_tf_gauss_newton.cpp: optimal_tf_gauss_newton", "mp2p_icp/src/Solver_GaussNewton.cpp: impl_optimal_pose", "mp2p_icp/src/errorTerms.cpp: error_point2point, error_point2line, error_point2plane, error_plane2plane", "mp2p_icp/src/ICP.cpp: align"]}
{"id": "C112", "title": "Registration with planes is exact", "statement": "ICP with the point-to-plane matcher and the Gauss-Newton solver: if the guess has the rotation of the true motion T, and every local point, both where the guess puts it and where T puts it, is answered by the map with a plane within the threshold on which its true place lies, and these planes determine the motion (no small motion keeps all the points on their planes), then align() returns exactly T with quality 1 and all points paired with planes through their true places, stalling after at most two iterations, however the guess is displaced along the planes.", "quantifier": "all maps that answer plane searches, all local clouds, motions, displacements of the guess, thresholds, positive weights, robust kernels, builds and splits of the parallel sums", "why_tests_cant": "Tests register a few synthetic scenes with a tolerance; exactness for every configuration that determines the motion needs algebra over all of them.", "anchors": ["mp2p_icp/src/Matcher_Point2Plane.cpp: implMatchOneLayer", "mp2p_icp/src/Matcher_Points_Base.cpp: impl_match", "mp2p_icp/src/optimal_tf_gauss_newton.cpp: optimal_tf_gauss_newton", "mp2p_icp/src/Solver_GaussNewton.cpp: impl_optimal_pose", "mp2p_icp/src/ICP.cpp: align"]}
{"id": "C113", "title": "The covariance returned is a covariance", "statement": "mp2p_icp::covariance() returns the inverse of the information matrix of the pairings at the pose (sum over all scalar errors of the products of their central differences). When no motion of the body leaves all the errors unchanged and the pitch is not a quarter turn, the result is symmetric and positive definite; it exists exactly then. Adding pairings never increases the variance in any direction. It does not depend on the translation, nor on the global points (how good the fit is). At a pitch of +-90 degrees the matrix to invert is singular whatever the pairings; steps that are not positive throw.", "quantifier": "all pairings (any number and kinds, line-to-line not together with planes), poses, steps, and contents of the uninitialised entries", "why_tests_cant": "holds for every set of pairings and pose; a test samples a few, and the entry never initialised (z) is invisible in a test", "anchors": ["mp2p_icp/src/covariance.cpp: covariance", "mp2p_icp/include/mp2p_icp/covariance.h: CovarianceParameters", "mp2p_icp/src/errorTerms.cpp"]}
{"id": "C114", "title": "Gauss-Newton goes downhill on the robust cost", "statement": "Each loss named by a robust kernel (none, Geman-McClure, Cauchy) defines a cost of a pose: the weighted sum of the losses of the squared errors of all pairings. The step that optimal_tf_gauss_newton takes from a pose is downhill on that cost: the cost starts to decrease along it, unless the pose is stationary; and it does not move from a pose which it holds exactly when that pose is stationary.", "quantifier": "all pairings of points with points, lines and planes and of planes, all weights, the three kernels, all poses of an optimization and all schedules of the parallel build", "why_tests_cant": "a test compares the result with a known motion; that each step is along the gradient of the robust cost, that the weights are the derivative of the stated losses, and that no full step is checked against the cost, are facts about all pairings and poses", "anchors": ["mp2p_icp/src/optimal_tf_gauss_newton.cpp: optimal_tf_gauss_newton", "mp2p_icp/include/mp2p_icp/robust_kernels.h: create_robust_kernel", "mp2p_icp/src/errorTerms.cpp: error_point2point, error_point2line, error_point2plane, error_plane2plane"]}
{"id": "C115", "title": "With the right rotation, Gauss-Newton reaches the least-squares position in one step and stays there", "statement": "If no robust kernel is used and the guess has the rotation of a pose where the weighted squared errors of the pairings are balanced (their gradient is zero; the errors themselves need not be), then the second iteration of optimal_tf_gauss_newton, and all later ones, are at that pose, and it is returned, whatever the number of iterations.", "quantifier": "all pairings of points with points, lines and planes and of planes that hold the body, all weights, translations of the guess, numbers of iterations, and schedules of the parallel build", "why_tests_cant": "a test sees one set of pairings with one number of iterations and a tolerance; that the result does not depend on the number of iterations, and what it depends on in the build where this fails, is about all of them", "anchors": ["mp2p_icp/src/optimal_tf_gauss_newton.cpp: optimal_tf_gauss_newton", "mp2p_icp/src/Solver_GaussNewton.cpp: impl_optimal_pose"]}
{"id": "C116", "title": "Gauss-Newton converges quadratically near an exact alignment", "statement": "When some pose aligns the pairings exactly and they hold the body, every rigid guess within some distance of that pose, turned as well as shifted, is good enough for the parallel build: each inner step squares the distance to the true pose up to a constant factor, n steps divide it by 2^(2^n-1) at least, and the results tend to the true pose, with any of the three kernels.", "quantifier": "All pairings of points with points, lines and planes, and of planes, that are exactly aligned; all positive weights; the three kernels; all rigid guesses within the distance; all numbers of steps; all splits of the parallel sums; every exponential map that agrees with its linearisation to second order.", "why_tests_cant": "Speed of convergence concerns all guesses of a neighbourhood and arbitrarily many steps; a test sees a few runs, whose digits end at the rounding error after three or four steps.", "anchors": ["mp2p_icp/src/optimal_tf_gauss_newton.cpp: optimal_tf_gauss_newton", "mp2p_icp/src/errorTerms.cpp"]}
{"id": "C117", "title": "Registration with Gauss-Newton homes in from any guess near the true motion", "statement": "A registration (ICP::align) with the distance matcher and Solver_GaussNewton, on points that all have their true place in the map and do not lie on one line, started from any rigid guess within some positive distance of the true motion, turned or not: every iteration pairs every point with its true place and at least squares the distance to the true motion up to a constant factor, so k iterations divide it by 2^(2^k - 1) or more; the quality reported is 1, and the run ends as stalled, within a number of iterations that is the same for all those guesses, if the maximum allows that many.", "quantifier": "all point clouds not on a line, maps containing their places, rigid motions and near-by rigid guesses, kernels, positive weights, splits of the TBB sums, numbers of inner iterations (one, without TBB), maxima of iterations", "why_tests_cant": "A statement on a whole neighbourhood of guesses and on the speed of convergence; a test runs a few guesses and checks a tolerance.", "anchors": ["mp2p_icp/src/ICP.cpp: ICP::align", "mp2p_icp/src/Solver_GaussNewton.cpp: impl_optimal_pose", "mp2p_icp/src/optimal_tf_gauss_newton.cpp: optimal_tf_gauss_newton", "mp2p_icp/src/Matcher_Points_DistanceThreshold.cpp: implMatchOneLayer"]}
{"id": "C118", "title": "Registration of maps that overlap only in part", "statement": "Some of the local points, moved by a rigid motion T, are in the global map; the others are there farther than the matcher's threshold from every map point. From a guess at which the points of the first kind are nearest to their true places and within the threshold, and those of the second kind are not within it of any map point, a registration with the distance matcher and the Horn solver returns exactly T after at most two iterations, with exactly the points of the first kind paired, each with its true place; the reported quality is exactly their share of the local points, and the run ends as stalled. With Gauss-Newton the same pairings and quality result from every rigid guess within some positive distance of T, and every iteration at least squares the distance to T up to a constant factor.", "quantifier": "all local clouds, maps, rigid motions, shares of points without place, guesses; kernels, weights, splits of the TBB sums, inner iterations, maxima of iterations for Gauss-Newton", "why_tests_cant": "Exactness, and the exact meaning of the reported quality, for every partial overlap and guess; a test runs one pair of maps.", "anchors": ["mp2p_icp/src/ICP.cpp: ICP::align", "mp2p_icp/src/Matcher_Points_DistanceThreshold.cpp: implMatchOneLayer", "mp2p_icp/src/Solver_Horn.cpp: impl_optimal_pose", "mp2p_icp/src/Solver_GaussNewton.cpp: impl_optimal_pose", "mp2p_icp/src/QualityEvaluator_PairedRatio.cpp: evaluate"]}
{"id": "C119", "title": "Registration with planes homes in from any guess near the true motion", "statement": "A registration (ICP::align) with the point-to-plane matcher and Solver_GaussNewton: where, from all poses near the true motion T, the map answers each local point with the same plane, on which the true place of the point lies, and these planes hold the body. Started from any rigid guess within some positive distance of T, turned or not, every iteration pairs all the points with these planes and at least squares the distance to T up to a constant factor; the quality reported is 1, and the run ends as stalled, within a number of iterations that is the same for all those guesses, if the maximum allows that many.", "quantifier": "all point clouds, maps whose answers are steady around T, rigid motions and near-by rigid guesses, kernels, positive weights, splits of the TBB sums, numbers of inner iterations (one, without TBB), maxima of iterations", "why_tests_cant": "A statement on a whole neighbourhood of guesses and on the speed of convergence; a test runs a few guesses and checks a tolerance.", "anchors": ["mp2p_icp/src/ICP.cpp: ICP::align", "mp2p_icp/src/Matcher_Point2Plane.cpp: implMatchOneLayer", "mp2p_icp/src/Solver_GaussNewton.cpp: impl_optimal_pose", "mp2p_icp/src/optimal_tf_gauss_newton.cpp: optimal_tf_gauss_newton"]}
{"id": "C120", "title": "A prior pulls the pose as its information says", "statement": "optimal_tf_gauss_newton and Solver_GaussNewton with a prior (a pose and an information matrix): a prior without information changes nothing, in any build or schedule. In the build with TBB every step is downhill on the cost of pairings and prior together, unless the pose is stationary for it, and with information on every coordinate the linear system has exactly one solution whatever the pairings, even without any, and the step is null exactly at the stationary poses. If the prior is at a pose which aligns all pairings exactly, and together they hold the body, then from every guess near enough each step at least squares the distance to it, up to a constant factor. But if the pairings leave no error at the guess (or there are none), the guess is returned whatever the prior says.", "quantifier": "all pairings (without pairs of lines), priors, information matrices (symmetric, non-negative), kernels, weights, guesses, splits of the TBB sums, numbers of iterations", "why_tests_cant": "A statement on the gradient of a cost over all poses, on all information matrices (also singular ones) and on a whole neighbourhood of guesses; a test has a few priors with two diagonal patterns.", "anchors": ["mp2p_icp/src/optimal_tf_gauss_newton.cpp: optimal_tf_gauss_newton (prior term)", "mp2p_icp/src/Solver_GaussNewton.cpp: impl_optimal_pose", "mp2p_icp/src/ICP.cpp: ICP::align", "mp2p_icp/include/mp2p_icp/optimal_tf_gauss_newton.h: OptimalTF_GN_Parameters::prior"]}
{"id": "C121", "title": "A registration of points comes to rest by itself", "statement": "A registration of points by nearest neighbours (no angular threshold) with the Horn solver: every iteration which does not end the run brings the points strictly nearer to the map, as measured by the sum of squared distances truncated at the matching threshold. So the run never goes round in circles: while it goes on it never makes the same pairs twice, its number of iterations is at most one more than the number of ways to pair each local point with a map point or none, and if the limit on iterations is larger than that it never is the reason to end: without quality checkpoints the run ends stalled, or because there are no pairs, or too few.", "quantifier": "all maps, local points, initial guesses (rigid), thresholds, positive step limits, limits on iterations, quality checkpoints; any exact nearest-neighbour search; runs in which no pair is within the tolerance of the centroids, and each time only one rigid motion fits the pairs best", "why_tests_cant": "A statement on whole runs of unbounded length: that none of them can cycle; a test sees that some runs end.", "anchors": ["mp2p_icp/src/ICP.cpp: ICP::align", "mp2p_icp/src/Matcher_Points_DistanceThreshold.cpp: implMatchOneLayer", "mp2p_icp/src/optimal_tf_horn.cpp: optimal_tf_horn", "mp2p_icp/src/Solver_Horn.cpp: impl_optimal_pose"]}
{"id": "C122", "title": "The iteration limit only cuts a registration short, and one that was cut short can be continued", "statement": "Raising the limit on iterations of a registration changes nothing of what it does up to the old limit: the run with the smaller limit is the beginning of the run with the larger one, and if it did not end because of the limit it is the same run, with the same result. If nothing in the pipeline depends on the iteration number or on what was before (no windows of iterations, no step thresholds, no hook, no checkpoints; e.g. nearest neighbours with Horn's method and the ratio of pairings as quality), a registration that hit its limit can be continued by calling again with the pose it returned: the two calls do the same iterations and give the same pose, pairings, quality and reason as one call with the sum of the limits, unless the one call stalls exactly at the first iteration after the first limit (only it can see that it came back to the pose before the last).", "quantifier": "all pipelines, initial guesses, limits, numbers of iterations, outcomes of the run", "why_tests_cant": "Relates pairs and triples of runs of any length, for all pipelines; tests run with one limit at a time.", "anchors": ["mp2p_icp/src/ICP.cpp: ICP::align", "mp2p_icp/src/ICP.cpp: ICP::run_solvers", "mp2p_icp/src/Matcher.cpp: run_matchers"]}
{"id": "C123", "title": "Whole registrations with a prior", "statement": "With a prior centred at the true motion, a registration by nearest neighbours and Gauss-Newton homes in on it from every guess near enough, also when the points alone do not determine the pose (one point is enough if the prior tells all coordinates): all points are paired with their true places, each iteration at least squares the distance to the true motion, quality 1 is reported, and the run ends as stalled within a number of iterations common to all those guesses, or with the maximum. But whatever the prior, a run that starts at a pose that brings all points onto map points returns that pose at once if the limit on the cost is the default, zero: the prior is not looked at.", "quantifier": "all maps, point sets, rigid guesses near the truth, information matrices, schedules, weights, kernels, numbers of iterations and inner steps; for the negative part all builds and all priors", "why_tests_cant": "A limit statement over a neighbourhood of guesses and all numbers of iterations; tests run a few guesses, and with points that determine the pose.", "anchors": ["mp2p_icp/src/ICP.cpp: ICP::align", "mp2p_icp/src/Solver_GaussNewton.cpp: impl_optimal_pose", "mp2p_icp/src/optimal_tf_gauss_newton.cpp: optimal_tf_gauss_newton", "mp2p_icp/src/Matcher_Points_DistanceThreshold.cpp: implMatchOneLayer"]}
{"id": "C124", "title": "Horn's solution for the same pairs seen otherwise", "statement": "For point pairs of equal weight which one rigid motion only fits best, and none of which lies within the solver's fixed distance (0.0001) of a centroid, Horn's solver answers consistently: with local and map points swapped it gives the inverse motion; with the local points moved by any rigid motion A and the map points by any B it gives B T A^-1; in another unit of length it gives the same rotation and the translation in that unit (if the fixed distance still excludes no pair); each pair given k times and in any order changes nothing. In a unit so large that all pairs lie within that distance, it still succeeds, but with one and the same rotation whatever the pairs.", "quantifier": "all numbers of pairs from three, all points, rigid motions, scales, repetitions, orders, point weights", "why_tests_cant": "Relates the answers of one solver on infinitely many related inputs; tests compare an answer with the truth on a few noise-free inputs, where all of this is trivial.", "anchors": ["mp2p_icp/src/optimal_tf_horn.cpp: optimal_tf_horn, se3_l2_internal", "mp2p_icp/src/visit_correspondences.h: visit_correspondences"]}
{"id": "C125", "title": "A registration does not depend on the unit of length", "statement": "A registration of points (nearest neighbours within a distance, Horn's solver) done again in another unit of length - all points of map and cloud, the translation of the guess, the distance threshold and the least step of the translation multiplied by the same positive number - ends normally too, after the same number of iterations, for the same reason (also if the solver fails), with the same quality, scale, pairs and log, the same rotation and the translation in the new unit; provided that no nearest point was a tie, the best motion was unique, and no pair lay within the solver's fixed 0.0001 of a centroid in either unit.", "quantifier": "all maps and clouds, guesses, units, thresholds, parameters, numbers of iterations, quality checkpoints, with or without log", "why_tests_cant": "Compares whole runs on infinitely many pairs of inputs; tests run in one unit.", "anchors": ["mp2p_icp/src/ICP.cpp: ICP::align", "mp2p_icp/src/Matcher_Points_DistanceThreshold.cpp: implMatchOneLayer", "mp2p_icp/src/optimal_tf_horn.cpp: optimal_tf_horn", "mp2p_icp/src/visit_correspondences.h: visit_correspondences"]}
{"id": "C126", "title": "A registration does not depend on the frame in which the cloud is given", "statement": "A registration of points (nearest neighbours within a distance, Horn's solver) done again with the points of the cloud moved by a rigid motion A and the guess changed to match (init A^-1) ends normally too, after the same number of iterations, for the same reason, with the same quality, scale, pairs and log, and with the pose T A^-1, that puts the cloud at the same place; only if the solver failed both results are the identity, which is not the same place. Provided that the best motion was unique, that no pair lay within the solver's fixed 0.0001 of a centroid, and that pose differences tell the same in both frames: true for the library's if the two frames have the same origin, false in general.", "quantifier": "all maps and clouds, rigid motions, guesses, thresholds, parameters, numbers of iterations, with or without log", "why_tests_cant": "Compares whole runs on infinitely many pairs of inputs; tests use one sensor frame.", "anchors": ["mp2p_icp/src/ICP.cpp: ICP::align", "mp2p_icp/src/Matcher_Points_DistanceThreshold.cpp: implMatchOneLayer", "mp2p_icp/src/optimal_tf_horn.cpp: optimal_tf_horn", "mp2p_icp/src/visit_correspondences.h: visit_correspondences"]}
{"id": "C127", "title": "What is out of the matcher's reach does not matter", "statement": "A registration of points (nearest neighbours within a distance, Horn's solver) done again with another map that has the same points within the matcher's threshold of the cloud, at each pose at which it was matched - a larger map, a cropped one, one changed far away, one in another order or with repeated points - ends normally too, after the same number of iterations, for the same reason, with the same pose, scale, quality, pairs of points and log; provided that no nearest point within the threshold was a tie, the best motion was unique, and no pair lay within the solver's fixed 0.0001 of a centroid.", "quantifier": "all pairs of maps that agree within reach, clouds, guesses, thresholds, parameters, numbers of iterations, with or without log", "why_tests_cant": "Compares whole runs on infinitely many pairs of maps; tests use one map.", "anchors": ["mp2p_icp/src/ICP.cpp: ICP::align", "mp2p_icp/src/Matcher_Points_DistanceThreshold.cpp: implMatchOneLayer", "mp2p_icp/src/optimal_tf_horn.cpp: optimal_tf_horn"]}
