# Formal model of mp2p_icp in Lean 4 — design

## Conventions

* `lean/Verif/Model/*.lean` — the model, function by function; every definition cites file and lines in `/repo`.
* `lean/Verif/Spec/*.lean` — small independent specifications (what the English claim says), not using model helpers.
* `lean/Verif/Lemmas/*.lean` — helper lemmas.
* `lean/Verif/Props/*.lean` — the property theorems, with `example`s showing their hypotheses are met.
* An operation of the C++ code ends in `Outcome`: `ok v`, `throw` (C++ exception, MRPT assertion included) or `ub`
  (undefined behaviour: out-of-bounds access, dereference of `end()`, of an empty optional, of a null pointer).
* Floating point numbers are modelled by elements of an arbitrary linearly ordered field (or by ℝ where square roots,
  eigenvectors or limits appear), without rounding, overflow, NaN and infinities — except for C99–C108, where the arithmetic of the
  machine is modelled (`Model/Fp.lean`): numbers are rationals, infinities or not-a-number, every operation is rounded once by a function of
  which only monotonicity, idempotence, oddness and a largest number are assumed (`Arith`), and binary32 and binary64 with rounding to
  the nearest, ties to even, are proved to be instances. One zero, one NaN, no fused multiply-add, no extended precision.
  Examples of the other claims are evaluated over ℚ.
* Pure external components (nearest-neighbour index, eigen-solver, `regex`, YAML text parsing, expression evaluator, LM loops
  in MRPT) are parameters of the model; what is assumed about each is a hypothesis of the theorem which uses it.
* Where a property is false of the code, the negation is proved with a concrete witness, a `_partial` theorem says
  what does hold, and the disagreement is listed in "Findings".

## Shared helpers

Small functions of the model that occur in the statements too (truncation to a cell, channels of an inserted point, mean range
of a block, subset of local points, separators, ...) are characterised by themselves in `Props/Vocabulary.lean`, by what can be
observed of them, and those theorems are listed with the claims that use them: changing such a helper in the model breaks a
theorem of the claim even though the main statement, which mentions it, would follow the change. The list of such helpers was
obtained mechanically (constants of `Verif.Model` in the type of a claimed theorem, through the specification modules, that are
also reached from another such constant). `Props/FpVocabulary.lean` does the same for the machine arithmetic of C99–C108: which sums,
products and quotients are not numbers or infinite, and that all others are the exact result rounded.

## Trusted base

Lean 4.33 kernel; axioms `propext`, `Classical.choice`, `Quot.sound` only (theorem by theorem in `AXIOMS.md`); the reading of the C++ text (nothing was compiled or run).

## Plan per property

| Id | What is modelled | How it is proved |
|----|------------------|------------------|
| C01–C05 | `ICP::align` as a loop over an arbitrary environment (matchers, solvers, hook, quality as functions of the history) | induction on remaining iterations, loop invariant, ghost trace of iterations |
| C06 | `evaluate_quality` as a recursion over (weight, quality, hard discard) | induction; convexity inequality in an ordered field |
| C07 | `run_solvers` over list of state transformers | induction on list |
| C08 | log counter as a transition system, critical section atomic, threads interleaved arbitrarily | invariant over traces: ids issued are 0..n-1 |
| C09 | sequential substitution on strings (`List Char`) | negation by witness (label holding a placeholder); partial: labels without `$` |
| C10 | YAML sequence → list | induction |
| C11, C12 | `Pairings` record of five lists | monoid laws; move-overload negation by witness |
| C13 | `run_matchers` fold | induction; weights negation |
| C14, C15 | `Matcher::match`, `Solver::optimal_pose` gates | case analysis; trace induction |
| C16 | paired ratio + accounting invariant over matchers | induction over points |
| C17 | bit-field dense / sparse as data structure | refinement to a set under op sequences |
| C18, C19, C20 | `Matcher_Points_DistanceThreshold` serial loop with UB | loop invariants (nodup, threshold); UB witness and its general form |
| C21 | sorted multimap and cut | sortedness, permutation |
| C22 | `Matcher_Point2Plane`, `Matcher_Point2Line` | per-step invariant |
| C23 | `Matcher_Adaptive` | invariants; UB theorem |
| C24 | `Matcher_Points_Base::impl_match` | induction on layers |
| C25 | `pt2ln_pl_to_pt2pt` | list reasoning; negation |
| C26 | `eval_centroids_robust` | merge-loop invariant |
| C27 | `visit_correspondences` | cursor invariant; negation when outliers shift blocks |
| C28 | Horn's N matrix, centroids | real algebra: cost = const − 2 qᵀNq; Rayleigh bound as eigen-solver contract |
| C29 | Gibbs-vector linear system | algebraic identity (Cayley) |
| C30 | kernels | ordered-field inequalities |
| C31, C32 | error terms with Jacobians | exact algebra (affine expansion, no remainder) |
| C33, C34 | GN accumulate loop, serial and parallel variants | fold/partition lemmas; negation for the serial build |
| C35 | row layout | arithmetic; negation |
| C36–C38, C64 | byte-level archive: readers consume a list of bytes; every reader and writer of the library composed from them | `Faithful` (round trip + refusal of every cut stream) is closed under sequencing; negations by concrete values |
| C39, C40 | YAML key/value model | round trip; negation |
| C41, C42 | time-ordered maps | op-sequence refinement; UB characterisation |
| C43 | parameter source state machine | trace induction |
| C44 | `merge_with` | list/finite-map reasoning |
| C45, C46 | filter loops | list partition lemmas; divergence for aliasing |
| C47, C48 | numeric filters | ordered-field inequalities, history induction |
| C49–C51 | voxel grids and decimation loops | grid invariant by induction on points; termination measure |
| C52, C53, C54 | remaining point filters | partition lemmas; wrap-around of 16-bit ring count |
| C55, C56, C59 | pipelines, layers, generators | fold lemmas |
| C57, C58, C60, C66 | tools | list reasoning |
| C61 | the robust kernel is built from `currentEstimateForRobust`, which no solver in the repo supplies | without it every pair is skipped, so the solvers see an empty set and return no pose |
| C62, C63 | whole Gauss–Newton loop, external linear solver | fixed point + fuel-free termination on the iteration counter |
| C65 | YAML of parameters and weights | key/value map round trip |
| C67 | quadratic lattice on top of the C49 grid | ordered-field monotonicity; grid invariant |
| C68, C69 | `FilterMerge`, `FilterVoxelSlice` | case analysis, floor arithmetic |
| C70 | z-buffer loop of the range images, scores | loop invariant; symmetry; algebra for the pose convention |
| C71 | the two voxel loops, logistic score | loop = `filterMap`; completing the square; witness for different resolutions |
| C72 | `calcStats` in 64-bit arithmetic, both loops, the shared layer pointers | telescoping sums; overflow bounds; loop invariants on columns; closed form of the score of a step |
| C73 | loop of the corners, `process` | loop = filter; rigid motions preserve dot products; reversal |
| C74 | cell grid with its hash map in any order, pole criterion | grid invariant; fold over a permutation of the cells |
| C75 | voxel grid, eigenvalue classes, stride loops with fuel, plane patches | grid invariant; loop = every n-th; degenerate eigenvalues by C76 |
| C76 | sums, lower triangle of the covariance; eigen-solver as parameter | Parseval and Rayleigh quotient; moving the plane off the centroid adds a square |
| C77 | trace of poses and normal equations of the Gauss-Newton loop (C62) | invariant over the loop; completing the square in the linearised cost |
| C78 | `Generator::process` by kind of observation; insertion by the observation itself as a parameter | case analysis; induction over the observations |
| C79 | YAML definition → sections → INI table | fold invariants on sorted maps; equality of the table with the file, key by key |
| C80 | YAML sections, registry state, class factory as parameters (C10) | iff with a declarative description; composition with `align` |
| C81 | files as bytes, tools as lists of writes; serializers of C36/C38 | round trips of C36; crash states = prefixes of the writes, refused by C36's cut theorem |
| C82 | the same files; pipelines of C55; tokenizer | computation on the map read back; injectivity of file names |
| C83 | index loop over the data set, stateful generators and filters | loop invariant against an inductive relation; wrap-around of `--to` |
| C84 | each loader as a list of load and assert commands run in the order of the code | the command list is proved equivalent to a table of documented options, once for all command lists whose reads precede their assertions |
| C85 | the view as the list of its objects; own renderers of maps are parameters | induction over the layers against a relation that says what each layer draws |
| C86 | the view as the list of its objects | induction over the pairings |
| C87 | Model/LibPm: the wrapper, the library as a parameter | exact result; right pose iff the two orders of composition agree on the points; counterexample; quality and covariance constants |
| C88 | the program with files, parsing of numbers, generators, filters and the ICP as parameters | characterisation of the kind of a name, of the loaded map, of the run (existential over all stages) and of the exit code |
| C89 | load_plugin with the file system, environment and dynamic loader as parameters | equivalence with a first-match specification; idempotence |
| C90 | the functions on maps with typed layers; parsing of text, number formatting and decompression are parameters | equivalences; the summary as a list of pieces joined by commas |
| C91 | the program as a function from arguments and files to writes and exit code, over the command models of C58 and C66 | case analysis over commands; invariant of the info fold |
| C92 | the two programs over the models of sm2mm (C57), map files (C36, C81); reader of simplemaps, factories and console are parameters | equivalence for exit code 0 and written files; failure writes nothing; round trip through the file |
| C93 | the models of align, the matcher, its one-to-one flags, Horn and the evaluator put together (Model/EndToEnd) | every iteration started close enough pairs all points with their true places (nearest neighbour = true place, no two share one), Horn recovers T exactly, the next step is zero so the loop stalls; the <3 pairs case computed |
| C94 | same composition as C93 | misfit = cost of the pairs + constant at the current pose, an upper bound at any other; Horn minimises the cost of the pairs (C28) up to the pairs it leaves out near the centroids, whose possible loss is bounded by Cauchy-Schwarz; induction on the history |
| C95 | the program as a machine: widgets, logs in memory, static variables, scene; one step per event, which may throw and leave a state | invariants over histories (memory; caches, sliders and scene in step with the selection) |
| C96 | same machine as C95 | case analysis on the step, with the invariant of C95; counterexamples as theorems |
| C97 | state machine of the program with all its event handlers, on top of the rendering model of C85 | invariant over all histories without a second load; negative theorems for loads |
| C98 | key handlers, key frames, a pass of the main loop, configuration written and read by name; trigonometry and interpolation are parameters with contracts | algebra, induction over frames, Archimedean property for the end of the path |
| C99 | intensity filter, operation by operation, over an abstract IEEE arithmetic (monotone, idempotent, odd rounding) with binary32 and binary64 as instances | monotonicity of rounding, list induction, error analysis for binary32 |
| C100 | time stamp filter over the abstract IEEE arithmetic, reference time in a second (double) arithmetic | monotonicity and accuracy of rounding, exactness on a grid |
| C101 | the same model functions as for C07, C30 and C68, instantiated with the arithmetic of the machine | induction over the evaluators with monotone rounding |
| C102 | `coord2idx` as a division, a truncation and a 32-bit range check over the abstract IEEE arithmetic | monotonicity of rounding and truncation; integers below 2^24 are exact |
| C103 | the filter loops of C45/C46 with the tests computed in the arithmetic of the machine | the partition theorems of C45, error analysis of the squared norm |
| C104 | `Model/Icp.lean` needs only comparison and arithmetic operations of its numbers, none of their laws; instance: the machine arithmetic of `Model/Fp.lean` | the invariant of C01–C05 over an abstract stall rule; case analysis on comparisons with NaN |
| C105 | the matcher model of C16-C24 is written for any type of numbers (no algebraic law assumed) and instantiated with machine numbers (Model/Fp) | the lemmas about the loops are proved for any numbers; the comparisons that a machine makes are then split into their cases; the margin by error analysis of the squared distance and of the limit |
| C106 | The same model of the filter as C49 (Model/Decimate.lean), with the numbers of a format (Model/FpDecimate.lean) | invariants of the grids for any voxel function; error analysis of the sum by induction; binary32 by computation in the kernel |
| C107 | The filter of C49 and C106, applied twice | the representatives are in distinct voxels (voxels are convex for the average), and a voxel with one point is represented by it |
| C108 | Model/AdaptiveSize (bounding box, size) on top of Model/Decimate, for any type of numbers | extents of the fold of keep_min/keep_max, monotony of truncation, C51's theorem for any voxel function |
| C109 | Model/EndToEnd (ICP loop, distance matcher, Horn solver, paired ratio) | simulation of the two runs, iteration by iteration; the least-squares rotation of the moved pairs is the moved rotation, since it is unique |
| C110 | GaussNewton, ErrorTerms, EndToEnd (gnAsSolver) | every column of J·dexp and every error vector turns with the frame, so the normal equations stay the same; induction on the inner loop; sums over permutations; then the ICP loop as in C109 |
| C111 | Model/GaussNewton (loop, assemble), Model/ErrorTerms, Model/Icp, Model/Matchers | the exact increment solves the normal equations because every residual is affine in the pose (C61); positive weights and a rigid configuration make the system definite, so it is the only solution; then the second iteration finds no cost. With C93's machinery for the whole registration. |
| C112 | Model/EndToEnd.planeIcp (Model/Icp, Matchers.plLayer, GaussNewton, PairedRatio) | the fold of the matcher pairs every point (invariant on flags and output); C111 gives T from these pairings; a general lemma on the ICP loop (two iterations at most) |
| C113 | Model/Covariance (covarianceOf: numeric Jacobian by central differences, product, inverse as contract), Spec/CovValue | Props/CovValue: the stacked vector of C35 gives the list of slopes; sums of squares; inverse of a larger form is smaller; over the reals with MRPT's Euler angles the central difference is sin(d)/d times the derivative, so the errors stay exactly when the body slides (Holds of C111) |
| C114 | Model/GaussNewton over the reals, Spec/Downhill (losses, robust cost, rate of change along the exponential) | Props/Downhill: derivative of each loss is the kernel factor, error terms are affine in the pose entries, chain rule; normal equations are symmetric and solvable; losses are concave, so that weighted squares bound the cost; se3Exp is the real exponential and meets the hypotheses; Props/DownhillCases: runs which go uphill |
| C115 | Model/GaussNewton, Spec/Laguerre (values at 1 of the Laguerre polynomials as sums of binomials) | Props/Laguerre: without kernel the matrix depends on the rotation only and the right-hand side is affine in the position; the build without TBB accumulates, so that each error is the one before less the mean of all before, which is the recurrence of the Laguerre polynomials at 1 (hockey-stick identity) |
| C116 | Gauss-Newton of both builds over the reals | residuals of exactly aligned pairings are linear in the difference of the twelve pose entries, so a step has the form δ = -(DᵀMD)⁻¹DᵀM(x-x*) with M continuous; LD = 1 turns every first-order part into a remainder; rotations: R*-R-R[w] = -R(R*-R)ᵀ(R*-R)/2; the real SE(3) exponential agrees to second order; induction over the steps |
| C117 | the ICP loop with matcher, solver and quality evaluator of C93, the solver of C111/C116 | the system does not depend on indices and errors of the pairs, so one constant serves all iterations; close-enough is an open condition; induction over the iterations with the squares of C116 |
| C118 | the ICP loop with matcher, solver and quality evaluator of C93 and C117 | the matcher pairs exactly the points with a place (open condition for the near version), then the general lemmas on runs whose matchers and solvers get to T, or square the distance to it |
| C119 | the ICP loop with the matcher of C112 and the solver of C111/C116 | the pairings are the same at all poses near T, so one constant of C116 serves all iterations; then the general lemma of C117 on runs that square the distance |
| C120 | the prior term of Gauss-Newton, with MRPT's SE(3) logarithm and its derivative as parameters under a contract | the system is that without prior plus a normal term; gradient by the chain rule; uniqueness from positive definiteness; near the mean, the error of the prior is linear in the difference of the entries up to its square, which the lemma of C116 tolerates |
| C121 | whole runs of align, with the models of C93/C94 | if the misfit does not drop, the pose was already a best fit of its pairs, thus by uniqueness the answer, and the run stalls; strictly decreasing misfit forbids equal pairs; pigeonhole over the ways to pair |
| C122 | the loop of align (C01-C05) as a function of its state | the loop with limit n+m is the loop with n followed, if not left, by m more; simulation between the state of the long run after N iterations and the fresh state at the pose returned; the fresh run does not know the pose before the last, which only makes it stall later |
| C123 | whole runs of align (C93, C117) with the prior of C120 | one call of the solver squares the distance (the last step of C120), then the argument of C117; the negative part: the pairings of the first iteration leave no cost, so no step is made (C62) |
| C124 | Horn's solver on plain point pairs (C28) with the contract of the eigen-solver | the costs of two sets of pairs agree up to a bijection of the rigid motions and a positive factor, so the unique minimiser is carried over (C28); with all pairs near, the walk visits none and the 4x4 matrix is zero |
| C125 | whole runs of align in the pipeline of C93 | the two runs are related iteration by iteration: the nearest points by scaling squared distances, the solver's answers by C124, the stall test by the scaled difference of poses; induction over the loop |
| C126 | whole runs of align in the pipeline of C93 | the two runs are related iteration by iteration: the transformed clouds are equal, so the matches are; the solver's answers by C124; the stall test by what is asked of pose differences; induction over the loop |
| C127 | whole runs of align in the pipeline of C93 | the nearest point within the threshold is the same in both maps; then the argument of C125 for two maps, with the unit one |

Nothing in the list is believed to be inexpressible; the numerically approximate parts (floating point rounding other than in C99–C108,
iterative eigen-solver convergence, real thread memory model) stay outside, as said above.

## Findings

Disagreements between the documentation (or the English property) and the code, each proved of the model. "(all inputs)" means the
theorem is universally quantified, otherwise it is a concrete witness.

| Property | Finding | Theorem |
|---|---|---|
| C02 | after a solver failure the failed solver's output, not the last valid pose, is returned | `align_solverError_returns_failed_output` |
| C03 | translation and rotation may be "small" against different references | `align_stall_mixes_references` |
| C05 | iteration details without a log, or a log with zero iterations, dereference an empty optional (all environments) | `align_details_without_log_ub`, `align_zero_iterations_log_ub` |
| C09 | labels are expanded again; format specials in labels | `logFileName_label_reexpanded`, `logFileName_label_format` |
| C11, C13 | `push_back` drops the weights table; the move overload overwrites the counter | `pushBack_move_not_isMerge`, `runMatchers_drops_weights` |
| C18 | with global re-matching allowed the distance-threshold matcher does not flag the matched local points: a second run pairs them again (all inputs) | `dt_local_forgotten` |
| C18 | adaptive matcher and TBB build match a global point twice | `adaptive_reuses_global`, `tbb_matcher_reuses_global` |
| C19 | the TBB build ignores the angular threshold | `dt_tbb_ignores_angular` |
| C20 | `maxLocalPointsPerLayer` in the distance matcher reads out of bounds on every valid input (all inputs) | `dt_limit_never_ok` |
| C22 | line fits use points beyond the threshold; two points always throw | `p2ln_fits_far_points`, `p2ln_two_points_throws` |
| C23 | adaptive matcher without any neighbour: undefined; planes not transformed | `adaptive_nothing_found_ub`, `adaptive_plane_untransformed` |
| C25 | conversion to point pairs drops the point pairs given (all inputs) | `pt2pt_conversion_drops` |
| C27 | an outlier or an empty block at a block's start shifts the weights | `visit_outlier_shifts_blocks`, `visit_empty_block_shifts` |
| C28 | Horn with unequal block weights: translation not optimal | `horn_weighted_not_optimal` |
| C29 | OLAE solves a singular system for all rotations whose quaternion has z = 0 and no unique largest component (right angles about x or y, …), and returns a wrong motion | `olae_tie_singular`, `olae_right_angle_wrong` |
| C31 | plane-to-plane error ignores the offset; line-to-line error does not vanish at alignment | `error_plane2plane_ignores_offset`, `error_line2line_nonzero_at_alignment` |
| C32 | line-to-line Jacobian wrong for rotations (all poses) | `line2line_jacobian_wrong`, `line2line_reported_derivative` |
| C33 | the build without TBB piles up the normal equations of all iterations (all inputs) | `gn_serial_accumulates` |
| C34 | from the second iteration every pair has the last block's weight (all inputs) | `gn_weights_later_iterations` |
| C35 | covariance rows clash with lines and planes together (all inputs); z is ignored | `covariance_rows_clash`, `covariance_ignores_z` |
| C113 | at a pitch of ±90° the matrix to invert is singular whatever the pairings; the covariance does not depend on the residuals (all inputs); lines with planes: undefined | `covariance_gimbal_lock`, `covariance_ignores_residuals`, `covariance_lines_planes` |
| C114 | the build without TBB, having reached a minimum in one step, leaves it in the next one (all inputs); in a case the cost goes 104, 4, 29 and the pose at 29 is returned | `gn_serial_leaves_minimum`, `gn_serial_overshoots` |
| C114 | a full step is not checked against the cost: it may raise it (both builds, exact arithmetic, no kernel) | `gn_full_step_uphill` |
| C115 | the build without TBB: from a guess which only lacks a translation, the error of the position after `n` inner iterations is the initial one times L_n(1), the Laguerre polynomial (1, 0, -1/2, -2/3, -5/8, -7/15, -37/144): with the default of 5 iterations almost half of it comes back, with the other sign (all inputs) | `gn_serial_laguerre`, `gn_serial_five` |
| C120 | a prior is not looked at when the pairings leave no error at the guess, or when there are none: the cost that is compared with the limit does not count it, and the guess is returned. (The Horn and OLAE solvers never read it.) | `gn_prior_ignored` |
| C123 | so a whole registration of points on a line (or of one point), started at a pose that fits them all, returns it, however wrong the prior says it is | `prior_ignored_by_registration` |
| C124 | Horn's solver compares distances to the centroids with 0.0001 whatever the unit: pairs all nearer than that give one fixed rotation whatever they say, and it reports success; so changing the unit of length can change the rotation | `tiny_all_alike`, `unit_matters` |
| C126 | the stall test looks at the length of the translation between poses of the cloud's frame, so a cloud given in a frame with another origin (a sensor mounted off the vehicle's centre) can end its registration at another iteration; and a failed solver returns the identity, which is another place in another frame | `shift_not_free`, `body_frame_free_partial` |
| C36, C37, C65 | counter of version 0 streams stale; `quality_checkpoints` not written | `pairings_v0_stale_counter`, `params_checkpoints_lost`, `params_yaml_checkpoints_lost` |
| C39 | georeference YAML loses the rotation (all inputs) | `georef_yaml_drops_rotation` |
| C40 | colliding samples lost in the velocity YAML | `velocity_yaml_loses_samples` |
| C42 | reconstruction dereferences the end of the buffer (exact condition) | `reconstruct_past_end_iff` |
| C43 | after a failed `realize()` the formula is never compiled again | `failed_formula_stays_broken` |
| C44 | `merge_with` a pose throws if there are planes; null layers undefined; shared layers changed | `merge_planes_with_pose_throws`, `merge_null_ub`, `merge_shared_layer_changes_other` |
| C45, C46 | box and range filters never end when a point goes to the input layer (all inputs); negative `range_min` squared; empty clouds refused by ring and intensity filters | `filterLive_never_ends`, `range_negative_min_finding`, `empty_input_finding` |
| C47 | inverted fixed range reverses the order | `normalize_fixed_reversed` |
| C48 | adjusting one layer moves the absolute times of others | `adjust_moves_other_layers` |
| C49 | `use_tsl_robin_map: false` outputs nothing; small clouds throw or never end (all inputs) | `decimate_std_map_outputs_nothing`, `decimate_multi_small_throws`, `decimate_small_in_place_never_ends` |
| C50 | voxel 0 is twice as wide | `voxel_zero_is_double` |
| C51 | adaptive decimation starves voxels, undefined for empty input | `adaptive_starves`, `adaptive_empty_input_ub` |
| C53 | ring 65535: division by zero; border rule depends on direction | `curvature_ring_overflow_ub`, `curvature_border_depends_on_direction` |
| C54 | points at the origin not moved and lose channels; precise mode has no translation | `deskew_origin_finding`, `deskew_precise_no_translation` |
| C57 | final filters never attached to the parameters; stale twist; `end_index` SIZE_MAX processes nothing | `sm2mm_final_filter_fails`, `kf_twist_stale`, `sm2mm_end_max_processes_nothing` |
| C58, C66 | null poses and observations undefined; equal stamps overwrite poses | `tf_null_ub`, `exportRawlog_null_ub`, `exportKfs_same_stamp_finding` |
| C60 | txt2mm ignores `--layer`, loses ring and time, reads columns unchecked | `txt2mm_layer_ignored`, `txt2mm_xyzirt_loses_channels`, `txt2mm_column_past_end_ub` |
| C61 | Horn and OLAE ignore the robust kernel without an estimate | `solver_horn_robust_never` |
| C63 | Gauss-Newton reports success with too few pairings (all inputs) | `gn_always_reports_success` |
| C67 | cells between R/2 and R narrower than the resolution; `grid2real` NaN for negatives | `warp_narrower_near_radius`, `grid2real_negative_nan` |
| C69 | RGB voxel maps sliced to an empty grid | `slice_rgb_empty` |
| C70 | the evaluator's pose convention is the inverse of ICP's; negative penalty gives > 1 | `range_quality_of_registration`, `range_penalty_negative` |
| C71 | best score for unknown cells; global voxels placed with the local resolution | `loss_best`, `voxels_symmetry_fails` |
| C72 | negative sums divided as unsigned (undefined); plane points lost; null dereference without planes layer; larger steps score lower | `range_edges_rot_falling_ub`, `range_edges_3d_planes_lost`, `range_edges_3d_no_planes_layer`, `range_edges_rot_misses_steps` |
| C74 | points of sparse cells in neither output; lonely poles missed | `poles_sparse_dropped`, `poles_lonely_missed` |
| C75 | straight lines and flat clouds never edges; plane voxel at the origin throws; decimation 0 never ends | `edges_planes_line_no_edge`, `edges_planes_origin_throws`, `edges_planes_zero_never_ends` |
| C76 | indices ignored if a count is given too | `eigen_both_ignores_indices` |
| C78 | Velodyne scans always reported as handled; custom maps do not skip GPS | `gen_velodyne_always_handled`, `gen_custom_gps_throws` |
| C80 | `params` ignored beside `derived` | `icp_yaml_derived_ignores_params` |
| C81 | a failed save is not reported; a missing file is created | `georef_inject_unreported`, `georef_inject_creates` |
| C82, C83 | kitti2mm ignores `--layer`; `--to` SIZE_MAX gives an empty output | `kitti2mm_result_partial`, `rawlog_to_max` |
| C84 | documented configurations refused | `intensity_documented_refused`, `matcher_documented_config_refused`, `paired_ratio_documented_refused` |
| C62 | started at exactly aligned lines, Gauss-Newton makes a non-zero step (both builds) | `gn_leaves_aligned_lines` |
| C77 | with a weights table the cost compared from the second iteration on uses the last weight only (serial build, all inputs) | `gn_stops_with_table` |
| C85 | hidden lines are shown; individual lengths ignored; point size set on another cloud; rendering switches the free-space flag of the map | `view_hidden_lines_shown`, `view_lengths_ignored`, `view_point_size_misplaced`, `view_sets_free_flag` |
| C87 | guess and correction composed in the wrong order (exact condition); paired ratio always 0; maps of voxel layers only refused | `libpm_wrong_order`, `libpm_pose_right_iff`, `libpm_ratio_quality_zero`, `libpm_voxels_refused` |
| C88 | `.mm` anywhere in the path decides the kind of an input; negative or huge rawlog index undefined | `input_kind_mm_anywhere`, `input_rawlog_index` |
| C90 | text file with one point refused; blank summary of maps with only empty clouds | `xyz_loaded_iff`, `summary_blank` |
| C91 | unwritable output: exit code 0; twist file left behind by a failed export | `smcli_unwritable_unreported`, `smcli_twists_left` |
| C92 | `--load-plugins` of sm2mm has no effect; read errors unnoticed; empty selections give an empty map; mm-info calls an unreadable file empty | `sm2mm_plugins_ignored`, `sm2mm_read_error_ignored`, `sm2mm_nothing_selected`, `mm_info_unreadable` |
| C93 | with one or two pairs the registration returns the identity pose, whatever the guess, with quality 1 (all inputs) | `few_points_lost` |
| C96 | icp-log-viewer: with the slider half way between records a button passes over one; play mode runs the slider off its range near the end; changes by hand are lost when another record is selected; with a missing layer the maps of another record are shown | `half_way_skips`, `autoplay_runs_off`, `manual_changes_lost`, `missing_layer_stale` |
| C97 | mm-viewer: a second map with the same layer names is not shown under its name; with other layers the window stays empty; a missing file checks all boxes; export ignores the marks and overwrites; the view depends on the history | `second_map_not_shown`, `second_map_empty`, `missing_file_checks_all`, `bad_cloud_half_loaded`, `export_overwrites`, `old_box_dead`, `options_do_not_determine_view` |
| C98 | mm-viewer: last key frame never shown; 2D view not kept while travelling; layer boxes not saved | `travel_stops_early`, `travel_overrides_flat`, `bad_rate_freezes`, `boxes_not_restored` |
| C99 | a first intensity that is not a number spoils the cloud, and with memory all later clouds; the largest intensity need not give 1; ranges of extreme width give NaN | `norm_float_first_nan`, `norm_float_memory_spoiled`, `norm_float_max_not_one`, `norm_float_tiny_range` |
| C100 | a first stamp that is not a number spoils all stamps and the reference time; MiddleIsZero with huge stamps gives minus infinity | `stamps_float_first_nan`, `stamps_float_middle_overflow` |
| C101 | kernels can give 0 (then refused by the solvers' check of positive weights) or NaN | `kernel_float_zero_nan` |
| C102 | a coordinate just below a voxel side is put into the next voxel (1.0 with resolution 0.2f) | `voxel_float_rounds_up` |
| C103 | the squares of the range filter overflow: far points count as inside a range of more than 2^64 | `range_float_overflow` |
| C104 | a step which is not a number is never taken for a small one and a quality which is not a number passes every checkpoint: ICP runs to the iteration limit and returns a pose of NaNs, possibly with quality 1 (`min` in `keep_min` and `<` are false on NaN) | `icp_float_nan_step`, `icp_float_nan_checkpoint`, `icp_float_nan_runs_on`, `icp_float_nan_returned` |
| C105 | with `thresholdAngularDeg: 0` a transformed point whose squared norm overflows `float` (beyond about 1.8e19 m) gets the limit `thr² + 0·inf` = NaN and is paired with any neighbour, however far; `Matcher_Point2Plane` accepts a threshold which is not a number and then pairs every plane reported; a threshold below about 1e-23 m passes the check but its square is 0 and nothing is paired | `match_float_far_paired`, `match_float_far_example`, `match_float_plane_nan`, `match_float_tiny_threshold` |
| C60 | txt2mm: colours of `xyzrgb` outside (-1,256) are converted to uint8_t: undefined behaviour | `txt2mm_colour_ub` |
| C93 | with the OLAE solver and exact data, a registration whose true rotation is such a one leaves the true pose, with quality 1 (all clouds; singular systems solved as zero) | `tied_rotation_lost` |
| C94 | with an angular threshold an iteration can push points out of places where they fitted exactly, for one far outlier | `fit_worse_angular` |
| C94 | when the solver fails (one or two pairs) the pose is reset to the identity, however good the pose before was | `fit_lost_few_points` |
| C82 | mm2txt: files that cannot be written are left out, exit code 0 | `mm2txt_unwritten_unreported` |
| C106 | VoxelAverage in `float` may give a point outside of its voxel (41 equal points at 1 with resolution 1), an infinite one, or a wrong one with very many points (2^25 points at 1 give 1/2); one point with a NaN makes the whole filter undefined | `average_float_leaves_voxel`, `average_float_overflow`, `average_float_stagnates`, `decimate_float_undefined` |
| C107 | VoxelAverage in `float`: decimating twice is not decimating once | `decimate_float_average_twice` |
| C107 | with `minimum_input_points_to_filter`, decimating a small result again is an error (methods other than FirstPoint) or decimates points passed through before (several inputs) | `decimate_twice_small_throws`, `decimate_twice_mixed` |
| C108 | adaptive decimation can use one voxel per dimension more than `maximum_voxel_count_per_dimension`; with 0 of them everything is one voxel | `adaptive_one_voxel_more`, `adaptive_float_infinite`, `adaptive_float_one_voxel` |
| C109 | an angular threshold grows with the distance to the origin of the map frame, not to the sensor; ties are decided by storage order; a failed solver answers the identity in whatever frame | `frame_matters_angular`, `order_matters_ties`, `frame_lost_few_points` |
| C110 | with line-to-line pairings the result of Gauss-Newton depends on the frame of the map: lines aligned exactly by the guess are left alone in one frame and pulled apart in another | `gn_lines_depend_on_frame` |

## What is modelled, file by file

Modelled (the definitions cite the lines): all of `mp2p_icp/src` and `mp2p_icp_map/src` and `mp2p_icp_filters/src` but the exceptions below; of
`apps/`: `icp-log-viewer` (state and event handlers; not the drawing calls), `icp-run`, `kitti2mm`, `mm-filter`, `mm-georef`, `mm-info`, `mm-viewer` (state and event handlers), `mm2txt`, `rawlog-filter`, `sm-cli` (all commands), `sm2mm`, `txt2mm`.

Not modelled:

* the drawing calls of the two graphical programs, `apps/libcfgpath` (third-party), the `register.cpp` files (class registration);
* `mp2p_icp/src/Matcher_Planes_Normals.cpp`: disabled by `#if 0`;
* console output, progress bars, profilers, logging (except where a property is about a file or a report: C08, C09, C88–C92);
* the command-line parser (TCLAP): the parsed options are the input of the program models;
* MRPT: its containers, nearest-neighbour search, eigen-solver, LDLT, streams, YAML and expression parser are parameters with stated contracts;
* floating point: see Conventions;
* threads: modelled where the code has them (log counter C08, TBB matcher C18/C19, TBB reductions C33/C77), at the granularity said there.
