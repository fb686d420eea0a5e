/-
Reading the configuration of filters, generators, matchers, solvers and quality evaluators (`initialize(yaml)`,
`Parameters::load_from_yaml`).  Each loader is a list of commands, in the order of the code; the macros `MCP_LOAD_REQ`,
`MCP_LOAD_OPT` (MRPT) and `DECLARE_PARAMETER_IN_REQ/OPT` (Parameterizable.h:169-184) and the assertions are the commands.
Simplifications: the configuration is a map from names to nodes; a vector of formulas is read at once (the code assigns
component by component, seen only if one of them fails); `std::set` of ring ids kept as the list given; the text of a
formula is stored, its value is the matter of `Param.lean`.
-/
namespace Verif.Ldr

/-- C++ type a scalar is read as; `text` is `as<std::string>` of a formula -/
inductive Ty where
  | str | num | nat | int | bool | text
  | enum (names : List String)
  | sub
  deriving DecidableEq, Repr

/-- literals: initial values of the members in the headers, constants of the assertions -/
inductive Lit where
  | str (s : String)
  | num (n d : Int)
  | bool (b : Bool)
  deriving DecidableEq, Repr

variable {V : Type}

/-- element of a YAML sequence: a scalar or a map -/
inductive Elem (V : Type) where
  | scal (v : V)
  | map (f : String → Option V)

/-- YAML node given for a name -/
inductive Node (V : Type) where
  | scalar (v : V)
  | seq (l : List (Elem V))
  | obj (v : V)

abbrev Cfg (V : Type) := String → Option (Node V)

/-- value of a member -/
inductive Val (V : Type) where
  | unset
  | one (v : V)
  | many (l : List V)
  | table (f : V → V → Option V)

abbrev Par (V : Type) := String → Val V

def Par.set (p : Par V) (n : String) (v : Val V) : Par V := fun m => if m = n then v else p m

/-- external: conversions of scalars (none: exception), `std::to_string`, comparison, literals -/
structure Ext (V : Type) where
  as : Ty → V → Option V
  toText : V → V
  lt : V → V → Bool
  le : V → V → Bool
  isEmpty : V → Bool
  isTrue : V → Bool
  eq : V → V → Bool
  lit : Lit → V

/-- how a member is read -/
inductive Kind where
  /-- `as<T>` of a scalar -/
  | scalar (t : Ty)
  /-- text of a formula -/
  | dyn
  /-- scalar or non-empty sequence of scalars -/
  | names (t : Ty)
  /-- sequence of `k` formulas -/
  | vec (k : Nat)
  /-- sequence of maps with `global`, `local` and optional `weight` -/
  | pairsTable
  /-- integer, used if positive -/
  | posInt
  deriving DecidableEq, Repr

/-- operand of an assertion -/
inductive Ref where
  | par (n : String)
  | lit (l : Lit)
  deriving DecidableEq, Repr

inductive Cmd where
  /-- read member `n`; `req`: mandatory -/
  | load (n : String) (k : Kind) (req : Bool)
  /-- assertion: one of the members is a non-empty string -/
  | oneOf (ns : List String)
  /-- assertions `a < b`, `a ≤ b` -/
  | lt (a b : Ref)
  | le (a b : Ref)
  deriving DecidableEq, Repr

def scals : List (Elem V) → Option (List V)
  | [] => some []
  | .scal v :: l => (scals l).map (v :: ·)
  | .map _ :: _ => none

def conv (e : Ext V) (t : Ty) : List V → Option (List V)
  | [] => some []
  | v :: l => match e.as t v with
    | none => none
    | some x => (conv e t l).map (x :: ·)

/-- the entries of `pointLayerMatches`, Matcher_Points_Base.cpp:147-160; the later entry for a pair of layers wins -/
def tableLoop (e : Ext V) : List (Elem V) → (V → V → Option V) → Option (V → V → Option V)
  | [], f => some f
  | .scal _ :: _, _ => none
  | .map m :: l, f =>
    match m "global", m "local" with
    | some g, some lo =>
      match e.as .str g, e.as .str lo, (match m "weight" with | some w => e.as .num w | none => some (e.lit (.num 1 1))) with
      | some g, some lo, some w => tableLoop e l (fun a b => if e.eq a g && e.eq b lo then some w else f a b)
      | _, _, _ => none
    | _, _ => none

/-- the value read from a node, `none`: exception -/
def readNode (e : Ext V) : Kind → Node V → Option (Val V)
  | .scalar .sub, .obj v => (e.as .sub v).map .one
  | .scalar .sub, _ => none
  | .scalar t, .scalar v => (e.as t v).map .one
  | .dyn, .scalar v => (e.as .text v).map .one
  | .names t, .scalar v => (e.as t v).map fun x => .many [x]
  | .names t, .seq l => match scals l with
    | none => none
    | some [] => none
    | some l => (conv e t l).map .many
  | .vec k, .seq l => if l.length = k then (match scals l with | none => none | some l => (conv e .text l).map .many) else none
  | .pairsTable, .seq l => (tableLoop e l (fun _ _ => none)).map .table
  | .posInt, .scalar v => (e.as .int v).map .one
  | _, _ => none

def nonEmptyStr (e : Ext V) : Val V → Bool
  | .one v => !e.isEmpty v
  | _ => false

def refVal (e : Ext V) (p : Par V) : Ref → Option V
  | .par n => match p n with | .one v => some v | _ => none
  | .lit l => some (e.lit l)

def cmp (r : V → V → Bool) : Option V → Option V → Bool
  | some a, some b => r a b
  | _, _ => false

/-- what a member is when its name is not in the configuration: unchanged, but a formula goes through `std::to_string`
(Parameterizable.h:169-171) -/
def absent (e : Ext V) : Kind → Val V → Val V
  | .dyn, .one v => .one (e.toText v)
  | _, x => x

/-- what a member becomes when a value is read; `kdtree_leaf_max_points`, Matcher_Points_Base.cpp:174-177 -/
def store (e : Ext V) : Kind → Val V → Val V → Val V
  | .posInt, .one v, old => if e.lt (e.lit (.num 0 1)) v then .one v else old
  | _, v, _ => v

/-- runs a loader: the object's members afterwards, and whether it completed (`false`: an exception was thrown) -/
def exec (e : Ext V) (c : Cfg V) : List Cmd → Par V → Par V × Bool
  | [], p => (p, true)
  | .load n k req :: l, p =>
    match c n with
    | none => if req then (p, false) else exec e c l (p.set n (absent e k (p n)))
    | some y =>
      match readNode e k y with
      | none => (p, false)
      | some v => exec e c l (p.set n (store e k v (p n)))
  | .oneOf ns :: l, p => if ns.any (fun n => nonEmptyStr e (p n)) then exec e c l p else (p, false)
  | .lt a b :: l, p => if cmp e.lt (refVal e p a) (refVal e p b) then exec e c l p else (p, false)
  | .le a b :: l, p => if cmp e.le (refVal e p a) (refVal e p b) then exec e c l p else (p, false)

/-! ### the classes -/

inductive Cls where
  | adjustTimestamps | boundingBox | byIntensity | byRange | byRing | curvature | decimateAdaptive | decimateVoxels
  | decimateQuadratic | deleteLayer | deskew | edgesPlanes | merge | normalizeIntensity | poleDetector
  | removeByVoxelOccupancy | voxelSlice
  | edgesFromCurvature | edgesFromRangeImage
  | matcherAdaptive | matcherPoint2Line | matcherPoint2Plane | matcherDistance | matcherInlierRatio
  | solverGaussNewton | solverHorn | solverOlae
  | qualityRangeImage | qualityVoxels
  deriving DecidableEq, Repr

def req (n : String) (t : Ty) : Cmd := .load n (.scalar t) true
def opt (n : String) (t : Ty) : Cmd := .load n (.scalar t) false
def dynReq (n : String) : Cmd := .load n .dyn true
def dynOpt (n : String) : Cmd := .load n .dyn false

/-- `Generator::Parameters::load_from_yaml`, Generator.cpp:47-55 (the map definition is in `MapDef.lean`) -/
def generatorCmds : List Cmd :=
  [opt "target_layer" .str, opt "metric_map_definition_ini_file" .str, opt "process_class_names_regex" .str,
   opt "process_sensor_labels_regex" .str, opt "throw_on_unhandled_observation_class" .bool]

/-- `Matcher::initialize`, Matcher.cpp:28-33 -/
def matcherCmds : List Cmd := [opt "runFromIteration" .nat, opt "runUpToIteration" .nat, opt "enabled" .bool]

/-- `Matcher_Points_Base::initialize`, Matcher_Points_Base.cpp:132-181 -/
def matcherPointsCmds : List Cmd :=
  matcherCmds ++
  [.load "pointLayerMatches" .pairsTable false, opt "maxLocalPointsPerLayer" .nat, opt "localPointsSampleSeed" .nat,
   opt "allowMatchAlreadyMatchedPoints" .bool, opt "allowMatchAlreadyMatchedGlobalPoints" .bool,
   .load "kdtree_leaf_max_points" .posInt false, opt "bounding_box_intersection_check_epsilon" .num]

/-- `Solver::initialize`, Solver.cpp:28-34 -/
def solverCmds : List Cmd :=
  [opt "runFromIteration" .nat, opt "runUpToIteration" .nat, opt "enabled" .bool,
   opt "runUntilTranslationCorrectionSmallerThan" .num]

/-- The loaders: FilterAdjustTimestamps.cpp:30-38, FilterBoundingBox.cpp:30-57, FilterByIntensity.cpp:29-46 (the assertion
names the low layer twice), FilterByRange.cpp:30-53, FilterByRing.cpp:29-54, FilterCurvature.cpp:37-48,
FilterDecimateAdaptive.cpp:30-42, FilterDecimateVoxels.cpp:36-78, FilterDecimateVoxelsQuadratic.cpp:33-45,
FilterDeleteLayer.cpp:28-57, FilterDeskew.cpp:41-67, FilterEdgesPlanes.cpp:30-43, FilterMerge.cpp:32-47,
FilterNormalizeIntensity.cpp:29-35, FilterPoleDetector.cpp:108-124, FilterRemoveByVoxelOccupancy.cpp:31-40,
FilterVoxelSlice.cpp:34-42, GeneratorEdgesFromCurvature.cpp:33-46, GeneratorEdgesFromRangeImage.cpp:65-77,
Matcher_Adaptive.cpp:32-57, Matcher_Point2Line.cpp:35-44, Matcher_Point2Plane.cpp:35-39,
Matcher_Points_DistanceThreshold.cpp:39-46, Matcher_Points_InlierRatio.cpp:34-39, Solver_GaussNewton.cpp:29-40,
Solver_Horn.cpp:33-39, Solver_OLAE.cpp:31-37, QualityEvaluator_RangeImageSimilarity.cpp:30-45 (`params["ncols"]` of a
const node throws if missing), QualityEvaluator_Voxels.cpp:33-38. -/
def cmds : Cls → List Cmd
  | .adjustTimestamps => [req "pointcloud_layer" .str, req "method" (.enum ["EarliestIsZero", "MiddleIsZero", "Normalize"]),
      req "silently_ignore_no_timestamps" .bool, dynOpt "time_offset"]
  | .boundingBox => [opt "input_pointcloud_layer" .str, opt "inside_pointcloud_layer" .str,
      opt "outside_pointcloud_layer" .str, .oneOf ["inside_pointcloud_layer", "outside_pointcloud_layer"],
      .load "bounding_box_min" (.vec 3) true, .load "bounding_box_max" (.vec 3) true]
  | .byIntensity => [req "input_pointcloud_layer" .str, opt "output_layer_low_intensity" .str,
      opt "output_layer_high_intensity" .str, opt "output_layer_mid_intensity" .str,
      .oneOf ["output_layer_low_intensity", "output_layer_low_intensity", "output_layer_mid_intensity"],
      req "low_threshold" .num, req "high_threshold" .num]
  | .byRange => [req "input_pointcloud_layer" .str, opt "output_layer_between" .str, opt "output_layer_outside" .str,
      dynReq "range_min", dynReq "range_max", .oneOf ["output_layer_between", "output_layer_outside"],
      .load "center" (.vec 3) false]
  | .byRing => [req "input_pointcloud_layer" .str, opt "output_layer_selected" .str, opt "output_layer_non_selected" .str,
      .load "selected_ring_ids" (.names .int) true]
  | .curvature => [req "input_pointcloud_layer" .str, req "max_cosine" .num, req "min_clearance" .num, req "max_gap" .num,
      opt "output_layer_larger_curvature" .str, opt "output_layer_smaller_curvature" .str, opt "output_layer_other" .str]
  | .decimateAdaptive => [opt "enabled" .bool, opt "input_pointcloud_layer" .str, req "output_pointcloud_layer" .str,
      req "desired_output_point_count" .nat, opt "assumed_minimum_pointcloud_bbox" .num,
      opt "maximum_voxel_count_per_dimension" .nat, opt "minimum_input_points_per_voxel" .nat]
  | .decimateVoxels => [.load "input_pointcloud_layer" (.names .str) true, opt "error_on_missing_input_layer" .bool,
      req "decimate_method" (.enum ["FirstPoint", "ClosestToAverage", "VoxelAverage", "RandomPoint"]),
      req "output_pointcloud_layer" .str, opt "minimum_input_points_to_filter" .nat, dynReq "voxel_filter_resolution",
      opt "use_tsl_robin_map" .bool, opt "flatten_to" .num]
  | .decimateQuadratic => [opt "input_pointcloud_layer" .str, opt "error_on_missing_input_layer" .bool,
      opt "use_random_point_within_voxel" .bool, req "output_pointcloud_layer" .str, req "voxel_filter_resolution" .num,
      req "quadratic_reference_radius" .num, req "use_voxel_average" .bool, req "use_closest_to_voxel_average" .bool]
  | .deleteLayer => [.load "pointcloud_layer_to_remove" (.names .str) true, opt "error_on_missing_input_layer" .bool]
  | .deskew => [req "input_pointcloud_layer" .str, req "output_pointcloud_layer" .str,
      opt "silently_ignore_no_timestamps" .bool, opt "output_layer_class" .str, opt "skip_deskew" .bool,
      opt "use_precise_local_velocities" .bool, .load "twist" (.vec 6) false]
  | .edgesPlanes => [opt "input_pointcloud_layer" .str, req "voxel_filter_resolution" .num, req "voxel_filter_decimation" .nat,
      opt "use_tsl_robin_map" .bool, req "full_pointcloud_decimation" .nat, req "voxel_filter_max_e2_e0" .num,
      req "voxel_filter_max_e1_e0" .num, req "voxel_filter_min_e2_e0" .num, req "voxel_filter_min_e1_e0" .num,
      opt "voxel_filter_min_e1" .num]
  | .merge => [req "input_pointcloud_layer" .str, req "target_layer" .str, opt "input_layer_in_local_coordinates" .bool,
      .load "robot_pose" (.vec 6) false]
  | .normalizeIntensity => [req "pointcloud_layer" .str, opt "remember_intensity_range" .bool,
      opt "fixed_minimum_intensity" .num, opt "fixed_maximum_intensity" .num]
  | .poleDetector => [req "input_pointcloud_layer" .str, opt "output_layer_poles" .str, opt "output_layer_no_poles" .str,
      opt "minimum_pole_points" .nat, opt "minimum_neighbors_checks_to_pass" .nat, dynReq "grid_size",
      dynReq "minimum_relative_height", dynReq "maximum_relative_height",
      .oneOf ["output_layer_poles", "output_layer_no_poles"]]
  | .removeByVoxelOccupancy => [req "input_pointcloud_layer" .str, req "input_voxel_layer" .str,
      opt "output_layer_static_objects" .str, opt "output_layer_dynamic_objects" .str, dynReq "occupancy_threshold"]
  | .voxelSlice => [req "input_layer" .str, req "output_layer" .str, dynReq "slice_z_min", dynReq "slice_z_max"]
  | .edgesFromCurvature => generatorCmds ++ [dynReq "max_cosine", dynOpt "min_point_clearance"]
  | .edgesFromRangeImage => generatorCmds ++ [req "planes_target_layer" .str, req "score_threshold" .int]
  | .matcherAdaptive => matcherPointsCmds ++
      [req "confidenceInterval" .num, req "firstToSecondDistanceMax" .num, req "absoluteMaxSearchDistance" .num,
       opt "minimumCorrDist" .num, req "enableDetectPlanes" .bool, opt "planeSearchPoints" .nat,
       opt "planeMinimumFoundPoints" .nat, opt "planeEigenThreshold" .num, opt "maxPt2PtCorrespondences" .nat,
       opt "planeMinimumDistance" .num,
       .lt (.par "confidenceInterval") (.lit (.num 1 1)), .lt (.lit (.num 0 1)) (.par "confidenceInterval"),
       .le (.par "planeMinimumFoundPoints") (.par "planeSearchPoints"),
       .le (.lit (.num 3 1)) (.par "planeMinimumFoundPoints"), .lt (.lit (.num 0 1)) (.par "planeEigenThreshold")]
  | .matcherPoint2Line => matcherPointsCmds ++
      [req "distanceThreshold" .num, req "knn" .nat, req "lineEigenThreshold" .num, req "minimumLinePoints" .nat,
       .le (.lit (.num 2 1)) (.par "minimumLinePoints")]
  | .matcherPoint2Plane => matcherPointsCmds ++ [dynReq "distanceThreshold"]
  | .matcherDistance => matcherPointsCmds ++ [dynReq "threshold", dynReq "thresholdAngularDeg", dynOpt "pairingsPerPoint"]
  | .matcherInlierRatio => matcherPointsCmds ++ [req "inliersRatio" .num]
  | .solverGaussNewton => solverCmds ++
      [req "maxIterations" .nat, opt "innerLoopVerbose" .bool,
       opt "robustKernel" (.enum ["None", "GemanMcClure", "Cauchy"]), dynOpt "robustKernelParam",
       .load "pair_weights" (.scalar .sub) false]
  | .solverHorn => solverCmds ++ [.load "pairingsWeightParameters" (.scalar .sub) false]
  | .solverOlae => solverCmds ++ [.load "pairingsWeightParameters" (.scalar .sub) false]
  | .qualityRangeImage => [req "ncols" .nat, req "nrows" .nat, req "cx" .num, req "cy" .num, req "fx" .num, req "fy" .num,
      opt "sigma" .num, opt "penalty_not_visible" .num, opt "debug_show_all_in_window" .bool,
      opt "debug_save_all_matrices" .bool]
  | .qualityVoxels => [req "voxel_layer_name" .str, opt "dist2quality_scale" .num]

/-- Initial values of the members as written in the headers (`unset`: empty optional or empty container, or a compound whose
default is not a single literal); `""` for a default-constructed string.  FilterAdjustTimestamps.h:70-81,
FilterBoundingBox.h:54-69, FilterByIntensity.h:48-63, FilterByRange.h:54-82, FilterByRing.h:50-60,
FilterCurvature.h:54-70, FilterDecimateAdaptive.h:55-69, FilterDecimateVoxels.h:92-120,
FilterDecimateVoxelsQuadratic.h:62-88, FilterDeleteLayer.h:50-55, FilterDeskew.h:79-109, FilterEdgesPlanes.h:58-71,
FilterMerge.h:68-81, FilterNormalizeIntensity.h:63-73, FilterPoleDetector.h:53-67, FilterRemoveByVoxelOccupancy.h:65-69,
FilterVoxelSlice.h:54-58, Generator.h:112-151, GeneratorEdgesFromCurvature.h:50-51, GeneratorEdgesFromRangeImage.h:52-54,
Matcher.h:96-98, Matcher_Points_Base.h:52-71, Matcher_Adaptive.h:66-75, Matcher_Point2Line.h:59-62,
Matcher_Points_DistanceThreshold.h:60-62, Solver.h:89-97, Solver_GaussNewton.h:37-43,
QualityEvaluator_RangeImageSimilarity.h:74-80, QualityEvaluator_Voxels.h:43-45. -/
def initLit : Cls → String → Option Lit
  | .adjustTimestamps, "time_offset" => some (.num 0 1)
  | .boundingBox, "input_pointcloud_layer" => some (.str "raw")
  | .boundingBox, "inside_pointcloud_layer" => some (.str "")
  | .boundingBox, "outside_pointcloud_layer" => some (.str "")
  | .byIntensity, "output_layer_low_intensity" => some (.str "")
  | .byIntensity, "output_layer_high_intensity" => some (.str "")
  | .byIntensity, "output_layer_mid_intensity" => some (.str "")
  | .byRange, "output_layer_between" => some (.str "")
  | .byRange, "output_layer_outside" => some (.str "")
  | .byRing, "output_layer_selected" => some (.str "")
  | .byRing, "output_layer_non_selected" => some (.str "")
  | .curvature, "output_layer_larger_curvature" => some (.str "")
  | .curvature, "output_layer_smaller_curvature" => some (.str "")
  | .curvature, "output_layer_other" => some (.str "")
  | .decimateAdaptive, "enabled" => some (.bool true)
  | .decimateAdaptive, "input_pointcloud_layer" => some (.str "raw")
  | .decimateAdaptive, "assumed_minimum_pointcloud_bbox" => some (.num 10 1)
  | .decimateAdaptive, "maximum_voxel_count_per_dimension" => some (.num 100 1)
  | .decimateAdaptive, "minimum_input_points_per_voxel" => some (.num 1 1)
  | .decimateVoxels, "error_on_missing_input_layer" => some (.bool true)
  | .decimateVoxels, "minimum_input_points_to_filter" => some (.num 0 1)
  | .decimateVoxels, "use_tsl_robin_map" => some (.bool true)
  | .decimateQuadratic, "input_pointcloud_layer" => some (.str "raw")
  | .decimateQuadratic, "error_on_missing_input_layer" => some (.bool true)
  | .decimateQuadratic, "use_random_point_within_voxel" => some (.bool false)
  | .deleteLayer, "error_on_missing_input_layer" => some (.bool true)
  | .deskew, "silently_ignore_no_timestamps" => some (.bool false)
  | .deskew, "output_layer_class" => some (.str "mrpt::maps::CPointsMapXYZI")
  | .deskew, "skip_deskew" => some (.bool false)
  | .deskew, "use_precise_local_velocities" => some (.bool false)
  | .edgesPlanes, "input_pointcloud_layer" => some (.str "raw")
  | .edgesPlanes, "use_tsl_robin_map" => some (.bool true)
  | .edgesPlanes, "voxel_filter_min_e1" => some (.num 0 1)
  | .merge, "input_layer_in_local_coordinates" => some (.bool false)
  | .normalizeIntensity, "remember_intensity_range" => some (.bool false)
  | .normalizeIntensity, "fixed_minimum_intensity" => some (.num 0 1)
  | .normalizeIntensity, "fixed_maximum_intensity" => some (.num 0 1)
  | .poleDetector, "output_layer_poles" => some (.str "")
  | .poleDetector, "output_layer_no_poles" => some (.str "")
  | .poleDetector, "minimum_pole_points" => some (.num 5 1)
  | .poleDetector, "minimum_neighbors_checks_to_pass" => some (.num 3 1)
  | .removeByVoxelOccupancy, "output_layer_static_objects" => some (.str "")
  | .removeByVoxelOccupancy, "output_layer_dynamic_objects" => some (.str "")
  | .edgesFromCurvature, "min_point_clearance" => some (.num 1 10)
  | .matcherAdaptive, "minimumCorrDist" => some (.num 1 10)
  | .matcherAdaptive, "planeSearchPoints" => some (.num 8 1)
  | .matcherAdaptive, "planeMinimumFoundPoints" => some (.num 4 1)
  | .matcherAdaptive, "planeEigenThreshold" => some (.num 1 100)
  | .matcherAdaptive, "maxPt2PtCorrespondences" => some (.num 1 1)
  | .matcherAdaptive, "planeMinimumDistance" => some (.num 1 10)
  | .matcherDistance, "pairingsPerPoint" => some (.num 1 1)
  | .solverGaussNewton, "innerLoopVerbose" => some (.bool false)
  | .solverGaussNewton, "robustKernel" => some (.str "None")
  | .solverGaussNewton, "robustKernelParam" => some (.num 1 1)
  | .qualityRangeImage, "sigma" => some (.num 1 10)
  | .qualityRangeImage, "penalty_not_visible" => some (.num 2 1)
  | .qualityRangeImage, "debug_show_all_in_window" => some (.bool false)
  | .qualityRangeImage, "debug_save_all_matrices" => some (.bool false)
  | .qualityVoxels, "dist2quality_scale" => some (.num 2 1)
  | c, "target_layer" => if c = .edgesFromCurvature ∨ c = .edgesFromRangeImage then some (.str "raw") else none
  | c, "metric_map_definition_ini_file" => if c = .edgesFromCurvature ∨ c = .edgesFromRangeImage then some (.str "") else none
  | c, "process_class_names_regex" => if c = .edgesFromCurvature ∨ c = .edgesFromRangeImage then some (.str ".*") else none
  | c, "process_sensor_labels_regex" => if c = .edgesFromCurvature ∨ c = .edgesFromRangeImage then some (.str ".*") else none
  | c, "throw_on_unhandled_observation_class" =>
    if c = .edgesFromCurvature ∨ c = .edgesFromRangeImage then some (.bool false) else none
  | _, "runFromIteration" => some (.num 0 1)
  | _, "runUpToIteration" => some (.num 0 1)
  | _, "enabled" => some (.bool true)
  | _, "runUntilTranslationCorrectionSmallerThan" => some (.num 0 1)
  | _, "maxLocalPointsPerLayer" => some (.num 0 1)
  | _, "localPointsSampleSeed" => some (.num 0 1)
  | _, "allowMatchAlreadyMatchedPoints" => some (.bool false)
  | _, "allowMatchAlreadyMatchedGlobalPoints" => some (.bool false)
  | _, "bounding_box_intersection_check_epsilon" => some (.num 1 5)
  | _, _ => none

/-- a newly created object -/
def fresh (e : Ext V) (k : Cls) : Par V := fun n => match initLit k n with
  | some l => .one (e.lit l)
  | none => .unset

/-- `initialize(c)` of an object of class `k` whose members are `p` -/
def configure (e : Ext V) (k : Cls) (c : Cfg V) (p : Par V) : Par V × Bool := exec e c (cmds k) p

/-- the test of QualityEvaluator_PairedRatio.cpp:32 -/
def reusesPairings (e : Ext V) (p : Par V) : Bool := match p "reuse_icp_pairings" with
  | .one v => e.isTrue v
  | _ => false

/-- `QualityEvaluator_PairedRatio::initialize`, QualityEvaluator_PairedRatio.cpp:27-43: own members, members of its matcher. -/
def initPairedRatio (e : Ext V) (c : Cfg V) (p pm : Par V) : Par V × Par V × Bool :=
  match exec e c [opt "reuse_icp_pairings" .bool, opt "absolute_minimum_pairing_ratio" .num] p with
  | (p, false) => (p, pm, false)
  | (p, true) =>
    if reusesPairings e p then (p, pm, true)
    else
      let c' : Cfg V := fun n =>
        if n = "allowMatchAlreadyMatchedGlobalPoints" ∧ (c n).isNone then some (.scalar (e.lit (.bool true))) else c n
      let r := configure e .matcherDistance c' pm
      (p, r.1, r.2)

end Verif.Ldr
