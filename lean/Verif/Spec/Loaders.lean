import Verif.Model.Loaders
import Mathlib.Data.List.Forall2
/-
What the documentation (class headers) and the error messages say about the configuration of each class: mandatory and
optional parameters, defaults, and conditions; and what it means that a configuration is accepted and what the members are
afterwards.
-/
namespace Verif.Spec
open Verif.Ldr
variable {V : Type}

/-- The documented configuration of a class. -/
structure CfgDoc where
  mandatory : List (String × Kind)
  /-- with the documented default, if it is a single value -/
  optional : List (String × Kind × Option Lit)
  /-- at least one of these must be a non-empty name (no condition if the list is empty) -/
  oneOf : List String := []
  less : List (Ref × Ref) := []
  atMost : List (Ref × Ref) := []

/-- A row of `pointLayerMatches`: global layer, local layer, weight (1 if not given). -/
def RowIs (e : Ext V) (y : Elem V) (r : V × V × V) : Prop :=
  ∃ f g l, y = .map f ∧ f "global" = some g ∧ f "local" = some l ∧ e.as .str g = some r.1 ∧ e.as .str l = some r.2.1 ∧
    (match f "weight" with | some w => e.as .num w = some r.2.2 | none => r.2.2 = e.lit (.num 1 1))

/-- The weight of a pair of layers: that of the last row which names them. -/
def lastRow (e : Ext V) (rows : List (V × V × V)) (a b : V) : Option V :=
  (rows.reverse.find? fun r => e.eq a r.1 && e.eq b r.2.1).map (·.2.2)

/-- The scalars of a sequence, converted. -/
def ScalarsAre (e : Ext V) (t : Ty) (l : List (Elem V)) (xs : List V) : Prop :=
  List.Forall₂ (fun y x => ∃ v, y = Elem.scal v ∧ e.as t v = some x) l xs

/-- The node is a value of the kind, which is `v`. -/
inductive Reads (e : Ext V) : Kind → Node V → Val V → Prop
  | scalar {t v x} : t ≠ .sub → e.as t v = some x → Reads e (.scalar t) (.scalar v) (.one x)
  | sub {v x} : e.as .sub v = some x → Reads e (.scalar .sub) (.obj v) (.one x)
  | formula {v x} : e.as .text v = some x → Reads e .dyn (.scalar v) (.one x)
  | name {t v x} : e.as t v = some x → Reads e (.names t) (.scalar v) (.many [x])
  | names {t l xs} : l ≠ [] → ScalarsAre e t l xs → Reads e (.names t) (.seq l) (.many xs)
  | vec {k l xs} : l.length = k → ScalarsAre e .text l xs → Reads e (.vec k) (.seq l) (.many xs)
  | table {l rows} : List.Forall₂ (RowIs e) l rows → Reads e .pairsTable (.seq l) (.table (lastRow e rows))
  | posInt {v x} : e.as .int v = some x → Reads e .posInt (.scalar v) (.one x)

/-- The member after a successful initialization: the value given, or the former value.  A formula which is not given goes
through text; a count which must be positive is ignored otherwise. -/
def MemberIs (e : Ext V) (k : Kind) (given : Option (Node V)) (old new : Val V) : Prop :=
  match given with
  | some y => ∃ v, Reads e k y v ∧
      ((k ≠ .posInt ∧ new = v) ∨
        (k = .posInt ∧ ∃ x, v = .one x ∧ ((e.lt (e.lit (.num 0 1)) x = true ∧ new = v) ∨
          (e.lt (e.lit (.num 0 1)) x = false ∧ new = old))))
  | none => (k ≠ .dyn ∧ new = old) ∨ (k = .dyn ∧ ((∃ v, old = .one v ∧ new = .one (e.toText v)) ∨
      ((∀ v, old ≠ .one v) ∧ new = old)))

def CfgDoc.options (d : CfgDoc) : List (String × Kind) := d.mandatory ++ d.optional.map fun o => (o.1, o.2.1)

/-- The members are `q` after a successful initialization of an object with members `p`. -/
def MembersAre (e : Ext V) (d : CfgDoc) (c : Cfg V) (p q : Par V) : Prop :=
  (∀ n k, (n, k) ∈ d.options → MemberIs e k (c n) (p n) (q n)) ∧
  (∀ n, (∀ k, (n, k) ∉ d.options) → q n = p n)

def NonEmptyName (e : Ext V) (v : Val V) : Prop := ∃ x, v = .one x ∧ e.isEmpty x = false

def RefIs (e : Ext V) (q : Par V) (r : Ref) (x : V) : Prop :=
  match r with
  | .par n => q n = .one x
  | .lit l => x = e.lit l

/-- The conditions the members must meet. -/
def Conditions (e : Ext V) (d : CfgDoc) (q : Par V) : Prop :=
  (d.oneOf ≠ [] → ∃ n ∈ d.oneOf, NonEmptyName e (q n)) ∧
  (∀ a b, (a, b) ∈ d.less → ∃ x y, RefIs e q a x ∧ RefIs e q b y ∧ e.lt x y = true) ∧
  (∀ a b, (a, b) ∈ d.atMost → ∃ x y, RefIs e q a x ∧ RefIs e q b y ∧ e.le x y = true)

/-- The configuration is one the documentation allows: mandatory options given, what is given is readable, and the
resulting members meet the conditions. -/
def Accepts (e : Ext V) (d : CfgDoc) (c : Cfg V) (p : Par V) : Prop :=
  (∀ n k, (n, k) ∈ d.mandatory → (c n).isSome) ∧
  (∀ n k y, (n, k) ∈ d.options → c n = some y → ∃ v, Reads e k y v) ∧
  (∀ q, MembersAre e d c p q → Conditions e d q)

/-- Options of all generators. -/
def generatorOptions : List (String × Kind × Option Lit) :=
  [("target_layer", .scalar .str, some (.str "raw")), ("metric_map_definition_ini_file", .scalar .str, some (.str "")),
   ("process_class_names_regex", .scalar .str, some (.str ".*")),
   ("process_sensor_labels_regex", .scalar .str, some (.str ".*")),
   ("throw_on_unhandled_observation_class", .scalar .bool, some (.bool false))]

/-- Options of all matchers of points. -/
def matcherOptions : List (String × Kind × Option Lit) :=
  [("enabled", .scalar .bool, some (.bool true)), ("runFromIteration", .scalar .nat, some (.num 0 1)),
   ("runUpToIteration", .scalar .nat, some (.num 0 1)), ("maxLocalPointsPerLayer", .scalar .nat, some (.num 0 1)),
   ("localPointsSampleSeed", .scalar .nat, some (.num 0 1)), ("pointLayerMatches", .pairsTable, none),
   ("allowMatchAlreadyMatchedPoints", .scalar .bool, some (.bool false)),
   ("allowMatchAlreadyMatchedGlobalPoints", .scalar .bool, some (.bool false)), ("kdtree_leaf_max_points", .posInt, none),
   ("bounding_box_intersection_check_epsilon", .scalar .num, some (.num 1 5))]

/-- Options of all solvers. -/
def solverOptions : List (String × Kind × Option Lit) :=
  [("enabled", .scalar .bool, some (.bool true)), ("runFromIteration", .scalar .nat, some (.num 0 1)),
   ("runUpToIteration", .scalar .nat, some (.num 0 1)),
   ("runUntilTranslationCorrectionSmallerThan", .scalar .num, some (.num 0 1))]

/-- The documented configurations (`thresholdAngularDeg` of the distance matcher is not in its documentation, see
`matcher_documented_config_refused`). -/
def cfgDoc : Cls → CfgDoc
  | .adjustTimestamps => {
      mandatory := [("pointcloud_layer", .scalar .str), ("silently_ignore_no_timestamps", .scalar .bool),
        ("method", .scalar (.enum ["EarliestIsZero", "MiddleIsZero", "Normalize"]))]
      optional := [("time_offset", .dyn, some (.num 0 1))] }
  | .boundingBox => {
      mandatory := [("bounding_box_min", .vec 3), ("bounding_box_max", .vec 3)]
      optional := [("input_pointcloud_layer", .scalar .str, some (.str "raw")),
        ("inside_pointcloud_layer", .scalar .str, some (.str "")),
        ("outside_pointcloud_layer", .scalar .str, some (.str ""))]
      oneOf := ["inside_pointcloud_layer", "outside_pointcloud_layer"] }
  | .byIntensity => {
      mandatory := [("input_pointcloud_layer", .scalar .str), ("low_threshold", .scalar .num),
        ("high_threshold", .scalar .num)]
      optional := [("output_layer_low_intensity", .scalar .str, some (.str "")),
        ("output_layer_mid_intensity", .scalar .str, some (.str "")),
        ("output_layer_high_intensity", .scalar .str, some (.str ""))]
      oneOf := ["output_layer_low_intensity", "output_layer_mid_intensity", "output_layer_high_intensity"] }
  | .byRange => {
      mandatory := [("input_pointcloud_layer", .scalar .str), ("range_min", .dyn), ("range_max", .dyn)]
      optional := [("output_layer_between", .scalar .str, some (.str "")),
        ("output_layer_outside", .scalar .str, some (.str "")), ("center", .vec 3, none)]
      oneOf := ["output_layer_between", "output_layer_outside"] }
  | .byRing => {
      mandatory := [("input_pointcloud_layer", .scalar .str), ("selected_ring_ids", .names .int)]
      optional := [("output_layer_selected", .scalar .str, some (.str "")),
        ("output_layer_non_selected", .scalar .str, some (.str ""))] }
  | .curvature => {
      mandatory := [("input_pointcloud_layer", .scalar .str), ("max_cosine", .scalar .num),
        ("min_clearance", .scalar .num), ("max_gap", .scalar .num)]
      optional := [("output_layer_larger_curvature", .scalar .str, some (.str "")),
        ("output_layer_smaller_curvature", .scalar .str, some (.str "")),
        ("output_layer_other", .scalar .str, some (.str ""))] }
  | .decimateAdaptive => {
      mandatory := [("output_pointcloud_layer", .scalar .str), ("desired_output_point_count", .scalar .nat)]
      optional := [("enabled", .scalar .bool, some (.bool true)), ("input_pointcloud_layer", .scalar .str, some (.str "raw")),
        ("assumed_minimum_pointcloud_bbox", .scalar .num, some (.num 10 1)),
        ("maximum_voxel_count_per_dimension", .scalar .nat, some (.num 100 1)),
        ("minimum_input_points_per_voxel", .scalar .nat, some (.num 1 1))] }
  | .decimateVoxels => {
      mandatory := [("input_pointcloud_layer", .names .str), ("output_pointcloud_layer", .scalar .str),
        ("voxel_filter_resolution", .dyn),
        ("decimate_method", .scalar (.enum ["FirstPoint", "ClosestToAverage", "VoxelAverage", "RandomPoint"]))]
      optional := [("error_on_missing_input_layer", .scalar .bool, some (.bool true)),
        ("minimum_input_points_to_filter", .scalar .nat, some (.num 0 1)),
        ("use_tsl_robin_map", .scalar .bool, some (.bool true)), ("flatten_to", .scalar .num, none)] }
  | .decimateQuadratic => {
      mandatory := [("output_pointcloud_layer", .scalar .str), ("voxel_filter_resolution", .scalar .num),
        ("quadratic_reference_radius", .scalar .num), ("use_voxel_average", .scalar .bool),
        ("use_closest_to_voxel_average", .scalar .bool)]
      optional := [("input_pointcloud_layer", .scalar .str, some (.str "raw")),
        ("error_on_missing_input_layer", .scalar .bool, some (.bool true)),
        ("use_random_point_within_voxel", .scalar .bool, some (.bool false))] }
  | .deleteLayer => {
      mandatory := [("pointcloud_layer_to_remove", .names .str)]
      optional := [("error_on_missing_input_layer", .scalar .bool, some (.bool true))] }
  | .deskew => {
      mandatory := [("input_pointcloud_layer", .scalar .str), ("output_pointcloud_layer", .scalar .str)]
      optional := [("output_layer_class", .scalar .str, some (.str "mrpt::maps::CPointsMapXYZI")),
        ("silently_ignore_no_timestamps", .scalar .bool, some (.bool false)),
        ("skip_deskew", .scalar .bool, some (.bool false)),
        ("use_precise_local_velocities", .scalar .bool, some (.bool false)), ("twist", .vec 6, none)] }
  | .edgesPlanes => {
      mandatory := [("full_pointcloud_decimation", .scalar .nat), ("voxel_filter_resolution", .scalar .num),
        ("voxel_filter_decimation", .scalar .nat), ("voxel_filter_max_e2_e0", .scalar .num),
        ("voxel_filter_max_e1_e0", .scalar .num), ("voxel_filter_min_e2_e0", .scalar .num),
        ("voxel_filter_min_e1_e0", .scalar .num)]
      optional := [("input_pointcloud_layer", .scalar .str, some (.str "raw")),
        ("use_tsl_robin_map", .scalar .bool, some (.bool true)), ("voxel_filter_min_e1", .scalar .num, some (.num 0 1))] }
  | .merge => {
      mandatory := [("input_pointcloud_layer", .scalar .str), ("target_layer", .scalar .str)]
      optional := [("input_layer_in_local_coordinates", .scalar .bool, some (.bool false)), ("robot_pose", .vec 6, none)] }
  | .normalizeIntensity => {
      mandatory := [("pointcloud_layer", .scalar .str)]
      optional := [("remember_intensity_range", .scalar .bool, some (.bool false)),
        ("fixed_maximum_intensity", .scalar .num, some (.num 0 1)),
        ("fixed_minimum_intensity", .scalar .num, some (.num 0 1))] }
  | .poleDetector => {
      mandatory := [("input_pointcloud_layer", .scalar .str), ("grid_size", .dyn), ("minimum_relative_height", .dyn),
        ("maximum_relative_height", .dyn)]
      optional := [("output_layer_poles", .scalar .str, some (.str "")),
        ("output_layer_no_poles", .scalar .str, some (.str "")), ("minimum_pole_points", .scalar .nat, some (.num 5 1)),
        ("minimum_neighbors_checks_to_pass", .scalar .nat, some (.num 3 1))]
      oneOf := ["output_layer_poles", "output_layer_no_poles"] }
  | .removeByVoxelOccupancy => {
      mandatory := [("input_pointcloud_layer", .scalar .str), ("input_voxel_layer", .scalar .str),
        ("occupancy_threshold", .dyn)]
      optional := [("output_layer_static_objects", .scalar .str, some (.str "")),
        ("output_layer_dynamic_objects", .scalar .str, some (.str ""))] }
  | .voxelSlice => {
      mandatory := [("input_layer", .scalar .str), ("output_layer", .scalar .str), ("slice_z_min", .dyn),
        ("slice_z_max", .dyn)]
      optional := [] }
  | .edgesFromCurvature => {
      mandatory := [("max_cosine", .dyn)]
      optional := ("min_point_clearance", .dyn, some (.num 1 10)) :: generatorOptions }
  | .edgesFromRangeImage => {
      mandatory := [("planes_target_layer", .scalar .str), ("score_threshold", .scalar .int)]
      optional := generatorOptions }
  | .matcherAdaptive => {
      mandatory := [("confidenceInterval", .scalar .num), ("firstToSecondDistanceMax", .scalar .num),
        ("absoluteMaxSearchDistance", .scalar .num), ("enableDetectPlanes", .scalar .bool)]
      optional := [("maxPt2PtCorrespondences", .scalar .nat, some (.num 1 1)),
        ("planeSearchPoints", .scalar .nat, some (.num 8 1)), ("planeMinimumFoundPoints", .scalar .nat, some (.num 4 1)),
        ("planeMinimumDistance", .scalar .num, some (.num 1 10)), ("planeEigenThreshold", .scalar .num, some (.num 1 100)),
        ("minimumCorrDist", .scalar .num, some (.num 1 10))] ++ matcherOptions
      less := [(.lit (.num 0 1), .par "confidenceInterval"), (.par "confidenceInterval", .lit (.num 1 1)),
        (.lit (.num 0 1), .par "planeEigenThreshold")]
      atMost := [(.lit (.num 3 1), .par "planeMinimumFoundPoints"),
        (.par "planeMinimumFoundPoints", .par "planeSearchPoints")] }
  | .matcherPoint2Line => {
      mandatory := [("distanceThreshold", .scalar .num), ("knn", .scalar .nat), ("minimumLinePoints", .scalar .nat),
        ("lineEigenThreshold", .scalar .num)]
      optional := matcherOptions
      atMost := [(.lit (.num 2 1), .par "minimumLinePoints")] }
  | .matcherPoint2Plane => { mandatory := [("distanceThreshold", .dyn)], optional := matcherOptions }
  | .matcherDistance => {
      mandatory := [("threshold", .dyn), ("thresholdAngularDeg", .dyn)]
      optional := ("pairingsPerPoint", .dyn, some (.num 1 1)) :: matcherOptions }
  | .matcherInlierRatio => { mandatory := [("inliersRatio", .scalar .num)], optional := matcherOptions }
  | .solverGaussNewton => {
      mandatory := [("maxIterations", .scalar .nat)]
      optional := [("robustKernel", .scalar (.enum ["None", "GemanMcClure", "Cauchy"]), some (.str "None")),
        ("robustKernelParam", .dyn, some (.num 1 1)), ("innerLoopVerbose", .scalar .bool, some (.bool false)),
        ("pair_weights", .scalar .sub, none)] ++ solverOptions }
  | .solverHorn => { mandatory := [], optional := ("pairingsWeightParameters", .scalar .sub, none) :: solverOptions }
  | .solverOlae => { mandatory := [], optional := ("pairingsWeightParameters", .scalar .sub, none) :: solverOptions }
  | .qualityRangeImage => {
      mandatory := [("ncols", .scalar .nat), ("nrows", .scalar .nat), ("cx", .scalar .num), ("cy", .scalar .num),
        ("fx", .scalar .num), ("fy", .scalar .num)]
      optional := [("sigma", .scalar .num, some (.num 1 10)), ("penalty_not_visible", .scalar .num, some (.num 2 1)),
        ("debug_show_all_in_window", .scalar .bool, some (.bool false)),
        ("debug_save_all_matrices", .scalar .bool, some (.bool false))] }
  | .qualityVoxels => {
      mandatory := [("voxel_layer_name", .scalar .str)]
      optional := [("dist2quality_scale", .scalar .num, some (.num 2 1))] }

end Verif.Spec
