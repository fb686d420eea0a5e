import Verif.Model.Visual
import Verif.Model.LogViewer
/-
The program `mm-viewer`: /repo/apps/mm-viewer/main.cpp, as a machine driven by the events of its window.
The program goes on after an exception in an event handler (it is printed), so an event leaves a state even if it throws.
Simplifications: `float`s are elements of an ordered field; flags of voxel layers which a rendering sets before it throws are ignored; captions
of the layer boxes, the small corner view, the mouse position and the labels of the sliders are left out; an event may set several options at
once (the window changes one at a time); a number in a text box is the number, or none if `std::stod` refuses the text.
-/
namespace Verif
namespace MmView
open Viz LogView
variable {K P : Type} [Field K] [LinearOrder K]

deriving instance DecidableEq for PlanesP, LinesP, ColorMode, LayerP, PointsP, RenderP

/-- `TCamera` parameters: the point looked at, angles in degrees, distance -/
structure Cam (K : Type) where
  px : K
  py : K
  pz : K
  az : K
  el : K
  zoom : K
  deriving DecidableEq

/-- a key frame of the camera path (`TPose3D`) -/
structure Key (K : Type) where
  x : K
  y : K
  z : K
  yaw : K
  pitch : K
  roll : K
  deriving DecidableEq

/-- External: MRPT, the C library, the identity pose. -/
structure VExt (K P : Type) where
  viz : Viz.Ext K
  /-- `pointcloud_sanity_check` -/
  sane : List (P3 K) → Bool
  cosd : K → K
  sind : K → K
  toRad : K → K
  toDeg : K → K
  exp : K → K
  pow10 : K → K
  sqrt : K → K
  /-- `CPose3DInterpolator::interpolate`; the flag is "spline" -/
  interp : Bool → AMap K (Key K) → K → Option (Key K)
  idPose : P
  /-- the files `saveMetricMapRepresentationToFile` of a layer writes -/
  exportFiles : Layer K Nat → String → List (String × List Nat)

/-- the option widgets of tabs "Maps" and "View" -/
structure Opts (K : Type) where
  size : K
  voxPts : Bool
  voxFree : Bool
  colorize : Bool
  keep : Bool
  geo : Bool
  grid : Bool
  ortho : Bool
  flat : Bool
  mid : K
  depth : K
  fov : K
  deriving DecidableEq

/-- State of the program. -/
structure St (K P : Type) where
  map : VMap K Nat
  georef : Option P
  fileName : String
  /-- global `layerNames` -/
  names : List String
  /-- the layer boxes of the panel; `cbLayersByName` points to the last one of each name -/
  panel : List (String × Bool)
  opts : Opts K
  thick : K
  /-- positions of the trajectory file -/
  traj : List (P3 K)
  /-- static `prevRenderParams` -/
  prev : Option (RenderP K Nat)
  /-- the map rendered in the window, `none` if there is nothing -/
  shown : Option (List (Obj K Nat))
  title : String
  mapPose : P
  gridPose : P
  enu : Bool
  gridOn : Bool
  gridBox : Option (P3 K × P3 K)
  segs : List (P3 K × P3 K)
  radius : K
  doFit : Bool
  cam : Cam K
  projective : Bool
  fov : K
  clip : K × K
  keys : AMap K (Key K)
  cur : Option K
  timeBox : Option K
  fpsBox : Option K
  spline : Bool
  files : AMap String (List Nat)

/-- what `load_from_file` finds: no file; a file whose reading throws, with what is then in the map; a map -/
inductive FileRes (K P : Type) where
  | unopenable
  | broken (left : VMap K Nat) (georef : Option P)
  | loaded (m : VMap K Nat) (georef : Option P)

/-- the sanity checks, main.cpp:131-140 -/
def saneLayers (x : VExt K P) : AMap String (Layer K Nat) → Outcome Unit
  | [] => .ok ()
  | (_, l) :: r =>
    match l.kind with
    | .null => .ub
    | .points pts => if x.sane pts then saneLayers x r else .throw
    | _ => saneLayers x r

/-- `loadMapFile`, main.cpp:114-142 -/
def loadMap (x : VExt K P) (s : St K P) (path : String) : FileRes K P → Res (St K P)
  | .unopenable => .done s
  | .broken m g => .threw { s with map := m, georef := g }
  | .loaded m g =>
    let s := { s with map := m, georef := g, fileName := path, names := s.names ++ m.layers.map (·.1) }
    match saneLayers x m.layers with
    | .ok _ => .done s
    | .throw => .threw s
    | .ub => .ub

/-- `rebuildLayerCheckboxes`, main.cpp:196-214 -/
def rebuildBoxes (s : St K P) : St K P := { s with panel := s.names.map (·, true) }

/-- `cbLayersByName`, main.cpp:212: the state of the last box of each name -/
def boxes (s : St K P) : AMap String Bool := s.panel.foldl (fun m b => AMap.set m b.1 b.2) []

/-- the buttons "all" and "none", main.cpp:527-546: only the boxes in `cbLayersByName` -/
def setAll (b : Bool) : List (String × Bool) → List (String × Bool)
  | [] => []
  | (n, v) :: r => (if n ∈ r.map (·.1) then (n, v) else (n, b)) :: setAll b r

/-- the colour mode: main.cpp:946-956; values of a new `color_mode_t` from render_params.h:82-109 (1: `cmJET`, 2: `cmHOT`) -/
def colorMode (o : Opts K) : Option (ColorMode K) :=
  if o.keep then some { keep := true, map := 2, coord := none, lo := none, hi := none, percentile := some (1 / 40) }
  else if o.colorize then some { keep := false, map := 1, coord := some 2, lo := none, hi := none, percentile := some (1 / 40) }
  else none

/-- parameters of a checked layer: main.cpp:939-960 -/
def layerP (o : Opts K) : LayerP K Nat :=
  { size := o.size, color := 0xff0000ff, mode := colorMode o, voxelsAsPoints := o.voxPts, freeSpace := o.voxFree }

/-- `rpMap`, main.cpp:905-960; defaults from render_params.h:40-71, 127-139 -/
def params (s : St K P) : RenderP K Nat :=
  { planes := { visible := true, halfWidth := 1, spacing := 1 / 4, color := 0xffffffff }
    lines := { visible := true, color := 0xff0000ff, length := 20, lengths := none }
    points :=
      { visible := (boxes s).any (·.2)
        allLayers := { size := 1, color := 0x0000ffff, mode := none, voxelsAsPoints := false, freeSpace := false }
        perLayer := ((boxes s).filter (·.2)).map fun b => (b.1, layerP s.opts) } }

/-- bounding box of a cloud, metricmap-independent (`CPointsMap::boundingBox`, external) -/
def cloudBox (pts : List (P3 K)) : P3 K × P3 K :=
  (⟨(bboxCoord 0 pts).1, (bboxCoord 1 pts).1, (bboxCoord 2 pts).1⟩, ⟨(bboxCoord 0 pts).2, (bboxCoord 1 pts).2, (bboxCoord 2 pts).2⟩)

/-- `TBoundingBox::unionWith` (external) -/
def unionBox (a b : P3 K × P3 K) : P3 K × P3 K :=
  (⟨min a.1.x b.1.x, min a.1.y b.1.y, min a.1.z b.1.z⟩, ⟨max a.2.x b.2.x, max a.2.y b.2.y, max a.2.z b.2.z⟩)

/-- main.cpp:907-935 for the box names `ns`: the box of all their point clouds, checked or not -/
def mapBox (ls : AMap String (Layer K Nat)) : List String → Option (P3 K × P3 K) → Outcome (Option (P3 K × P3 K))
  | [], b => .ok b
  | n :: ns, b =>
    match AMap.get ls n with
    | none => mapBox ls ns b
    | some l =>
      match l.kind with
      | .null => .ub
      | .points pts =>
        match b with
        | none => mapBox ls ns (some (cloudBox pts))
        | some b => mapBox ls ns (some (unionBox b (cloudBox pts)))
      | _ => mapBox ls ns b

/-- main.cpp:962-980: the map is rendered only if the parameters have changed -/
def drawMap (x : VExt K P) (s : St K P) : Res (St K P) :=
  if s.prev = some (params s) then .done s
  else match Viz.view x.viz (params s) s.map with
    | .ok (o, m) => .done { s with prev := some (params s), shown := some o, map := m }
    | .throw => .threw { s with prev := some (params s), shown := none }
    | .ub => .ub

/-- main.cpp:982-994: the georeferenced pose -/
def placeMap (x : VExt K P) (s : St K P) : St K P :=
  match s.opts.geo, s.georef with
  | true, some T => { s with mapPose := T, gridPose := T, enu := true }
  | _, _ => { s with mapPose := x.idPose, gridPose := x.idPose, enu := false }

/-- main.cpp:996-1013: grid and "fit view" -/
def fitView (x : VExt K P) (bb : Option (P3 K × P3 K)) (s : St K P) : St K P :=
  match bb with
  | none => { s with gridOn := s.opts.grid, doFit := false }
  | some b =>
    let s := { s with gridBox := some b, gridOn := s.opts.grid }
    if s.doFit then
      { s with doFit := false
               cam := { s.cam with px := (b.1.x + b.2.x) * (1 / 2), py := (b.1.y + b.2.y) * (1 / 2), pz := (b.1.z + b.2.z) * (1 / 2)
                                   zoom := x.sqrt ((b.2.x - b.1.x) ^ 2 + (b.2.y - b.1.y) ^ 2 + (b.2.z - b.1.z) ^ 2) } }
    else s

/-- main.cpp:1015-1040: the trajectory, built if it is not there -/
def drawTraj (x : VExt K P) (s : St K P) : St K P :=
  if s.segs.isEmpty && decide (2 ≤ s.traj.length) then
    { s with segs := s.traj.zip s.traj.tail, radius := x.exp s.thick }
  else s

/-- main.cpp:1066-1090: camera options -/
def cameraOpts (x : VExt K P) (s : St K P) : St K P :=
  { s with projective := !s.opts.ortho && !s.opts.flat
           clip := (max (1 / 100) (x.pow10 s.opts.mid - 1 / 2 * x.pow10 s.opts.depth), x.pow10 s.opts.mid + 1 / 2 * x.pow10 s.opts.depth)
           fov := s.opts.fov }

/-- `rebuild_3d_view`, main.cpp:892-1091 -/
def rebuild (x : VExt K P) (s : St K P) : Res (St K P) :=
  let s := { s with title := s.fileName }
  match mapBox s.map.layers ((boxes s).map (·.1)) none with
  | .ok bb =>
    match drawMap x s with
    | .done s => .done (cameraOpts x (drawTraj x (fitView x bb (placeMap x s))))
    | .threw s => .threw s
    | .ub => .ub
  | .throw => .threw s
  | .ub => .ub

/-- keys of `onKeyboardAction` -/
inductive Arrow where
  | ahead | backward | a | d | left | right
  deriving DecidableEq

/-- sign of a rotation, main.cpp:276 -/
def turnSign (k : Arrow) : K := if k = .left then -1 else 1

/-- `TCamera::setElevationDeg` (external) -/
def clampEl (e : K) : K := if e < -90 then -90 else if 90 < e then 90 else e

/-- the eye, main.cpp:279-284 -/
def eyeOf (x : VExt K P) (dis : K) (c : Cam K) : P3 K :=
  ⟨c.px + dis * x.cosd c.az * x.cosd c.el, c.py + dis * x.sind c.az * x.cosd c.el, c.pz + dis * x.sind c.el⟩

/-- arrows left and right, main.cpp:273-303 -/
def orbit (x : VExt K P) (k : Arrow) (c : Cam K) : Cam K :=
  let dis := max (1 / 100) c.zoom
  let eye := eyeOf x dis c
  let c := { c with az := c.az + -1 * turnSign k, el := clampEl (c.el + 1 * 0) }
  { c with px := eye.x - dis * x.cosd c.az * x.cosd c.el, py := eye.y - dis * x.sind c.az * x.cosd c.el, pz := eye.z - dis * x.sind c.el }

/-- a slide of the camera, main.cpp:245-270 -/
def slide (x : VExt K P) (az d : K) (c : Cam K) : Cam K :=
  { c with px := c.px + d * x.cosd az * c.zoom * (1 / 100), py := c.py + d * x.sind az * c.zoom * (1 / 100) }

/-- `onKeyboardAction`, main.cpp:236-308; up and W are `ahead`, down and S are `backward` -/
def onKey (x : VExt K P) (c : Cam K) : Arrow → Cam K
  | .ahead => slide x c.az (-1) c
  | .backward => slide x c.az 1 c
  | .a => slide x (c.az + 90) (-1) c
  | .d => slide x (c.az + 90) 1 c
  | .left => orbit x .left c
  | .right => orbit x .right c

/-- the key frame for a camera, main.cpp:699-705 -/
def keyOf (x : VExt K P) (c : Cam K) : Key K := ⟨c.px, c.py, c.pz, x.toRad c.az, x.toRad c.el, c.zoom * (1 / 10000)⟩

/-- the camera for a key frame, main.cpp:338-341 -/
def camOf (x : VExt K P) (k : Key K) : Cam K := ⟨k.x, k.y, k.z, x.toDeg k.yaw, x.toDeg k.pitch, k.roll / (1 / 10000)⟩

/-- `observeViewOptions`, main.cpp:175-182 -/
def observe (s : St K P) : St K P := if s.opts.flat then { s with cam := { s.cam with az := -90, el := 90 } } else s

/-- the camera at time `t` of the path, main.cpp:326-342 -/
def moveCam (x : VExt K P) (s : St K P) (t : K) : St K P :=
  match x.interp s.spline s.keys t with
  | some k => { s with cam := camOf x k }
  | none => s

/-- `processCameraTravelling`, main.cpp:317-350 -/
def travel (x : VExt K P) (s : St K P) : Res (St K P) :=
  match s.cur with
  | none => .done s
  | some t =>
    match s.keys.getLast? with
    | none => .ub
    | some (t1, _) =>
      if t1 ≤ t then .done { s with cur := none }
      else
        let s := moveCam x s t
        match s.fpsBox with
        | none => .threw s
        | some f => if 0 < f then .done { s with cur := some (t + 1 / f) } else .threw s

/-- `onSaveLayers`, main.cpp:1093-1106 -/
def exportLayers (x : VExt K P) (s : St K P) (path : String) : St K P :=
  { s with files := (boxes s).foldl (fun fs b =>
      match AMap.get s.map.layers b.1 with
      | some l => (x.exportFiles l path).foldl (fun fs f => AMap.set fs f.1 f.2) fs
      | none => fs) s.files }

/-- Events of the window. -/
inductive Ev (K P : Type) where
  | load (path : String) (r : FileRes K P)
  /-- click on the i-th layer box -/
  | box (i : Nat)
  | all (b : Bool)
  | options (o : Opts K)
  | thickness (v : K)
  | fit
  | saveLayers (path : String)
  | timeText (t : Option K)
  | fpsText (t : Option K)
  | interpMode (spline : Bool)
  | addKey
  | animate
  | stop
  | key (k : Arrow)
  /-- the camera moved with the mouse -/
  | mouse (c : Cam K)
  /-- a pass of the main loop -/
  | frame

/-- One event: main.cpp:425-446, 480-546, 550-640, 690-760, 765-775, 868-876. -/
def step (x : VExt K P) (s : St K P) : Ev K P → Res (St K P)
  | .load path r =>
    match loadMap x s path r with
    | .done s => rebuild x (rebuildBoxes s)
    | o => o
  | .box i =>
    match s.panel[i]? with
    | some (n, b) => rebuild x { s with panel := s.panel.set i (n, !b) }
    | none => .done s
  | .all b => rebuild x { s with panel := setAll b s.panel }
  | .options o => rebuild x { s with opts := o }
  | .thickness v => rebuild x { s with thick := v, segs := [] }
  | .fit => rebuild x { s with doFit := true }
  | .saveLayers path => .done (exportLayers x s path)
  | .timeText t => .done { s with timeBox := t }
  | .fpsText t => .done { s with fpsBox := t }
  | .interpMode b => .done { s with spline := b }
  | .addKey =>
    match s.timeBox with
    | none => .threw s
    | some t => .done { s with keys := AMap.set s.keys t (keyOf x s.cam), timeBox := some (t + 1) }
  | .animate =>
    match s.cur, s.keys.head? with
    | none, some (t0, _) => .done { s with cur := some t0 }
    | _, _ => .done s
  | .stop => .done { s with cur := none }
  | .key k => .done { s with cam := onKey x s.cam k }
  | .mouse c => .done { s with cam := c }
  | .frame => travel x (observe s)

/-- the user's configuration file: booleans and numbers by name -/
structure Cfg (K : Type) where
  flags : AMap String Bool
  nums : AMap String K

/-- `save_UI_state_to_user_config`, main.cpp:830-853 -/
def saveCfg (c : Cfg K) (s : St K P) : Cfg K :=
  let f := [("cbApplyGeoRef", s.opts.geo), ("cbViewOrtho", s.opts.ortho), ("cbView2D", s.opts.flat),
    ("cbViewVoxelsAsPoints", s.opts.voxPts), ("cbViewVoxelsFreeSpace", s.opts.voxFree), ("cbColorizeMap", s.opts.colorize),
    ("cbKeepOriginalCloudColors", s.opts.keep), ("cbShowGroundGrid", s.opts.grid)]
  let n := [("slPointSize", s.opts.size), ("slTrajectoryThickness", s.thick), ("slMidDepthField", s.opts.mid),
    ("slThicknessDepthField", s.opts.depth), ("slCameraFOV", s.opts.fov), ("cam_x", s.cam.px), ("cam_y", s.cam.py), ("cam_z", s.cam.pz),
    ("cam_az", s.cam.az), ("cam_el", s.cam.el), ("cam_d", s.cam.zoom)]
  { flags := f.foldl (fun m b => AMap.set m b.1 b.2) c.flags, nums := n.foldl (fun m b => AMap.set m b.1 b.2) c.nums }

/-- `load_UI_state_from_user_config`, main.cpp:795-829 -/
def loadCfg (c : Cfg K) (s : St K P) : St K P :=
  let f := fun (n : String) (d : Bool) => (AMap.get c.flags n).getD d
  let r := fun (n : String) (d : K) => (AMap.get c.nums n).getD d
  { s with
    opts := { size := r "slPointSize" s.opts.size, voxPts := f "cbViewVoxelsAsPoints" s.opts.voxPts,
              voxFree := f "cbViewVoxelsFreeSpace" s.opts.voxFree, colorize := f "cbColorizeMap" s.opts.colorize,
              keep := f "cbKeepOriginalCloudColors" s.opts.keep, geo := f "cbApplyGeoRef" s.opts.geo,
              grid := f "cbShowGroundGrid" s.opts.grid, ortho := f "cbViewOrtho" s.opts.ortho, flat := f "cbView2D" s.opts.flat,
              mid := r "slMidDepthField" s.opts.mid, depth := r "slThicknessDepthField" s.opts.depth, fov := r "slCameraFOV" s.opts.fov }
    thick := r "slTrajectoryThickness" s.thick
    cam := { px := r "cam_x" s.cam.px, py := r "cam_y" s.cam.py, pz := r "cam_z" s.cam.pz, az := r "cam_az" s.cam.az,
             el := r "cam_el" s.cam.el, zoom := r "cam_d" s.cam.zoom } }

/-- State when the window has been built, main.cpp:96-110, 365-790; `thick0` is the logarithm of 0.05. -/
def initial (x : VExt K P) (thick0 : K) (traj : List (P3 K)) (files : AMap String (List Nat)) : St K P :=
  { map := ⟨[], [], []⟩, georef := none, fileName := "unnamed.mm", names := [], panel := [],
    opts := { size := 2, voxPts := false, voxFree := false, colorize := true, keep := false, geo := false, grid := true, ortho := false,
              flat := false, mid := 1, depth := 3, fov := 90 },
    thick := thick0, traj := traj, prev := none, shown := none, title := "  ", mapPose := x.idPose, gridPose := x.idPose, enu := true, gridOn := true,
    gridBox := none, segs := [], radius := 0, doFit := false, cam := ⟨8, 0, 0, 110, 15, 50⟩, projective := true, fov := 90, clip := (0, 0), keys := [],
    cur := none, timeBox := some 0, fpsBox := some 30, spline := false, files := files }

/-- the map file of the command line, main.cpp:356-359 -/
def loadArg (x : VExt K P) (s : St K P) : Option (String × FileRes K P) → Res (St K P)
  | none => .done s
  | some (path, r) => loadMap x s path r

/-- The program up to its main loop: main.cpp:352-364, 780-858, 1136-1150.  `arg` is the map file of the command line with what is found in it,
`traj` the trajectory file (`some none`: missing or refused). -/
def start (x : VExt K P) (thick0 : K) (cfg : Cfg K) (arg : Option (String × FileRes K P)) (traj : Option (Option (List (P3 K))))
    (files : AMap String (List Nat)) : Res (Option (St K P)) :=
  match traj with
  | some none => .threw none
  | none | some (some _) =>
    let s := initial x thick0 ((traj.getD none).getD []) files
    match loadArg x s arg with
    | .done s =>
      match rebuild x (loadCfg cfg (rebuildBoxes s)) with
      | .done s => .done (some s)
      | .threw _ => .threw none
      | .ub => .ub
    | .threw _ => .threw none
    | .ub => .ub

/-- A history of events, whether they throw or not. -/
def runFrom (x : VExt K P) : St K P → List (Ev K P) → Option (St K P)
  | s, [] => some s
  | s, a :: as =>
    match step x s a with
    | .done s => runFrom x s as
    | .threw s => runFrom x s as
    | .ub => none

end MmView
end Verif
