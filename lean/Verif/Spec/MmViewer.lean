import Verif.Model.MmViewer
import Verif.Spec.Visual
import Mathlib.Order.Bounds.Basic
/-
What the user of `mm-viewer` expects to see (C97, C98).
-/
namespace Verif.Spec
open Verif Verif.Viz Verif.LogView
open Verif.MmView (VExt St Opts FileRes Ev Cfg Cam Key Arrow)
variable {K P : Type} [Field K] [LinearOrder K]

/-- A map that can be shown: its layers are there and their clouds are sound, and its planes go through their centroids. -/
structure GoodMap (x : VExt K P) (m : VMap K Nat) : Prop where
  sorted : AMap.Sorted m.layers
  planes : ∀ pl ∈ m.planes, x.viz.poseOk pl = true
  there : ∀ n l, (n, l) ∈ m.layers → l.kind ≠ .null
  sane : ∀ n l pts, (n, l) ∈ m.layers → l.kind = .points pts → x.sane pts = true

/-- How a layer is to be drawn for the options of the window: in its own colours if these are to be kept, or else coloured by height if that is
on, or else in red. -/
structure AskedLayer (o : Opts K) (q : LayerP K Nat) : Prop where
  size : q.size = o.size
  points : q.voxelsAsPoints = o.voxPts
  free : q.freeSpace = o.voxFree
  red : q.color = 0xff0000ff
  keep : o.keep = true → ∃ m, q.mode = some m ∧ m.keep = true
  height : o.keep = false → o.colorize = true → ∃ m, q.mode = some m ∧ m.keep = false ∧ m.coord = some 2 ∧ m.lo = none ∧ m.hi = none
  plain : o.keep = false → o.colorize = false → q.mode = none

/-- The layer of the file, but for the free-space flag of a voxel map if the window keeps original colours and shows voxels as points. -/
def LayerOf (o : Opts K) (l l' : Layer K Nat) : Prop :=
  l' = l ∨ ((∃ occ, l.kind = .voxels occ) ∧ o.keep = true ∧ o.voxPts = true ∧ ∃ b, l' = { l with free := b })

/-- The names of the checked boxes. -/
def checkedBoxes (s : St K P) : List String := (s.panel.filter (·.2)).map (·.1)

/-- The window shows the planes and lines of map `m` and those of its layers whose boxes are checked, as asked for by the options; the sizes
of points may differ (C85). -/
def ShowsMap (x : VExt K P) (m : VMap K Nat) (s : St K P) : Prop :=
  ∃ pls segs pts pts', s.shown = some (pls ++ [.segments 0xff0000ff segs] ++ pts') ∧ SameButSize pts' pts ∧
    List.Forall₂ (fun pl o => o = .grid 1 (1 / 4) 0xffffffff pl) m.planes pls ∧ List.Forall₂ (SegmentOf 20) m.lines segs ∧
    ∃ each : List (List (Obj K Nat)), pts = each.flatten ∧
      List.Forall₂ (fun n ob => ∃ q l l', AskedLayer s.opts q ∧ AMap.get m.layers n = some l ∧ LayerOf s.opts l l' ∧ LayerDrawn x.viz q l' ob)
        (checkedBoxes s) each

/-- The map and the grid are at the georeferenced pose if that is asked for and the map has one, otherwise at the origin. -/
structure Placed (x : VExt K P) (g : Option P) (s : St K P) : Prop where
  geo : ∀ T, s.opts.geo = true → g = some T → s.mapPose = T ∧ s.gridPose = T ∧ s.enu = true
  plain : s.opts.geo = false ∨ g = none → s.mapPose = x.idPose ∧ s.gridPose = x.idPose ∧ s.enu = false

/-- One segment from each position to the next one, of the radius asked for. -/
def TrajShown (x : VExt K P) (s : St K P) : Prop :=
  (∀ i a b, s.segs[i]? = some (a, b) ↔ s.traj[i]? = some a ∧ s.traj[i + 1]? = some b) ∧ (2 ≤ s.traj.length → s.radius = x.exp s.thick)

/-- The points of all the clouds of a map. -/
def cloudPoints (m : VMap K Nat) : Set (P3 K) := {p | ∃ n l pts, (n, l) ∈ m.layers ∧ l.kind = .points pts ∧ p ∈ pts}

/-- The smallest box around a set of points. -/
def IsBox (S : Set (P3 K)) (b : P3 K × P3 K) : Prop :=
  IsLeast (P3.x '' S) b.1.x ∧ IsLeast (P3.y '' S) b.1.y ∧ IsLeast (P3.z '' S) b.1.z ∧
  IsGreatest (P3.x '' S) b.2.x ∧ IsGreatest (P3.y '' S) b.2.y ∧ IsGreatest (P3.z '' S) b.2.z

/-- No map is loaded in this history. -/
def NoLoads (evs : List (Ev K P)) : Prop := ∀ e ∈ evs, ∀ path r, e ≠ .load path r

/-- `s` is a state of the program started with file `path`, which has map `m` with georeference `g`, after some history without loading another map. -/
def Opened (x : VExt K P) (m : VMap K Nat) (g : Option P) (path : String) (s : St K P) : Prop :=
  ∃ t0 cfg traj files s0 evs, MmView.start x t0 cfg (some (path, .loaded m g)) traj files = .done (some s0) ∧ NoLoads evs ∧
    MmView.runFrom x s0 evs = some s

/-- An event that redraws without changing the options or boxes. -/
def Refresh (s : St K P) (e : Ev K P) : Prop := e = .fit ∨ e = .options s.opts ∨ ∃ v, e = .thickness v

/-- The position of the camera: at the distance of the zoom from the point looked at. -/
def camEye (x : VExt K P) (c : Cam K) : P3 K :=
  ⟨c.px + c.zoom * x.cosd c.az * x.cosd c.el, c.py + c.zoom * x.sind c.az * x.cosd c.el, c.pz + c.zoom * x.sind c.el⟩

/-- Contract of `interpolate`: the pose of a key frame at its time. -/
def InterpAtKeys (x : VExt K P) : Prop := ∀ b ks t k, AMap.get ks t = some k → x.interp b ks t = some k

end Verif.Spec
