import Mathlib.Data.String.Basic
import Mathlib.Data.Rat.Floor
import Verif.Model.AMap
/-
The program `icp-log-viewer`: /repo/apps/icp-log-viewer/main.cpp, as a machine driven by the events of its window.
The program goes on after an exception in an event handler (nanogui prints it), so an event leaves a state even if it throws.
Simplifications: slider values (`float`) are rationals; a rendered map is the list of its shown layers with their contents (planes
and lines of the map, colours and sizes left out; C90 has them); null layers, layers or planes that cannot be rendered, texts other than the two
poses, camera, and the configuration file are left out.
-/
namespace Verif
namespace LogView
variable {Pose Pairs L : Type}

/-- A log file's contents: initial guess, result, logged iterations (`std::map`, empty also if absent), the two maps. -/
structure Rec (Pose Pairs L : Type) where
  guess : Pose
  final : Pose
  finalPairs : Pairs
  details : List (Nat × (Pose × Pairs)) := []
  global : Option (AMap String L)
  loc : Option (AMap String L)
  deriving DecidableEq

/-- What the 3D window shows: the frame of the local map, the two maps, the pairings and the pose they are drawn at. -/
structure Scene (Pose Pairs L : Type) where
  corner : Option Pose := none
  global : Option (List (String × L)) := none
  loc : Option (List (String × L) × Pose) := none
  pairs : Option (Pairs × Pose) := none
  deriving DecidableEq

/-- State of the program: widgets, logs in memory, static variables of `rebuild_3d_view`, and the scene. -/
structure VState (Pose Pairs L : Type) where
  sel : ℚ
  iterVal : ℚ
  iterMax : ℚ
  iterOn : Bool
  showInit : Bool
  showPairs : Bool
  backOn : Bool
  forwOn : Bool
  cbG : AMap String Bool
  cbL : AMap String Bool
  mem : List (Option (Rec Pose Pairs L))
  lastIdx : Option Nat
  cacheG : Option (List (String × L))
  cacheL : Option (List (String × L))
  poseBox : Option Pose
  guessBox : Option Pose
  scene : Scene Pose Pairs L
  deriving DecidableEq

/-- Result of an event. -/
inductive Res (S : Type) where
  | done (s : S)
  | threw (s : S)
  | ub
  deriving DecidableEq

/-- `mrpt::round` (external, `lrint`): to the nearest integer, halves to the even one. -/
def roundEven (q : ℚ) : ℤ :=
  if q - ⌊q⌋ < 1 / 2 then ⌊q⌋ else if 1 / 2 < q - ⌊q⌋ then ⌊q⌋ + 1 else if ⌊q⌋ % 2 = 0 then ⌊q⌋ else ⌊q⌋ + 1

/-- The value of the record slider as an index, `none` if it is not one of a record: main.cpp:812, 817. -/
def selIdx (n : Nat) (sel : ℚ) : Option Nat :=
  if 0 ≤ roundEven sel ∧ roundEven sel < n then some (roundEven sel).toNat else none

/-- names of the layers whose box is checked, main.cpp:976, 1035 -/
def checked (cb : AMap String Bool) : List String := (cb.filter (·.2)).map (·.1)

/-- `get_visualization` with parameters for each of these layers, metricmap.cpp:239-262: `none` if it throws -/
def renderSel (m : AMap String L) : List String → Option (List (String × L))
  | [] => some []
  | n :: ns =>
    match AMap.get m n with
    | none => none
    | some l => (renderSel m ns).map ((n, l) :: ·)

/-- main.cpp:912-915: the iteration shown, an index into the logged ones -/
def iterIdx (size : Nat) (v : ℚ) : Nat := if roundEven v < 0 then size - 1 else min (roundEven v).toNat (size - 1)

/-- main.cpp:879-926: the sliders, and the pose and pairings to show -/
def choose (r : Rec Pose Pairs L) (reset : Bool) (s : VState Pose Pairs L) : VState Pose Pairs L × Pose × Option Pairs :=
  match r.details with
  | [] => ({ s with iterOn := false }, if s.showInit then r.guess else r.final, if s.showPairs then some r.finalPairs else none)
  | d :: ds =>
    let v := if reset then (if s.showInit then 0 else (ds.length : ℚ)) else s.iterVal
    let it := (d :: ds).getD (iterIdx (ds.length + 1) v) d
    ({ s with iterOn := true, iterMax := ds.length, iterVal := v }, it.2.1, if s.showPairs then some it.2.2 else none)

/-- main.cpp:1065-1092, 1117-1140: the local map at its pose, and the pairings -/
def drawLocal (regen : Bool) (m : AMap String L) (pose : Pose) (prs : Option Pairs) (s : VState Pose Pairs L) :
    Res (VState Pose Pairs L) :=
  match (if regen || s.cacheL.isNone then renderSel m (checked s.cbL) else s.cacheL) with
  | none => .threw s
  | some l => .done { s with cacheL := some l, scene := { s.scene with loc := some (l, pose), pairs := prs.map (·, pose) } }

/-- main.cpp:943-1024: the frames and the global map -/
def drawGlobal (regen : Bool) (m : AMap String L) (pose : Pose) (s : VState Pose Pairs L) : Res (VState Pose Pairs L) :=
  match (if regen || s.cacheG.isNone then renderSel m (checked s.cbG) else s.cacheG) with
  | none => .threw { s with scene := { corner := some pose } }
  | some l => .done { s with cacheG := some l, scene := { corner := some pose, global := some l } }

/-- main.cpp:835-1140, with the log in memory -/
def showRec (regen reset : Bool) (r : Rec Pose Pairs L) (s : VState Pose Pairs L) : Res (VState Pose Pairs L) :=
  match r.loc, r.global with
  | some ml, some mg =>
    let x := choose r reset { s with poseBox := some r.final, guessBox := some r.guess }
    match drawGlobal regen mg x.2.1 x.1 with
    | .done s => drawLocal regen ml x.2.1 x.2.2 s
    | o => o
  | _, _ => .ub

/-- `DelayedLoadLog::get`, main.cpp:138-147: the log, and the logs in memory afterwards; `none` if the file cannot be loaded -/
def getRec (disk : List (Option (Rec Pose Pairs L))) (mem : List (Option (Rec Pose Pairs L))) (i : Nat) :
    Option (Rec Pose Pairs L × List (Option (Rec Pose Pairs L))) :=
  match mem.getD i none with
  | some r => some (r, mem)
  | none =>
    match disk.getD i none with
    | some r => some (r, mem.set i (some r))
    | none => none

/-- main.cpp:823-830: frees the log shown before -/
def freeLast (s : VState Pose Pairs L) (i : Nat) : List (Option (Rec Pose Pairs L)) :=
  match s.lastIdx with
  | some j => if j = i then s.mem else s.mem.set j none
  | none => s.mem

/-- `rebuild_3d_view`, main.cpp:808-1165 -/
def rebuild (disk : List (Option (Rec Pose Pairs L))) (regen : Bool) (s : VState Pose Pairs L) : Res (VState Pose Pairs L) :=
  match selIdx disk.length s.sel with
  | none => .done { s with backOn := true, forwOn := false }
  | some i =>
    let s1 := { s with backOn := decide (0 < i), forwOn := decide (i + 1 < disk.length), scene := {}, mem := freeLast s i,
                       lastIdx := some i }
    match getRec disk s1.mem i with
    | none => .threw s1
    | some (r, mem) => showRec regen (decide (s.lastIdx ≠ some i)) r { s1 with mem := mem }

/-- Events of the window. -/
inductive Act where
  /-- record slider dragged -/
  | dragSel (v : ℚ)
  | back
  | forw
  /-- a period of the automatic play mode has passed -/
  | auto
  /-- keys: left −1, right +1, page up −100, page down +100 -/
  | key (inc : ℤ)
  | dragIter (v : ℚ)
  | initGuess (v : Bool)
  | pairs (v : Bool)
  | layerG (n : String) (v : Bool)
  | layerL (n : String) (v : Bool)
  /-- a slider of "Manual solution modification" -/
  | manual (i : Fin 6) (v : ℚ)
  /-- any other control that redraws: point sizes, colours, voxels (`true`), camera, depth, pairing kinds (`false`) -/
  | redraw (full : Bool)
  deriving DecidableEq

/-- a slider keeps the value within its range -/
def clamp (hi v : ℚ) : ℚ := if v < 0 then 0 else if hi < v then hi else v

/-- One event: main.cpp:170-184 (auto), 284-296, 305, 337-357, 427-441, 509-548, 645-684. -/
def step (disk : List (Option (Rec Pose Pairs L))) (setComp : Pose → Fin 6 → ℚ → Pose) (s : VState Pose Pairs L) :
    Act → Res (VState Pose Pairs L)
  | .dragSel v => rebuild disk true { s with sel := clamp (disk.length - 1) v }
  | .back => if s.backOn && decide (0 < s.sel) then rebuild disk true { s with sel := s.sel - 1 } else .done s
  | .forw =>
    if s.forwOn && decide (s.sel < disk.length - 1 - 1 / 100) then rebuild disk true { s with sel := s.sel + 1 } else .done s
  | .auto => if s.sel < disk.length - 1 - 1 / 100 then rebuild disk true { s with sel := s.sel + 1 } else .done s
  | .key inc => rebuild disk true { s with sel := clamp (disk.length - 1) (s.sel + inc) }
  | .dragIter v => if s.iterOn then rebuild disk false { s with iterVal := clamp s.iterMax v } else .done s
  | .initGuess v =>
    rebuild disk false { s with showInit := v, iterVal := if s.iterOn then (if v then 0 else s.iterMax) else s.iterVal }
  | .pairs v => rebuild disk false { s with showPairs := v }
  | .layerG n v => if (AMap.get s.cbG n).isSome then rebuild disk true { s with cbG := AMap.set s.cbG n v } else .done s
  | .layerL n v => if (AMap.get s.cbL n).isSome then rebuild disk true { s with cbL := AMap.set s.cbL n v } else .done s
  | .manual i v =>
    match selIdx disk.length s.sel with
    | none => .threw s
    | some k =>
      match getRec disk s.mem k with
      | none => .threw s
      | some (r, mem) => rebuild disk false { s with mem := mem.set k (some { r with final := setComp r.final i v }) }
  | .redraw full => rebuild disk full s

/-- check boxes for the layers of a map, all checked: main.cpp:231-251, 509-528 -/
def boxesOf (m : Option (AMap String L)) : AMap String Bool :=
  match m with
  | some m => m.map fun x => (x.1, true)
  | none => []

/-- State before the first drawing, `r` being the first log: main.cpp:227-777. -/
def initial (r : Rec Pose Pairs L) (ds : List (Option (Rec Pose Pairs L))) (showInit showPairs : Bool) : VState Pose Pairs L :=
  { sel := 0, iterVal := 0, iterMax := 1, iterOn := true, showInit := showInit, showPairs := showPairs, backOn := true, forwOn := true,
    cbG := boxesOf r.global, cbL := boxesOf r.loc, mem := some r :: ds.map fun _ => none, lastIdx := none, cacheG := none,
    cacheL := none, poseBox := none, guessBox := none, scene := {} }

/-- The program up to its main loop: main.cpp:227-251 and 779; the two flags are read from the user's configuration. -/
def start (disk : List (Option (Rec Pose Pairs L))) (showInit showPairs : Bool) : Res (Option (VState Pose Pairs L)) :=
  match disk with
  | some r :: ds =>
    match rebuild disk true (initial r ds showInit showPairs) with
    | .done s => .done (some s)
    | .threw _ => .threw none
    | .ub => .ub
  | _ => .threw none

/-- A history of events, whether they throw or not. -/
def runFrom (disk : List (Option (Rec Pose Pairs L))) (setComp : Pose → Fin 6 → ℚ → Pose) :
    VState Pose Pairs L → List Act → Option (VState Pose Pairs L)
  | s, [] => some s
  | s, a :: as =>
    match step disk setComp s a with
    | .done s => runFrom disk setComp s as
    | .threw s => runFrom disk setComp s as
    | .ub => none

end LogView
end Verif
