import Mathlib.Algebra.Group.Action.Defs
import Verif.Model.Decimate
import Verif.Model.AMap
import Verif.Model.Outcome
/-
Command-line tools: /repo/apps/sm-cli/sm-cli-{cut,trim,join,tf,level,export-kfs,export-rawlog}.cpp, /repo/apps/txt2mm/main.cpp.
Not modelled: parsing of arguments and files, console output.
-/
namespace Verif
namespace Tool

/-! ### sm-cli -/

/-- A keyframe of a simple map: pose distribution `P` (null pointer: `none`), observations, twist. -/
structure Key (P S T : Type) where
  pose : Option P
  sf : Option S
  twist : Option T
  deriving DecidableEq

variable {P S T G K : Type}

/-- the loop of `cut`, sm-cli-cut.cpp:46-47; `k` iterations left -/
def cutLoop (sm : List (Key P S T)) : Nat → Nat → List (Key P S T) → Outcome (List (Key P S T))
  | 0, _, out => .ok out
  | k + 1, i, out =>
    match sm[i]? with
    | some kf => cutLoop sm k (i + 1) (out ++ [kf])
    | none => .throw -- `sm.get` checks

/-- `commandCut`, sm-cli-cut.cpp:22-58 -/
def cut (sm : List (Key P S T)) (first last : Nat) : Outcome (List (Key P S T)) :=
  (Outcome.assert (first < sm.length)).bind fun _ =>
  (Outcome.assert (last < sm.length)).bind fun _ =>
  cutLoop sm (last + 1 - first) first []

/-- the loop of `trim`, sm-cli-trim.cpp:44-52; `inside` = `bbox.containsPoint(mean translation)` -/
def trimStep (inside : P → Bool) (out : List (Key P S T)) (kf : Key P S T) : Outcome (List (Key P S T)) :=
  match kf.pose with
  | none => .throw
  | some p => if !inside p then .ok out else .ok (out ++ [⟨some p, kf.sf, kf.twist⟩])
/-- `commandTrim`, sm-cli-trim.cpp:22-65 -/
def trim (inside : P → Bool) (sm : List (Key P S T)) : Outcome (List (Key P S T)) := foldOutcome (trimStep inside) [] sm

/-- inner loop of `join`, sm-cli-join.cpp:38-42 -/
def joinOne (out sm : List (Key P S T)) : List (Key P S T) := sm.foldl (fun out kf => out ++ [kf]) out
/-- `commandJoin`, sm-cli-join.cpp:22-54; a file that cannot be read (`none`) throws -/
def join : List (Key P S T) → List (Option (List (Key P S T))) → Outcome (List (Key P S T))
  | out, [] => .ok out
  | _, none :: _ => .throw
  | out, some sm :: rest => join (joinOne out sm) rest

/-- one keyframe of `tf`, sm-cli-tf.cpp:42-47 and of `level`, sm-cli-level.cpp:104-109: `changeCoordinatesReference` is the action of the
group of rigid motions on pose distributions; a null pose is dereferenced. -/
def tfStep [SMul G P] (g : G) (out : List (Key P S T)) (kf : Key P S T) : Outcome (List (Key P S T)) :=
  match kf.pose with
  | none => .ub
  | some p => .ok (out ++ [{ kf with pose := some (g • p) }])
/-- `commandTf`, sm-cli-tf.cpp:22-55 -/
def tf [SMul G P] (g : G) (sm : List (Key P S T)) : Outcome (List (Key P S T)) :=
  (Outcome.assert (sm ≠ [])).bind fun _ => foldOutcome (tfStep g) [] sm

/-- the poses collected by `level`, sm-cli-level.cpp:38-45 -/
def levelPoses (acc : List P) (kf : Key P S T) : Outcome (List P) :=
  match kf.pose with
  | none => .ub
  | some p => .ok (acc ++ [p])
/-- `commandLevel`, sm-cli-level.cpp:22-117; `opt`: the rotation found by MRPT's Levenberg–Marquardt for these poses -/
def level [SMul G P] (opt : List P → G) (sm : List (Key P S T)) : Outcome (List (Key P S T)) :=
  (Outcome.assert (sm ≠ [])).bind fun _ =>
  (foldOutcome levelPoses [] sm).bind fun ps => foldOutcome (tfStep (opt ps)) [] sm

/-- observations as these tools see them: their time stamp, if valid; null pointers are `none` -/
abbrev Obs (τ : Type) := Option (Option τ)

/-- first valid stamp, null observations skipped: sm-cli-export-kfs.cpp:57-64 -/
def firstStamp {τ : Type} : List (Obs τ) → Option τ
  | [] => none
  | none :: l => firstStamp l
  | some none :: l => firstStamp l
  | some (some t) :: _ => some t

/-- State of `export-keyframes`: the trajectory, keyframes without stamp, lines of the twist file. -/
structure ExpSt (τ P T : Type) where
  traj : AMap τ P := []
  without : Nat := 0
  twists : List (τ × T) := []

/-- one keyframe, sm-cli-export-kfs.cpp:51-87.  `CPose3DInterpolator::insert` (external) is an assignment in a map by time. -/
def exportStep {τ : Type} [LinearOrder τ] (s : ExpSt τ P T) (kf : Key P (List (Obs τ)) T) : Outcome (ExpSt τ P T) :=
  match kf.pose with
  | none => .ub
  | some p =>
    match kf.sf with
    | none => .throw
    | some sf =>
      match firstStamp sf with
      | none => .ok { s with without := s.without + 1 }
      | some t => .ok { s with
          traj := AMap.set s.traj t p
          twists := match kf.twist with
            | some w => s.twists ++ [(t, w)]
            | none => s.twists }
/-- `commandExportKF`, sm-cli-export-kfs.cpp:30-105 (with a twist file) -/
def exportKfs {τ : Type} [LinearOrder τ] (sm : List (Key P (List (Obs τ)) T)) : Outcome (ExpSt τ P T) := foldOutcome exportStep {} sm

/-- stamp search of `export-rawlog`, sm-cli-export-rawlog.cpp:49-57: null observations are dereferenced -/
def rawStamp {τ : Type} : List (Obs τ) → Outcome (Option τ)
  | [] => .ok none
  | none :: _ => .ub
  | some none :: l => rawStamp l
  | some (some t) :: _ => .ok (some t)

/-- An entry of the exported rawlog: the observations of the keyframe, the pose and the twist as additional observations, with the stamp. -/
structure RawEntry (τ P T : Type) where
  obs : List (Obs τ)
  pose : P
  twist : Option T
  stamp : Option τ
  deriving DecidableEq

/-- one keyframe, sm-cli-export-rawlog.cpp:38-84 -/
def rawStep {τ : Type} (out : List (RawEntry τ P T)) (kf : Key P (List (Obs τ)) T) : Outcome (List (RawEntry τ P T)) :=
  match kf.pose, kf.sf with
  | some p, some sf => (rawStamp sf).bind fun t => .ok (out ++ [⟨sf, p, kf.twist, t⟩])
  | _, _ => .throw
/-- `commandExportRawlog`, sm-cli-export-rawlog.cpp:23-92 -/
def exportRawlog {τ : Type} (sm : List (Key P (List (Obs τ)) T)) : Outcome (List (RawEntry τ P T)) := foldOutcome rawStep [] sm

/-! ### txt2mm -/

/-- A point of the map that txt2mm writes: `none` = channel that its class does not have. -/
structure TPt (K : Type) where
  x : K
  y : K
  z : K
  i : Option K := none
  ring : Option K := none
  t : Option K := none
  rgb : Option (K × K × K) := none
  deriving DecidableEq

/-- Options, txt2mm/main.cpp:37-104.  Columns are `int`. -/
structure TxtOpts where
  format : String
  layer : String := "raw"
  colX : Int := 0
  colI : Int := 3
  colR : Int := 4
  colT : Int := 5
  id : Option Nat := none
  label : Option String := none

/-- `CMatrixFloat`: rows and columns, row-major. -/
structure Table (K : Type) where
  rows : Nat
  cols : Nat
  data : List K

/-- `data(i, col)`: unchecked row-major access (MRPT, release build), `size_t` arithmetic. -/
def Table.at (d : Table K) (row : Nat) (col : Int) : Outcome K :=
  match d.data[(((row : Int) * d.cols + col) % 2 ^ 64).toNat]? with
  | some v => .ok v
  | none => .ub

section
variable [Field K] [LinearOrder K] [FloorRing K]

/-- `mrpt::u8tof(float)`: the argument is converted to `uint8_t`, undefined out of range -/
def u8tof (v : K) : Outcome K := if -1 < v ∧ v < 256 then .ok ((Vox.truncZ v : K) / 255) else .ub

/-- one row, txt2mm/main.cpp:145-146, 158-162, 176-182, 201-218.  `insertPointField_Ring` and `_Timestamp` do nothing on the class
`CPointsMapXYZI` that is created for the format xyzirt (line 169). -/
def txtRow (o : TxtOpts) (d : Table K) (row : Nat) : Outcome (TPt K) :=
  (d.at row o.colX).bind fun x => (d.at row (o.colX + 1)).bind fun y => (d.at row (o.colX + 2)).bind fun z =>
  if o.format = "xyz" then .ok { x := x, y := y, z := z }
  else if o.format = "xyzi" then (d.at row o.colI).bind fun i => .ok { x := x, y := y, z := z, i := some i }
  else if o.format = "xyzirt" then
    (d.at row o.colI).bind fun i => (d.at row o.colR).bind fun _ => (d.at row o.colT).bind fun _ =>
    .ok { x := x, y := y, z := z, i := some i }
  else
    (d.at row 3).bind fun r => (d.at row 4).bind fun g => (d.at row 5).bind fun b =>
    if o.format = "xyzrgb_normalized" then .ok { x := x, y := y, z := z, rgb := some (r, g, b) }
    else (u8tof r).bind fun r => (u8tof g).bind fun g => (u8tof b).bind fun b =>
      .ok { x := x, y := y, z := z, rgb := some (r, g, b) }

/-- columns demanded by a format; `none`: unknown format -/
def minCols (format : String) : Option Nat :=
  if format = "xyz" then some 3
  else if format = "xyzi" then some 4
  else if format = "xyzirt" ∨ format = "xyzrgb" ∨ format = "xyzrgb_normalized" then some 6
  else none

/-- the loop over rows -/
def txtLoop (o : TxtOpts) (d : Table K) : Nat → Nat → List (TPt K) → Outcome (List (TPt K))
  | 0, _, out => .ok out
  | k + 1, row, out => (txtRow o d row).bind fun p => txtLoop o d k (row + 1) (out ++ [p])

/-- The map written. -/
structure TxtMap (K : Type) where
  layers : AMap String (List (TPt K))
  id : Option Nat
  label : Option String

/-- `main` of txt2mm, txt2mm/main.cpp:106-248, from the table read to the map saved. -/
def txt2mm (o : TxtOpts) (d : Table K) : Outcome (TxtMap K) :=
  match minCols o.format with
  | none => .throw
  | some n =>
    (Outcome.assert (n ≤ d.cols)).bind fun _ =>
    (txtLoop o d d.rows 0 []).bind fun pts =>
    .ok { layers := AMap.set [] "raw" pts, id := o.id, label := o.label }
end

end Tool
end Verif
