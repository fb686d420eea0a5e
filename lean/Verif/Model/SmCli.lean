import Verif.Model.Tools
import Verif.Model.Geom
import Mathlib.Data.String.Basic
/-
The program `sm-cli` as a whole (arguments, dispatch, files, exit code) and its `info` command: /repo/apps/sm-cli/sm-cli-main.cpp, sm-cli-info.cpp,
and the argument checks and file accesses of the other commands.  Not modelled: console output, the parsing of the command line by TCLAP.
-/
namespace Verif.SmCli
open Verif.Tool

/-! ### `info` -/

/-- An observation as `info` sees it: time stamp (also if it is the invalid one), label, class. -/
structure IObs (τ : Type) where
  stamp : τ
  label : String
  cls : String

/-- What `info` reports. -/
structure Info (K τ : Type) where
  keyframes : Nat
  hasTwist : Bool := false
  boxMin : Option (P3 K) := none
  boxMax : Option (P3 K) := none
  timeMin : Option τ := none
  timeMax : Option τ := none
  types : AMap String String := []
  counts : AMap String Nat := []

section info
variable {K τ T : Type} [LinearOrder K] [LinearOrder τ]

/-- `TBoundingBox::updateWithPoint`; the box starts empty (`none` here) -/
def boxLow (b : Option (P3 K)) (p : P3 K) : P3 K :=
  match b with
  | none => p
  | some q => ⟨min q.x p.x, min q.y p.y, min q.z p.z⟩
def boxHigh (b : Option (P3 K)) (p : P3 K) : P3 K :=
  match b with
  | none => p
  | some q => ⟨max q.x p.x, max q.y p.y, max q.z p.z⟩

/-- sm-cli-info.cpp:50-51 -/
def earlier (m : Option τ) (t : τ) : Option τ :=
  match m with
  | none => some t
  | some x => if t < x then some t else some x
def later (m : Option τ) (t : τ) : Option τ :=
  match m with
  | none => some t
  | some x => if t > x then some t else some x

/-- one observation, sm-cli-info.cpp:46-55; `counts[label]++` -/
def infoObs (i : Info K τ) (o : Option (IObs τ)) : Outcome (Info K τ) :=
  match o with
  | none => .throw
  | some o => .ok { i with
      timeMin := earlier i.timeMin o.stamp
      timeMax := later i.timeMax o.stamp
      types := AMap.set i.types o.label o.cls
      counts := AMap.set i.counts o.label ((AMap.get i.counts o.label).getD 0 + 1) }

/-- one keyframe, sm-cli-info.cpp:35-56; `pos` = translation of the mean of its pose -/
def infoKey (pos : P → P3 K) (i : Info K τ) (kf : Key P (List (Option (IObs τ))) T) : Outcome (Info K τ) :=
  match kf.pose with
  | none => .ub
  | some p =>
    let i := { i with hasTwist := if kf.twist.isSome then true else i.hasTwist
                      boxMin := some (boxLow i.boxMin (pos p)), boxMax := some (boxHigh i.boxMax (pos p)) }
    match kf.sf with
    | none => .ok i
    | some sf => foldOutcome infoObs i sf

/-- `commandInfo`, sm-cli-info.cpp:19-86, after reading the file -/
def info (pos : P → P3 K) (sm : List (Key P (List (Option (IObs τ))) T)) : Outcome (Info K τ) :=
  foldOutcome (infoKey pos) { keyframes := sm.length } sm

end info

/-! ### the program -/

/-- What the tool writes to a file. -/
inductive Content (P S T τ : Type) where
  | simplemap (sm : List (Key P S T))
  | tum (traj : AMap τ P)
  | twists (rows : List (τ × T))
  | rawlog (entries : List (RawEntry τ P T))

/-- A run: the files written, in order, and how it ends. -/
structure Run (C : Type) where
  writes : List (String × C)
  out : Outcome Nat

/-- The command line (sm-cli.h:21-63); corners and transformation: as parsed (`throw` if they cannot be). -/
structure Args (B : Type) where
  cmds : List String
  help : Bool := false
  version : Bool := false
  from_ : Option Nat := none
  to_ : Option Nat := none
  minCorner : Option (Outcome B) := none
  maxCorner : Option (Outcome B) := none
  output : Option String := none
  outputTwist : String := ""

/-- Files and external operations.  `readMap`: `none` if the file is not there or cannot be read (`read_input_sm_from_cli` throws);
`canWrite`: saving succeeds; its result is ignored by every command. -/
structure Env (P S T τ G B : Type) where
  readMap : String → Option (List (Key P S T))
  canWrite : String → Bool
  inBox : B → B → P → Bool
  parsePose : String → Outcome G
  opt : List P → G
  obs : S → List (Tool.Obs τ)
  /-- `info` on this map: how it ends -/
  infoOf : List (Key P S T) → Outcome Unit

section prog
variable {P S T τ G B : Type} [LinearOrder τ] [SMul G P]

abbrev R (P S T τ : Type) := Run (Content P S T τ)

/-- a command that has computed `o`: on success it saves; failures carry no writes -/
def saving {α : Type} (e : Env P S T τ G B) (path : String) (o : Outcome α) (c : α → Content P S T τ) : R P S T τ :=
  match o with
  | .ok a => ⟨if e.canWrite path then [(path, c a)] else [], .ok 0⟩
  | .throw => ⟨[], .throw⟩
  | .ub => ⟨[], .ub⟩

/-- `printCommands...(showErrorMsg)`: usage, exit code -/
def usage (err : Bool) : R P S T τ := ⟨[], .ok (if err then 1 else 0)⟩

/-- `read_input_sm_from_cli`, sm-cli-main.cpp:133-155 -/
def readMap (e : Env P S T τ G B) (file : String) : Outcome (List (Key P S T)) :=
  match e.readMap file with
  | none => .throw
  | some sm => .ok sm

/-- keyframes with their observations as the export commands see them -/
def keysObs (e : Env P S T τ G B) (sm : List (Key P S T)) : List (Key P (List (Tool.Obs τ)) T) := sm.map fun k => ⟨k.pose, k.sf.map e.obs, k.twist⟩

/-- `commandInfo`, sm-cli-info.cpp:19-28 -/
def cmdInfo (e : Env P S T τ G B) (a : Args B) : R P S T τ :=
  if a.help then usage false
  else match a.cmds with
    | [_, file] => ⟨[], ((readMap e file).bind e.infoOf).bind fun _ => .ok 0⟩
    | _ => usage true

/-- `commandCut`, sm-cli-cut.cpp:22-58 -/
def cmdCut (e : Env P S T τ G B) (a : Args B) : R P S T τ :=
  if a.help then usage false
  else match a.cmds, a.from_, a.to_, a.output with
    | [_, file], some f, some t, some o => saving e o ((readMap e file).bind fun sm => cut sm f t) .simplemap
    | _, _, _, _ => usage true

/-- `commandJoin`, sm-cli-join.cpp:22-54 -/
def cmdJoin (e : Env P S T τ G B) (a : Args B) : R P S T τ :=
  if a.help then usage false
  else match a.cmds, a.output with
    | _ :: f1 :: fs, some o => saving e o (join [] ((f1 :: fs).map e.readMap)) .simplemap
    | _, _ => usage true

/-- `commandTrim`, sm-cli-trim.cpp:22-65 -/
def cmdTrim (e : Env P S T τ G B) (a : Args B) : R P S T τ :=
  if a.help then usage false
  else match a.cmds, a.minCorner, a.maxCorner, a.output with
    | [_, file], some c1, some c2, some o =>
      saving e o (c1.bind fun lo => c2.bind fun hi => (readMap e file).bind fun sm => trim (e.inBox lo hi) sm) .simplemap
    | _, _, _, _ => usage true

/-- `commandTf`, sm-cli-tf.cpp:22-55: the names of the files and the transformation are positional -/
def cmdTf (e : Env P S T τ G B) (a : Args B) : R P S T τ :=
  if a.help then usage false
  else match a.cmds with
    | [_, inF, outF, str] =>
      saving e outF ((readMap e inF).bind fun sm => (Outcome.assert (sm ≠ [])).bind fun _ => (e.parsePose str).bind fun g => tf g sm) .simplemap
    | _ => usage true

/-- `commandLevel`, sm-cli-level.cpp:22-117 -/
def cmdLevel (e : Env P S T τ G B) (a : Args B) : R P S T τ :=
  if a.help then usage false
  else match a.cmds with
    | [_, inF, outF] => saving e outF ((readMap e inF).bind fun sm => level e.opt sm) .simplemap
    | _ => usage true

/-- rows written to the twist file until the first keyframe that stops the loop (sm-cli-export-kfs.cpp:51-87) -/
def twistRows : ExpSt τ P T → List (Key P (List (Tool.Obs τ)) T) → List (τ × T)
  | s, [] => s.twists
  | s, kf :: l =>
    match exportStep s kf with
    | .ok s' => twistRows s' l
    | _ => s.twists

/-- `commandExportKF`, sm-cli-export-kfs.cpp:30-105: the twist file is opened, and written, before the keyframes have been checked -/
def cmdExportKF (e : Env P S T τ G B) (a : Args B) : R P S T τ :=
  if a.help then usage false
  else match a.cmds, a.output with
    | [_, file], some o =>
      match e.readMap file with
      | none => ⟨[], .throw⟩
      | some sm =>
        let tw := if a.outputTwist ≠ "" ∧ e.canWrite a.outputTwist = true then [(a.outputTwist, Content.twists (twistRows {} (keysObs e sm)))] else []
        let r := saving e o (exportKfs (keysObs e sm)) fun s => .tum s.traj
        ⟨tw ++ r.writes, r.out⟩
    | _, _ => usage true

/-- `commandExportRawlog`, sm-cli-export-rawlog.cpp:23-92 -/
def cmdExportRawlog (e : Env P S T τ G B) (a : Args B) : R P S T τ :=
  if a.help then usage false
  else match a.cmds, a.output with
    | [_, file], some o => saving e o ((readMap e file).bind fun sm => exportRawlog (keysObs e sm)) .rawlog
    | _, _ => usage true

/-- the table of commands, sm-cli-main.cpp:38-48 -/
def lookup (name : String) : Option (Env P S T τ G B → Args B → R P S T τ) :=
  if name = "help" then some fun _ _ => ⟨[], .ok 0⟩
  else if name = "info" then some cmdInfo
  else if name = "export-keyframes" then some cmdExportKF
  else if name = "export-rawlog" then some cmdExportRawlog
  else if name = "cut" then some cmdCut
  else if name = "level" then some cmdLevel
  else if name = "trim" then some cmdTrim
  else if name = "join" then some cmdJoin
  else if name = "tf" then some cmdTf
  else none

/-- the `catch` of `main`, sm-cli-main.cpp:100-104 -/
def caught (r : R P S T τ) : R P S T τ :=
  match r.out with
  | .throw => ⟨r.writes, .ok 1⟩
  | _ => r

/-- `main`, sm-cli-main.cpp:60-106; `parsed` = the command line could be parsed -/
def main (e : Env P S T τ G B) (parsed : Bool) (a : Args B) : R P S T τ :=
  if parsed = false then ⟨[], .ok 1⟩
  else if a.version then ⟨[], .ok 0⟩
  else match a.cmds with
    | [] => ⟨[], .ok 1⟩
    | c :: _ => match lookup c with
      | none => ⟨[], .ok 1⟩
      | some f => caught (f e a)

end prog
end Verif.SmCli
