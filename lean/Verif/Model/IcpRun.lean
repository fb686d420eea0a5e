import Verif.Model.Pipeline
import Verif.Model.Decimate
/-
The `icp-run` tool: /repo/apps/icp-run/main.cpp.

Not modelled: messages, the profiler switch, image paths of rawlogs, the parsing of the command line itself.
-/
namespace Verif.IcpRun

/-- `s.find(pat)`: position of the first occurrence -/
def find (pat : List Char) : List Char → Option Nat
  | [] => if pat = [] then some 0 else none
  | c :: s => if pat.isPrefixOf (c :: s) then some 0 else (find pat s).map (· + 1)

/-- An entry of a rawlog: a sensory frame, an observation, or something else; `none` is a null pointer. -/
inductive Entry (O : Type) where
  | frame (sf : List (Option O))
  | obs (o : O)
  | other

/-- What `load_input_pc` finds on disk, and number parsing.  `rawlog`: `none` if missing or unreadable; `mm`: `load_from_file`
(false: `none`); `icplog`: local and global maps (`none` in a component: null pointer); `xyz`: `load_xyz_file`, as a map with the cloud in
the raw layer; `stod`: `none` if it throws. -/
structure World (O M K : Type) where
  rawlog : List Char → Option (List (Option (Entry O)))
  mm : List Char → Outcome (Option M)
  icplog : List Char → Outcome (Option (Option M × Option M))
  xyz : List Char → Outcome M
  stod : List Char → Option K
  emptyMap : M

abbrev Gen (O M : Type) := O → M → Outcome (Bool × M)

section
variable {O M K : Type} [Field K] [LinearOrder K] [FloorRing K]

/-- `double` to `size_t`, icp-run/main.cpp:196: truncated; undefined if it does not fit -/
def toSize (v : K) : Outcome Nat := if -1 < v ∧ v < 2 ^ 64 then .ok (Vox.truncZ v).toNat else .ub

/-- `pc_from_rawlog`, icp-run/main.cpp:137-176; without generators a default one is used (lines 141-150). -/
def fromRawlog (w : World O M K) (dflt : Gen O M) (gens : List (Gen O M)) (r : List (Option (Entry O))) (index : Nat) : Outcome M :=
  match r[index]? with
  | none => .throw
  | some none => .throw
  | some (some (.frame sf)) => (applyGeneratorsFrame (if gens = [] then [dflt] else gens) sf w.emptyMap).bind fun x => .ok x.2
  | some (some (.obs o)) => (applyGeneratorsObs (if gens = [] then [dflt] else gens) o w.emptyMap).bind fun x => .ok x.2
  | some (some .other) => .throw

/-- How an input name is taken. -/
inductive Kind where
  | rawlog (file index : List Char)
  | map
  | icplog
  | text
  deriving DecidableEq

/-- The choice in `load_input_pc`, icp-run/main.cpp:178-222: substrings are looked for anywhere in the name. -/
def kindOf (name : List Char) : Kind :=
  match find ".rawlog:".toList name with
  | some p => .rawlog (name.take (p + 7)) (name.drop (p + 7 + 1))
  | none =>
    match find ".mm".toList name with
    | some _ => .map
    | none =>
      match find ".icplog".toList name with
      | some _ => .icplog
      | none => .text

/-- `load_input_pc`, icp-run/main.cpp:178-222; the cache of rawlogs (lines 114-135) is only a cache, if files do not change meanwhile. -/
def loadInput (w : World O M K) (dflt : Gen O M) (gens : List (Gen O M)) (name : List Char) (isLocal : Bool) : Outcome M :=
  match kindOf name with
  | .rawlog f n =>
    match w.stod n with
    | none => .throw
    | some v =>
      match w.rawlog f with
      | none => .throw
      | some r => (toSize v).bind fun i => fromRawlog w dflt gens r i
  | .map => (w.mm name).bind fun o => match o with
    | none => .throw
    | some m => .ok m
  | .icplog => (w.icplog name).bind fun o => match o with
    | none => .throw
    | some (l, g) => match (if isLocal then l else g) with
      | none => .ub
      | some m => .ok m
  | .text => w.xyz name

/-- `Parameters`: the debug flag and the rest. -/
structure Params (X : Type) where
  generateDebugFiles : Bool
  rest : X
  deriving DecidableEq

abbrev Filters (M : Type) := List (Option (M → M × Bool))

/-- The configuration file: entry `generators`, entries that are filter pipelines, the ICP pipeline. -/
structure Conf (O M P X R : Type) where
  gens : Option (Outcome (List (Gen O M)))
  entry : String → Option (Outcome (Filters M))
  icp : Outcome ((M → M → P → Params X → Outcome R) × Params X)

/-- The command line: options not given are `none` (their defaults: `filters`, `[0 0 0 0 0 0]`). -/
structure Args (O M P : Type) where
  inputLocal : List Char
  inputGlobal : List Char
  genFile : Option (Outcome (List (Gen O M))) := none
  filtersLocal : Option (Outcome (Filters M)) := none
  filtersGlobal : Option (Outcome (Filters M)) := none
  nameLocal : Option String := none
  nameGlobal : Option String := none
  guess : Outcome P
  debug : Bool := false

variable {P X R : Type}

/-- icp-run/main.cpp:231-242 -/
def pickGens (c : Conf O M P X R) (a : Args O M P) : Outcome (List (Gen O M)) :=
  match a.genFile with
  | some g => g
  | none => match c.gens with
    | some g => g
    | none => .ok []

/-- icp-run/main.cpp:268-280 and 287-299 -/
def pickFilters (c : Conf O M P X R) (file : Option (Outcome (Filters M))) (name : Option String) : Outcome (Filters M) :=
  match file with
  | some f => f
  | none => match c.entry (name.getD "filters") with
    | some f => f
    | none => .ok []

/-- `apply_filter_pipeline`, icp-run/main.cpp:281-285 and 300-304 -/
def applyOrThrow (fl : Filters M) (m : M) : Outcome M := if (applyFilters fl m).2 then .throw else .ok (applyFilters fl m).1

/-- `runIcp`, icp-run/main.cpp:224-321; `cfg`: reading of the configuration file -/
def runIcp (w : World O M K) (dflt : Gen O M) (cfg : Outcome (Conf O M P X R)) (a : Args O M P) : Outcome R :=
  cfg.bind fun c =>
  (pickGens c a).bind fun gens =>
  (loadInput w dflt gens a.inputLocal true).bind fun l =>
  (loadInput w dflt gens a.inputGlobal false).bind fun g =>
  c.icp.bind fun ip =>
  a.guess.bind fun guess =>
  (pickFilters c a.filtersLocal a.nameLocal).bind fun fl =>
  (applyOrThrow fl l).bind fun l' =>
  (pickFilters c a.filtersGlobal a.nameGlobal).bind fun fg =>
  (applyOrThrow fg g).bind fun g' =>
  ip.1 l' g' guess (if a.debug then { ip.2 with generateDebugFiles := true } else ip.2)

/-- `main`, icp-run/main.cpp:323-338: the exit code; `parsed` = `cmd.parse` -/
def main (w : World O M K) (dflt : Gen O M) (cfg : Outcome (Conf O M P X R)) (a : Args O M P) (parsed : Bool) : Outcome Nat :=
  if parsed = false then .ok 1
  else match runIcp w dflt cfg a with
    | .ok _ => .ok 0
    | .throw => .ok 1
    | .ub => .ub

end
end Verif.IcpRun
