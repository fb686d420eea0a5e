import Verif.Model.AMap
import Verif.Model.Outcome
import Mathlib.Data.String.Basic
/-
Definition of a custom map in YAML, and the configuration block made of it:
/repo/mp2p_icp_filters/src/Generator.cpp:47-118 (`Parameters::load_from_yaml`), 529-566 (`implProcessCustomMap`).
-/
namespace Verif
namespace MapDef

/-- A value of `metric_map_definition`.  In a map, `none` is a value which is not a scalar. -/
inductive YVal where
  | null
  | scalar (s : String)
  | map (m : AMap String (Option String))
  | seq

/-- An entry of a section: text, or a formula whose value is written to it at each evaluation of the parameters -/
inductive Cell where
  | text (s : String)
  | formula (e : String)
  deriving DecidableEq

/-- What is kept: scalars and sections -/
inductive Entry where
  | scalar (s : String)
  | sect (m : AMap String Cell)

/-- `parameters_.metric_map_definition` -/
abbrev Def := AMap String Entry

/-- `val.substr(0, 3) == "$f{"`, Generator.cpp:91 -/
def isFormula (v : String) : Bool := v.toList.take 3 == ['$', 'f', '{']

/-- `val.back() == '}'`, Generator.cpp:93 -/
def closed (v : String) : Bool := v.toList.getLast? == some '}'

/-- `val.substr(3, val.size() - 4)`, Generator.cpp:100 -/
def body (v : String) : String := String.ofList ((v.toList.drop 3).take (v.length - 4))

/-- one entry of a section, Generator.cpp:87-107.  (The expression is parsed later; an exception of the parser is not modelled.) -/
def loadCell (kv : String × Option String) : Outcome (String × Cell) :=
  match kv.2 with
  | none => .throw
  | some v =>
    if isFormula v then (Outcome.assert (closed v = true)).bind fun _ => .ok (kv.1, .formula (body v))
    else .ok (kv.1, .text v)

/-- the entries of a section, Generator.cpp:84-108 -/
def loadSect (m : AMap String (Option String)) : Outcome (AMap String Cell) :=
  foldOutcome (fun d kv => (loadCell kv).bind fun r => .ok (AMap.set d r.1 r.2)) [] m

/-- one entry of the definition, Generator.cpp:66-108 -/
def loadEntry (d : Def) (kv : String × YVal) : Outcome Def :=
  match kv.2 with
  | .null => .ok d
  | .scalar s => if kv.1 = "class" ∨ kv.1 = "plugin" then .ok (d.set kv.1 (.scalar s)) else .throw
  | .seq => .throw
  | .map m => (loadSect m).bind fun c => .ok (d.set kv.1 (.sect c))

/-- `load_from_yaml`, Generator.cpp:57-118, into the definition `d` -/
def load (d : Def) (y : AMap String YVal) : Outcome Def := foldOutcome loadEntry d y

/-- An INI file: the value of each key of each section -/
def Ini := String → String → Option String

/-- `cfg.write(section, key, value)` (external) -/
def Ini.write (c : Ini) (sect key value : String) : Ini :=
  fun s k => if s = sect ∧ k = key then some value else c s k

/-- the text of an entry; `val` = the current value of a formula, as text -/
def Cell.show (val : String → String) : Cell → String
  | .text s => s
  | .formula e => val e

/-- the name of the section, Generator.cpp:556 -/
def sectName (cls key : String) : String := "map_" ++ cls ++ "_00_" ++ key

/-- one section, Generator.cpp:549-563 -/
def writeSect (cls : String) (val : String → String) (c : Ini) (kv : String × Entry) : Ini :=
  match kv.2 with
  | .scalar _ => c
  | .sect m => m.foldl (fun c e => c.write (sectName cls kv.1) e.1 (e.2.show val)) c

/-- `c["class"].as<std::string>()` and `c["plugin"]`: an exception if it is a section -/
def text : Entry → Outcome String
  | .scalar s => .ok s
  | .sect _ => .throw

/-- loading of the plugin, Generator.cpp:541-545 -/
def usePlugin (plugin : String → Outcome Unit) : Option Entry → Outcome Unit
  | none => .ok ()
  | some e => (text e).bind plugin

/-- Generator.cpp:531-563; `plugin` = `load_plugin` (external, may throw) -/
def buildIni (plugin : String → Outcome Unit) (val : String → String) (d : Def) : Outcome Ini :=
  match d.get "class" with
  | none => .throw
  | some e => (text e).bind fun cls =>
    (usePlugin plugin (d.get "plugin")).bind fun _ =>
    .ok (d.foldl (writeSect cls val) (Ini.write (fun _ _ => none) "map" (cls ++ "_count") "1"))

/-- `params_.metric_map_definition_ini_file.empty() && params_.metric_map_definition.empty()`, Generator.cpp:154: the default
generator of point clouds is used -/
def isDefault (iniFile : String) (d : Def) : Bool := iniFile == "" && d.isEmpty

end MapDef
end Verif
