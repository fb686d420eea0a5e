import Verif.Model.Outcome
import Verif.Model.AMap
import Mathlib.Data.String.Basic
/-
Lists of objects built from YAML, filter pipelines and sets of generators:
/repo/mp2p_icp/src/ICP.cpp:486-606, /repo/mp2p_icp/src/icp_pipeline_from_yaml.cpp:26-77,
/repo/mp2p_icp_filters/src/FilterBase.cpp:32-91, /repo/mp2p_icp_filters/src/Generator.cpp:272-360.
-/
namespace Verif

/-- One entry of a YAML sequence, as these functions look at it.  Each field is `none` when the key is
absent. -/
structure YEntry (Y W : Type) where
  enabled : Option Bool := none
  plugin : Option String := none
  cls : Option String := none
  params : Option Y := none
  weight : Option W := none

/-- The run-time class registry and object initialisation: `load_plugin` (may throw), `classFactory` +
`dynamic_pointer_cast` + `initialize` (the three may throw; here one function of the class name and
parameters).  The registry is a state because plugins register classes. -/
structure Registry (Reg Y Obj : Type) where
  loadPlugin : Reg → String → Outcome Reg
  create : Reg → String → Y → Outcome Obj

/-- "optional plugin module?", ICP.cpp:503-508. -/
def loadOptPlugin {Reg Y Obj : Type} (rg : Registry Reg Y Obj) (reg : Reg) (plugin : Option String) :
    Outcome Reg :=
  match plugin with
  | some m => rg.loadPlugin reg m
  | none => .ok reg

/-- Loop of `ICP::initialize_solvers/matchers/quality_evaluators`, ICP.cpp:490-606 (the three are the same
text but for the weight).  State: registry and the list built so far.  `one` = default weight 1.0.
The list is returned also when an exception is thrown, since it is a member of the ICP object: result =
(list, none = exception thrown). -/
def initListLoop {Reg Y Obj W : Type} (rg : Registry Reg Y Obj) (one : W) :
    Reg → List (Obj × W) → List (YEntry Y W) → List (Obj × W) × Option Reg
  | reg, lst, [] => (lst, some reg)
  | reg, lst, e :: es =>
    if e.enabled = some false then initListLoop rg one reg lst es
    else
      match loadOptPlugin rg reg e.plugin, e.cls, e.params with
      | .ok reg1, some c, some y =>
        match rg.create reg1 c y with
        | .ok o => initListLoop rg one reg1 (lst ++ [(o, e.weight.getD one)]) es
        | _ => (lst, none)
      | _, _, _ => (lst, none)

/-- `ICP::initialize_*`: `old` = previous contents of the member list; `yaml` = `none` when the node is
not a sequence (`ASSERT_`, after the list was cleared). -/
def initList {Reg Y Obj W : Type} (rg : Registry Reg Y Obj) (one : W) (reg : Reg)
    (_old : List (Obj × W)) (yaml : Option (List (YEntry Y W))) : List (Obj × W) × Option Reg :=
  match yaml with
  | none => ([], none)
  | some es => initListLoop rg one reg [] es

/-- `apply_filter_pipeline`, FilterBase.cpp:32-49, over filters that may throw midway having changed the
map: result = (map, exception?).  A null pointer in the list throws (`ASSERT_`). -/
def applyFilters {M : Type} : List (Option (M → M × Bool)) → M → M × Bool
  | [], m => (m, false)
  | none :: _, m => (m, true)
  | some f :: fs, m =>
    let r := f m
    if r.2 then (r.1, true) else applyFilters fs r.1

/-- `apply_generators` for one observation, Generator.cpp:272-285.  A generator: observation → map →
outcome (handled?, map).  Ghost output: the list of (generator, observation) calls made, in order. -/
def applyGeneratorsLoop {O M : Type} (obs : O) :
    List (O → M → Outcome (Bool × M)) → Bool → M → Outcome (Bool × M)
  | [], any, m => .ok (any, m)
  | g :: gs, any, m => (g obs m).bind fun (h, m') => applyGeneratorsLoop obs gs (any || h) m'

/-- `apply_generators(generators, obs, output)`, Generator.cpp:272-285. -/
def applyGeneratorsObs {O M : Type} (gens : List (O → M → Outcome (Bool × M))) (obs : O) (m : M) :
    Outcome (Bool × M) :=
  (Outcome.assert (gens ≠ [])).bind fun _ => applyGeneratorsLoop obs gens false m

/-- Inner loop over the observations of a sensory frame, Generator.cpp:315-324; null pointers skipped. -/
def genOverFrame {O M : Type} (g : O → M → Outcome (Bool × M)) :
    List (Option O) → Bool → M → Outcome (Bool × M)
  | [], any, m => .ok (any, m)
  | none :: os, any, m => genOverFrame g os any m
  | some o :: os, any, m => (g o m).bind fun (h, m') => genOverFrame g os (any || h) m'

/-- Outer loop, Generator.cpp:312-325. -/
def applyGeneratorsFrameLoop {O M : Type} (sf : List (Option O)) :
    List (O → M → Outcome (Bool × M)) → Bool → M → Outcome (Bool × M)
  | [], any, m => .ok (any, m)
  | g :: gs, any, m => (genOverFrame g sf any m).bind fun (any', m') => applyGeneratorsFrameLoop sf gs any' m'

/-- `apply_generators(generators, sf, output)`, Generator.cpp:306-327. -/
def applyGeneratorsFrame {O M : Type} (gens : List (O → M → Outcome (Bool × M))) (sf : List (Option O))
    (m : M) : Outcome (Bool × M) :=
  (Outcome.assert (gens ≠ [])).bind fun _ => applyGeneratorsFrameLoop sf gens false m

/-! ### Layers -/

/-- A layer: a point cloud or any other kind of map. -/
inductive Layer (P X : Type) where
  | pts (p : P)
  | other (x : X)
  deriving DecidableEq, Repr

/-- `FilterDeleteLayer::filter`, FilterDeleteLayer.cpp:72-90; result = (layers, exception?). -/
def deleteLayers {L : Type} (errMissing : Bool) : List String → AMap String L → AMap String L × Bool
  | [], m => (m, false)
  | n :: ns, m =>
    let found := (m.get n).isSome
    let m' := m.erase n
    if errMissing && !found then (m', true) else deleteLayers errMissing ns m'

/-- `GetOrCreatePointLayer`, GetOrCreatePointLayer.cpp:23-63.  `create` = `classFactory` and cast to a
point map (`none` if not possible).  Result: the cloud (`none` = null pointer) and the layers. -/
def getOrCreatePointLayer {P X : Type} (create : Option P) (m : AMap String (Layer P X)) (name : String)
    (allowEmpty : Bool) : Outcome (Option P × AMap String (Layer P X)) :=
  if name = "" then (if allowEmpty then .ok (none, m) else .throw)
  else match m.get name with
    | some (.pts p) => .ok (some p, m)
    | some (.other _) => .throw
    | none => match create with
      | none => .throw
      | some p => .ok (some p, m.set name (.pts p))

end Verif
