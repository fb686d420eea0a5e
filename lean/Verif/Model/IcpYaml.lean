import Verif.Model.Pipeline
/-
`icp_pipeline_from_yaml`: /repo/mp2p_icp/src/icp_pipeline_from_yaml.cpp:22-77.
-/
namespace Verif
namespace IcpYaml
variable {Reg Y P I S M Q W : Type}

/-- What is needed from the run-time class registry and the classes: see `Registry`.  `newIcp`: the class factory and the cast to
`ICP`; `derive`: `initialize_derived`; `loadParams`: `Parameters::load_from`, C65, into default parameters. -/
structure Factory (Reg Y P I S M Q : Type) where
  loadPlugin : Reg → String → Outcome Reg
  newIcp : Reg → String → Outcome I
  derive : I → Y → Outcome I
  solver : Reg → String → Y → Outcome S
  matcher : Reg → String → Y → Outcome M
  quality : Reg → String → Y → Outcome Q
  loadParams : Y → Outcome P
  defaultParams : P

/-- The YAML map.  `none`: no such key.  The sections: `some none` if it is not a sequence. -/
structure Conf (Y W : Type) where
  cls : Option String := none
  plugin : Option String := none
  derived : Option Y := none
  solvers : Option (Option (List (YEntry Y W))) := none
  matchers : Option (Option (List (YEntry Y W))) := none
  quality : Option (Option (List (YEntry Y W))) := none
  params : Option Y := none

/-- An `ICP` object: what its class makes of `derived`, and its three lists -/
structure Icp (I S M Q W : Type) where
  core : I
  solvers : List S
  matchers : List M
  quality : List (Q × W)

/-- `if (icpParams.has(key)) icp->initialize_X(icpParams[key])`, icp_pipeline_from_yaml.cpp:58-61; the list of a new object is empty -/
def section_ {Obj : Type} (load : Reg → String → Outcome Reg) (create : Reg → String → Y → Outcome Obj) (one : W) (reg : Reg)
    (s : Option (Option (List (YEntry Y W)))) : Outcome (List (Obj × W) × Reg) :=
  match s with
  | none => .ok ([], reg)
  | some y => match initList ⟨load, create⟩ one reg [] y with
    | (lst, some reg') => .ok (lst, reg')
    | (_, none) => .throw

/-- icp_pipeline_from_yaml.cpp:49-55 -/
def doDerive (f : Factory Reg Y P I S M Q) (i : I) : Option Y → Outcome I
  | none => .ok i
  | some y => f.derive i y

/-- icp_pipeline_from_yaml.cpp:67-73 -/
def doParams (f : Factory Reg Y P I S M Q) (c : Conf Y W) : Outcome P :=
  match c.derived with
  | some _ => .ok f.defaultParams
  | none => match c.params with
    | none => .throw
    | some y => f.loadParams y

/-- the optional plugin, icp_pipeline_from_yaml.cpp:31-36 -/
def doPlugin (f : Factory Reg Y P I S M Q) (reg : Reg) : Option String → Outcome Reg
  | none => .ok reg
  | some m => f.loadPlugin reg m

/-- icp_pipeline_from_yaml.cpp:22-77; `one` = 1.0 -/
def fromYaml (f : Factory Reg Y P I S M Q) (one : W) (reg : Reg) (c : Conf Y W) : Outcome (Icp I S M Q W × P) :=
  match c.cls with
  | none => .throw
  | some cls =>
    (doPlugin f reg c.plugin).bind fun reg =>
    (f.newIcp reg cls).bind fun i =>
    (doDerive f i c.derived).bind fun i =>
    (section_ f.loadPlugin f.solver one reg c.solvers).bind fun s =>
    (section_ f.loadPlugin f.matcher one s.2 c.matchers).bind fun m =>
    (Outcome.assert (c.quality.isSome = true)).bind fun _ =>
    (section_ f.loadPlugin f.quality one m.2 c.quality).bind fun q =>
    (doParams f c).bind fun p =>
    .ok (⟨i, s.1.map (·.1), m.1.map (·.1), q.1⟩, p)

end IcpYaml
end Verif
