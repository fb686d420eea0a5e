import Verif.Model.IcpYaml
import Verif.Spec.Pipeline
/-
What an ICP pipeline described in YAML is (C80).
-/
namespace Verif.Spec
open Verif Verif.IcpYaml
variable {Reg Y P I S M Q W : Type}

/-- The entries that are not disabled -/
def enabledEntries (es : List (YEntry Y W)) : List (YEntry Y W) := es.filter fun e => decide (e.enabled ≠ some false)

/-- A section gives one object per enabled entry, in order; a section that is not there gives none. -/
def SectionGives {Obj : Type} (load : Reg → String → Outcome Reg) (create : Reg → String → Y → Outcome Obj) (one : W) (reg : Reg)
    (s : Option (Option (List (YEntry Y W)))) (lst : List (Obj × W)) (reg' : Reg) : Prop :=
  (s = none ∧ lst = [] ∧ reg' = reg) ∨ ∃ es, s = some (some es) ∧ Built ⟨load, create⟩ one reg (enabledEntries es) lst reg'

/-- The pipeline that the file describes: class, `derived` part, solvers, matchers, evaluators (each plugin being loaded before the
classes of its own entry and of all later ones are looked up), parameters. -/
def Describes (f : Factory Reg Y P I S M Q) (one : W) (reg : Reg) (c : Conf Y W) (icp : Icp I S M Q W) (p : P) : Prop :=
  ∃ cls reg1 i ss reg2 ms reg3 reg4,
    c.cls = some cls ∧
    ((c.plugin = none ∧ reg1 = reg) ∨ ∃ m, c.plugin = some m ∧ f.loadPlugin reg m = .ok reg1) ∧
    f.newIcp reg1 cls = .ok i ∧
    ((c.derived = none ∧ icp.core = i) ∨ ∃ y, c.derived = some y ∧ f.derive i y = .ok icp.core) ∧
    SectionGives f.loadPlugin f.solver one reg1 c.solvers ss reg2 ∧ icp.solvers = ss.map (·.1) ∧
    SectionGives f.loadPlugin f.matcher one reg2 c.matchers ms reg3 ∧ icp.matchers = ms.map (·.1) ∧
    c.quality ≠ none ∧ SectionGives f.loadPlugin f.quality one reg3 c.quality icp.quality reg4 ∧
    ((c.derived = none ∧ ∃ y, c.params = some y ∧ f.loadParams y = .ok p) ∨ (c.derived ≠ none ∧ p = f.defaultParams))

end Verif.Spec
