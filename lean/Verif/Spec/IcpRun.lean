import Verif.Model.IcpRun
import Verif.Spec.Pipeline
/-
What `icp-run` is documented to do with its inputs.
-/
namespace Verif.IcpRun

/-- The documentation of `--input-local`: `<RAWLOG_FILE.rawlog>:<N>` is an entry of a rawlog; otherwise the extension decides: `.mm`, `.icplog`,
anything else is text. -/
def Documented (name : List Char) : Kind → Prop
  | .rawlog f n => name = f ++ ':' :: n ∧ ".rawlog".toList <:+ f
  | .map => (¬ ∃ f n, name = f ++ ':' :: n ∧ ".rawlog".toList <:+ f) ∧ ".mm".toList <:+ name
  | .icplog => (¬ ∃ f n, name = f ++ ':' :: n ∧ ".rawlog".toList <:+ f) ∧ ¬ ".mm".toList <:+ name ∧ ".icplog".toList <:+ name
  | .text => (¬ ∃ f n, name = f ++ ':' :: n ∧ ".rawlog".toList <:+ f) ∧ ¬ ".mm".toList <:+ name ∧ ¬ ".icplog".toList <:+ name

section
variable {O M K P X R : Type} [Field K] [LinearOrder K] [FloorRing K]

/-- The map an input name stands for, given how the name is taken. -/
def Loads (w : World O M K) (dflt : Gen O M) (gens : List (Gen O M)) (name : List Char) (isLocal : Bool) (m : M) : Kind → Prop
  | .rawlog f n => ∃ v r i, w.stod n = some v ∧ w.rawlog f = some r ∧ -1 < v ∧ v < 2 ^ 64 ∧ i = (Vox.truncZ v).toNat ∧
      ((∃ sf b, r[i]? = some (some (.frame sf)) ∧ applyGeneratorsFrame (if gens = [] then [dflt] else gens) sf w.emptyMap = .ok (b, m)) ∨
       (∃ o b, r[i]? = some (some (.obs o)) ∧ applyGeneratorsObs (if gens = [] then [dflt] else gens) o w.emptyMap = .ok (b, m)))
  | .map => w.mm name = .ok (some m)
  | .icplog => ∃ l g, w.icplog name = .ok (some (l, g)) ∧ (isLocal = true → l = some m) ∧ (isLocal = false → g = some m)
  | .text => w.xyz name = .ok m

/-- What the option says if given, otherwise the entry of the configuration file if there is one, otherwise the default. -/
def Chosen {α : Type} (opt entry : Option (Outcome α)) (dflt x : α) : Prop :=
  (∀ o, opt = some o → o = .ok x) ∧ (opt = none → ∀ o, entry = some o → o = .ok x) ∧ (opt = none → entry = none → x = dflt)

end
end Verif.IcpRun
