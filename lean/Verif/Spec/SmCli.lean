import Verif.Model.SmCli
/-
What `sm-cli` is expected to do.
-/
namespace Verif.SmCli
open Verif.Tool

section
variable {P S T τ G B : Type} [LinearOrder τ] [SMul G P]

/-- A valid call of a command that writes a file, the file and its contents. -/
inductive Computes (e : Env P S T τ G B) (a : Args B) : String → Content P S T τ → Prop
  | cut {file f t sm out path} : a.cmds = ["cut", file] → a.from_ = some f → a.to_ = some t → a.output = some path →
      e.readMap file = some sm → cut sm f t = .ok out → Computes e a path (.simplemap out)
  | join {f1 fs} {sms : List (List (Key P S T))} {path} : a.cmds = "join" :: f1 :: fs → a.output = some path →
      (f1 :: fs).map e.readMap = sms.map some → Computes e a path (.simplemap sms.flatten)
  | trim {file lo hi sm out path} : a.cmds = ["trim", file] → a.minCorner = some (.ok lo) → a.maxCorner = some (.ok hi) → a.output = some path →
      e.readMap file = some sm → trim (e.inBox lo hi) sm = .ok out → Computes e a path (.simplemap out)
  | tf {file str g sm out path} : a.cmds = ["tf", file, path, str] → e.parsePose str = .ok g →
      e.readMap file = some sm → tf g sm = .ok out → Computes e a path (.simplemap out)
  | level {file sm out path} : a.cmds = ["level", file, path] → e.readMap file = some sm → level e.opt sm = .ok out →
      Computes e a path (.simplemap out)
  | exportKF {file sm st path} : a.cmds = ["export-keyframes", file] → a.output = some path → e.readMap file = some sm →
      exportKfs (keysObs e sm) = .ok st → Computes e a path (.tum st.traj)
  | exportRawlog {file sm out path} : a.cmds = ["export-rawlog", file] → a.output = some path → e.readMap file = some sm →
      exportRawlog (keysObs e sm) = .ok out → Computes e a path (.rawlog out)

end

section
variable {P K τ T : Type} [LinearOrder K] [LinearOrder τ]

/-- All observations of a map, keyframe after keyframe. -/
def allObs (sm : List (Key P (List (Option (IObs τ))) T)) : List (Option (IObs τ)) := sm.flatMap fun kf => kf.sf.getD []

/-- `b` is the least element of the list by `≤` (there is none if the list is empty). -/
def LeastOf {α : Type} [LinearOrder α] (l : List α) (b : Option α) : Prop := (b = none ↔ l = []) ∧ ∀ x, b = some x → x ∈ l ∧ ∀ y ∈ l, x ≤ y
def GreatestOf {α : Type} [LinearOrder α] (l : List α) (b : Option α) : Prop := (b = none ↔ l = []) ∧ ∀ x, b = some x → x ∈ l ∧ ∀ y ∈ l, y ≤ x

end
end Verif.SmCli
