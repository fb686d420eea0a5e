import Verif.Model.LogViewer
/-
Specifications for the log viewer (C95).
-/
namespace Verif.Spec
open Verif Verif.LogView
variable {Pose Pairs L : Type}

/-- Logs the viewer can show: there is one, each has its two maps, and each has the layers of the first one. -/
structure GoodLogs (recs : List (Rec Pose Pairs L)) : Prop where
  some_log : recs ≠ []
  maps : ∀ r ∈ recs, ∃ ml mg, r.loc = some ml ∧ r.global = some mg
  globals : ∀ r0 ∈ recs.head?, ∀ r ∈ recs, ∀ m0 m, r0.global = some m0 → r.global = some m → ∀ n ∈ m0.map (·.1), n ∈ m.map (·.1)
  locals : ∀ r0 ∈ recs.head?, ∀ r ∈ recs, ∀ m0 m, r0.loc = some m0 → r.loc = some m → ∀ n ∈ m0.map (·.1), n ∈ m.map (·.1)

/-- The shown layers are those of the map whose box is checked, each with its own contents. -/
def LayersShown (m : Option (AMap String L)) (boxes : AMap String Bool) (shown : List (String × L)) : Prop :=
  shown.map (·.1) = (boxes.filter (·.2)).map (·.1) ∧ ∀ mm, m = some mm → ∀ x ∈ shown, AMap.get mm x.1 = some x.2

/-- A pose with some of the manual changes `es`, in their order. -/
def Tuned (setComp : Pose → Fin 6 → ℚ → Pose) (es : List (Fin 6 × ℚ)) (p q : Pose) : Prop :=
  ∃ es' : List (Fin 6 × ℚ), es'.Sublist es ∧ q = es'.foldl (fun p e => setComp p e.1 e.2) p

/-- The manual changes in a history. -/
def manualEdits (acts : List Act) : List (Fin 6 × ℚ) :=
  acts.filterMap fun a => match a with
    | .manual i v => some (i, v)
    | _ => none

/-- What should be seen of record `r`: the pose and the pairings for the state of the controls.  Without logged iterations: the
initial guess if that is asked for, or else the result (`res`).  With logged iterations, the one nearest to the slider. -/
inductive Chosen (r : Rec Pose Pairs L) (res : Pose) (s : VState Pose Pairs L) : Pose → Pairs → Prop where
  | guess : r.details = [] → s.showInit = true → Chosen r res s r.guess r.finalPairs
  | result : r.details = [] → s.showInit = false → Chosen r res s res r.finalPairs
  | iteration (k n : Nat) (p : Pose) (prs : Pairs) : r.details[k]? = some (n, p, prs) → 2 * (s.iterVal - k) ≤ 1 → 2 * ((k : ℚ) - s.iterVal) ≤ 1 →
      Chosen r res s p prs

/-- The window shows record `r`, with `res` as its result: the checked layers of its two maps, the local one at the chosen pose,
and the chosen pairings, if they are to be shown. -/
structure ShowsRecord (r : Rec Pose Pairs L) (res : Pose) (s : VState Pose Pairs L) : Prop where
  view : ∃ pose prs g l, Chosen r res s pose prs ∧ LayersShown r.global s.cbG g ∧ LayersShown r.loc s.cbL l ∧
    s.scene = { corner := some pose, global := some g, loc := some (l, pose),
                pairs := if s.showPairs then some (prs, pose) else none }
  boxes : s.poseBox = some res ∧ s.guessBox = some r.guess

end Verif.Spec
