import Verif.Model.Pipeline
/-
rawlog-filter: /repo/apps/rawlog-filter/main.cpp:78-243.
The generators and the filters with their state `σ` (their parameter source and its velocity buffer) are functions.  Not modelled:
loading and unloading of externally stored observations, progress bar.
-/
namespace Verif
namespace Rawlog
variable {O τ C X σ : Type}

/-- The layers of a map; null pointers are `none` -/
abbrev Layers (C X : Type) := AMap String (Option (Layer C X))

/-- The output for one entry: the observation and the clouds, with label and stamp (main.cpp:198-220) -/
structure Frame (O τ C : Type) where
  input : O
  outs : List (String × τ × C)
  deriving DecidableEq

/-- `gen`: `apply_generators` on an empty map; `filt`: `apply_filter_pipeline` -/
structure Env (O τ C X σ : Type) where
  gen : σ → O → Outcome (Bool × Layers C X × σ)
  filt : σ → Layers C X → Outcome (Layers C X × σ)
  stamp : O → τ

/-- one layer, main.cpp:205-219 -/
def outOf (t : τ) (e : String × Option (Layer C X)) : Option (String × τ × C) :=
  match e.2 with
  | some (.pts c) => some ("out_" ++ e.1, t, c)
  | _ => none

/-- one entry, main.cpp:178-221: `none` = nothing is written -/
def entry (env : Env O τ C X σ) (s : σ) (o : O) : Outcome (Option (Frame O τ C) × σ) :=
  (env.gen s o).bind fun g =>
  if g.1 then (env.filt g.2.2 g.2.1).bind fun m => .ok (some ⟨o, m.1.filterMap (outOf (env.stamp o))⟩, m.2)
  else .ok (none, g.2.2)

/-- the loop, main.cpp:176-242: `k` entries left from `cur` on.  Result: the frames in the file, and how it ended (they stay in the
file in all cases). -/
def loop (env : Env O τ C X σ) (data : List (Option O)) : Nat → Nat → σ → List (Frame O τ C) → List (Frame O τ C) × Outcome Unit
  | 0, _, _, out => (out, .ok ())
  | k + 1, cur, s, out =>
    match data[cur]? with
    | none => (out, .throw)
    | some none => (out, .throw)
    | some (some o) => match entry env s o with
      | .ok (some fr, s') => loop env data k (cur + 1) s' (out ++ [fr])
      | .ok (none, s') => loop env data k (cur + 1) s' out
      | .throw => (out, .throw)
      | .ub => (out, .ub)

/-- main.cpp:146-163, 176: the options `--from` and `--to`, of type `size_t` -/
def run (env : Env O τ C X σ) (data : List (Option O)) (from_ to_ : Option Nat) (s : σ) : List (Frame O τ C) × Outcome Unit :=
  let n := match to_ with | some t => min data.length ((t + 1) % 2 ^ 64) | none => data.length
  let c := match from_ with | some f => max 0 f | none => 0
  loop env data (n - c) c s []

end Rawlog
end Verif
