import Mathlib.Data.List.Basic
/-
The parallel build of Matcher_Points_DistanceThreshold (MP2P_HAS_TBB),
/repo/mp2p_icp/src/Matcher_Points_DistanceThreshold.cpp:125-207: `tbb::parallel_reduce` runs the loop body on
sub-ranges of the local cloud in parallel; the flags `ms.globalPairedBitField` are shared and unprotected.

Modelled: default options, one pairing per point; the nearest neighbours are within the threshold (a task is the
local point and its nearest global point).  A worker handles a task in two steps: the read of the flag
(lines 101-103) and, if it was not set, the pairing and the marking (lines 106-121).  The steps of different workers
interleave arbitrarily (each step is taken to be atomic: the data race of C++ is one more way of failing, not
modelled).
-/
namespace Verif.Race

/-- One worker: the tasks (local, global) still to do in its sub-range, and whether it has just read "not set"
for the first one. -/
structure Worker where
  todo : List (Nat × Nat)
  passed : Bool := false
  deriving DecidableEq

/-- Shared state: global points marked, pairings made, workers. -/
structure State where
  marked : List Nat := []
  pairs : List (Nat × Nat) := []
  workers : List Worker
  deriving DecidableEq

/-- Worker `i` makes one step. -/
inductive Step : State → State → Prop
  /-- the flag is set: skip the task (line 103) -/
  | skip {s i l g rest} : s.workers[i]? = some ⟨(l, g) :: rest, false⟩ → g ∈ s.marked →
      Step s { s with workers := s.workers.set i ⟨rest, false⟩ }
  /-- the flag is not set (lines 101-102) -/
  | check {s i l g rest} : s.workers[i]? = some ⟨(l, g) :: rest, false⟩ → g ∉ s.marked →
      Step s { s with workers := s.workers.set i ⟨(l, g) :: rest, true⟩ }
  /-- pair and mark (lines 106-121) -/
  | pair {s i l g rest} : s.workers[i]? = some ⟨(l, g) :: rest, true⟩ →
      Step s { marked := g :: s.marked, pairs := s.pairs ++ [(l, g)], workers := s.workers.set i ⟨rest, false⟩ }

/-- Any number of steps. -/
inductive Steps : State → State → Prop
  | refl (s) : Steps s s
  | step {a b c} : Step a b → Steps b c → Steps a c

end Verif.Race
