import Verif.Model.ErrorTerms
import Verif.Model.Visit
import Mathlib.LinearAlgebra.Matrix.ConjTranspose
/-
`optimal_tf_gauss_newton`, /repo/mp2p_icp/src/optimal_tf_gauss_newton.cpp, and `Solver_GaussNewton::impl_optimal_pose`,
/repo/mp2p_icp/src/Solver_GaussNewton.cpp:42-71.

Two builds are modelled: without TBB (serial loops) and with TBB (`MP2P_HAS_TBB`), where the point-to-point and
point-to-plane sums are made by `tbb::parallel_reduce`.  External: the Jacobian of the exponential map, the LDLT solver,
the exponential map, the square root, the prior term.
The ghost `trace` records, per inner iteration, the pose and the linear system at the time of the convergence test.
-/
namespace Verif.Gn
variable {K : Type}

/-- The pair (H, g). -/
abbrev Sys (K : Type) := Matrix (Fin 6) (Fin 6) K × (Fin 6 → K)

/-- `OptimalTF_GN_Parameters`, optimal_tf_gauss_newton.h:33-64, with the prior already turned into its contribution to
(H, g) as a function of the current pose (optimal_tf_gauss_newton.cpp:311-340; MRPT functions `log`,
`jacob_dDinvP1invP2_de1e2`). -/
structure Params (K : Type) where
  linearizationPoint : Option (Pose3 K)
  prior : Option (Pose3 K → Sys K)
  minDelta : K
  maxCost : K
  pairWeights : PairWeights K
  maxInner : Nat
  kernel : RobustKernel
  kernelParam : K

/-- External functions: `Lie::SE<3>::jacob_dDexpe_de`, `H.ldlt().solve(g)`, `Lie::SE<3>::exp`, `std::sqrt`, and the ones of
the line-to-line term with the contents of its uninitialised outputs. -/
structure Env (K : Type) where
  expJac : Pose3 K → Matrix (Fin 12) (Fin 6) K
  solve : Matrix (Fin 6) (Fin 6) K → (Fin 6 → K) → (Fin 6 → K)
  exp : (Fin 6 → K) → Pose3 K
  sqrt : K → K
  ln : Err.LnEnv K
  junkErr : Fin 4 → K
  junkJac : Matrix (Fin 4) (Fin 12) K

section
variable [Field K]

/-- Squared norm of the error vector, e.g. optimal_tf_gauss_newton.cpp:170 (`retSqrNorm`). -/
def sqNorm {n : Nat} (e : Fin n → K) : K := ∑ i, e i * e i

/-- Weight with the robust kernel, e.g. optimal_tf_gauss_newton.cpp:170-171 (also 129-130, 193-194, 215-216, 247-248, 276-277,
299-300). -/
def weight {n : Nat} (P : Params K) (w : K) (e : Fin n → K) : K :=
  match createRobustKernel P.kernel P.kernelParam with
  | none => w
  | some f => w * f (sqNorm e)

/-- What one pairing adds to (H, g), e.g. optimal_tf_gauss_newton.cpp:173-179:
`g += w Jiᵀ e`, `H += w Jiᵀ Ji`, `Ji = J1 · dDexpe_de`. -/
def contrib {n : Nat} (D : Matrix (Fin 12) (Fin 6) K) (w : K) (J : Matrix (Fin n) (Fin 12) K) (e : Fin n → K) : Sys K :=
  (w • ((J * D).transpose * (J * D)), w • (J * D).transpose.mulVec e)

/-- Running values of one iteration: (H, g) and `errNormSqr`. -/
structure Acc (K : Type) where
  sys : Sys K
  err : K

/-- Weight cursor which lives across iterations: optimal_tf_gauss_newton.cpp:64-68 (`w.pt2pt`,
`cur_point_block_weights`, `cur_point_block_start`). -/
structure Cursor (K : Type) where
  wPt : K
  blocks : List (Nat × K)
  start : Nat

/-- Cursor handling for one point pair, optimal_tf_gauss_newton.cpp:117-126 (TBB) and 158-167 (serial); the block step is
the one of `visit_correspondences` (the same lines of code). -/
def nextWeight (hasW : Bool) (i : Nat) (c : Cursor K) : Outcome (Cursor K) :=
  if hasW then
    (blockStep i c.blocks c.start).bind fun r => .ok ⟨r.2.2, r.1, r.2.1⟩
  else .ok c

/-- One point-to-point pair, optimal_tf_gauss_newton.cpp:108-139 (TBB) and 150-180 (serial). -/
def ptStep (E : Env K) (P : Params K) (hasW : Bool) (T : Pose3 K) (s : Acc K × Cursor K) (i : Nat) (p : PtPair K) :
    Outcome (Acc K × Cursor K) :=
  (nextWeight hasW i s.2).bind fun c =>
    let e := Err.pt2pt p T
    let w := weight P c.wPt e
    .ok (⟨s.1.sys + contrib (E.expJac T) w (Err.pt2ptJac p) e, s.1.err + w * sqNorm e⟩, c)

/-- Serial loop over the point pairs, optimal_tf_gauss_newton.cpp:149-180. -/
def ptLoop (E : Env K) (P : Params K) (hasW : Bool) (T : Pose3 K) :
    Acc K × Cursor K → Nat → List (PtPair K) → Outcome (Acc K × Cursor K)
  | s, _, [] => .ok s
  | s, i, p :: ps => (ptStep E P hasW T s i p).bind fun s' => ptLoop E P hasW T s' (i + 1) ps

/-- Point-to-line pair, optimal_tf_gauss_newton.cpp:184-203. -/
def lnStep (E : Env K) (P : Params K) (T : Pose3 K) (a : Acc K) (p : PtLnPair K) : Acc K :=
  let e := Err.pt2ln p T
  let w := weight P P.pairWeights.pt2ln e
  ⟨a.sys + contrib (E.expJac T) w (Err.pt2lnJac p) e, a.err + w * w * sqNorm e⟩

/-- Line-to-line pair, optimal_tf_gauss_newton.cpp:207-225. -/
def lnlnStep (E : Env K) (P : Params K) (T : Pose3 K) (a : Acc K) (p : LnPair K) : Acc K :=
  let e := Err.ln2ln E.ln E.junkErr p T
  let w := weight P P.pairWeights.ln2ln e
  ⟨a.sys + contrib (E.expJac T) w (Err.ln2lnJac E.ln E.junkJac p T) e, a.err + w * w * sqNorm e⟩

/-- Point-to-plane pair of the serial build, optimal_tf_gauss_newton.cpp:267-286. -/
def plStep (E : Env K) (P : Params K) (T : Pose3 K) (a : Acc K) (p : PtPlPair K) : Acc K :=
  let e := Err.pt2pl p T
  let w := weight P P.pairWeights.pt2pl e
  ⟨a.sys + contrib (E.expJac T) w (Err.pt2plJac p) e, a.err + w * w * sqNorm e⟩

/-- Point-to-plane pair of the TBB build, optimal_tf_gauss_newton.cpp:238-257: the cost is summed with `weight`, not with
its square (line 252, against line 281). -/
def plStepTbb (E : Env K) (P : Params K) (T : Pose3 K) (a : Acc K) (p : PtPlPair K) : Acc K :=
  let e := Err.pt2pl p T
  let w := weight P P.pairWeights.pt2pl e
  ⟨a.sys + contrib (E.expJac T) w (Err.pt2plJac p) e, a.err + w * sqNorm e⟩

/-- Plane-to-plane pair, optimal_tf_gauss_newton.cpp:290-308. -/
def plplStep (E : Env K) (P : Params K) (T : Pose3 K) (a : Acc K) (p : PlPair K) : Acc K :=
  let e := Err.pl2pl p T
  let w := weight P P.pairWeights.pl2pl e
  ⟨a.sys + contrib (E.expJac T) w (Err.pl2plJac p) e, a.err + w * w * sqNorm e⟩

/-- Prior term, optimal_tf_gauss_newton.cpp:311-340 (not part of `errNormSqr`). -/
def priorStep (P : Params K) (T : Pose3 K) (a : Acc K) : Acc K :=
  match P.prior with
  | none => a
  | some f => ⟨a.sys + f T, a.err⟩

/-- How `tbb::parallel_reduce` (functional form) splits a range and combines: the identity; the body applied to a sub-range
`[lo,hi)` on top of an earlier value; the reduction of two values.  `rightFirst` says which side runs first.
Simplification: the body of a sub-range runs as one step (the interleaving of bodies, a data race on the captured
variables, is the subject of `Verif.Gn.Race`). -/
inductive RTree where
  | idle
  | chunk (t : RTree) (lo hi : Nat)
  | join (rightFirst : Bool) (a b : RTree)

/-- The indices handled, in the order of the combination. -/
def RTree.indices : RTree → List Nat
  | .idle => []
  | .chunk t lo hi => t.indices ++ (List.range' lo (hi - lo))
  | .join _ a b => a.indices ++ b.indices

/-- Body of the point-to-point reduction on a sub-range, optimal_tf_gauss_newton.cpp:105-141: `H_local`, `g_local` are the
chunk's, `errNormSqr` and the cursor are shared (captured by reference). Out-of-range indices do not occur. -/
def ptBody (E : Env K) (P : Params K) (hasW : Bool) (T : Pose3 K) (ps : List (PtPair K)) :
    Acc K × Cursor K → List Nat → Outcome (Acc K × Cursor K)
  | s, [] => .ok s
  | s, i :: is =>
    match ps[i]? with
    | none => .ub
    | some p => (ptStep E P hasW T s i p).bind fun s' => ptBody E P hasW T ps s' is

/-- The point-to-point reduction, optimal_tf_gauss_newton.cpp:99-143: returns the value of the tree, with the shared cost and
cursor threaded in execution order. -/
def ptReduce (E : Env K) (P : Params K) (hasW : Bool) (T : Pose3 K) (ps : List (PtPair K)) :
    RTree → K → Cursor K → Outcome (Acc K × Cursor K)
  | .idle, err, c => .ok (⟨0, err⟩, c)
  | .chunk t lo hi, err, c =>
    (ptReduce E P hasW T ps t err c).bind fun s => ptBody E P hasW T ps s (List.range' lo (hi - lo))
  | .join rightFirst a b, err, c =>
    if rightFirst then
      (ptReduce E P hasW T ps b err c).bind fun sb =>
      (ptReduce E P hasW T ps a sb.1.err sb.2).bind fun sa => .ok (⟨sa.1.sys + sb.1.sys, sa.1.err⟩, sa.2)
    else
      (ptReduce E P hasW T ps a err c).bind fun sa =>
      (ptReduce E P hasW T ps b sa.1.err sa.2).bind fun sb => .ok (⟨sa.1.sys + sb.1.sys, sb.1.err⟩, sb.2)

/-- Body of the point-to-plane reduction on a sub-range, optimal_tf_gauss_newton.cpp:235-259. -/
def plBody (E : Env K) (P : Params K) (T : Pose3 K) (ps : List (PtPlPair K)) (a : Acc K) (is : List Nat) : Acc K :=
  is.foldl (fun a i => match ps[i]? with | none => a | some p => plStepTbb E P T a p) a

/-- The point-to-plane reduction, optimal_tf_gauss_newton.cpp:229-264. -/
def plReduce (E : Env K) (P : Params K) (T : Pose3 K) (ps : List (PtPlPair K)) : RTree → K → Acc K
  | .idle, err => ⟨0, err⟩
  | .chunk t lo hi, err => plBody E P T ps (plReduce E P T ps t err) (List.range' lo (hi - lo))
  | .join rightFirst a b, err =>
    if rightFirst then
      let sb := plReduce E P T ps b err
      let sa := plReduce E P T ps a sb.err
      ⟨sa.sys + sb.sys, sa.err⟩
    else
      let sa := plReduce E P T ps a err
      let sb := plReduce E P T ps b sa.err
      ⟨sa.sys + sb.sys, sb.err⟩

/-- Everything after the point pairs, serial build, optimal_tf_gauss_newton.cpp:183-340. -/
def restSerial (E : Env K) (P : Params K) (inp : Pairings K) (T : Pose3 K) (a : Acc K) : Acc K :=
  let a := inp.pt2ln.foldl (lnStep E P T) a
  let a := inp.ln2ln.foldl (lnlnStep E P T) a
  let a := inp.pt2pl.foldl (plStep E P T) a
  let a := inp.pl2pl.foldl (plplStep E P T) a
  priorStep P T a

/-- Everything after the point pairs, TBB build, optimal_tf_gauss_newton.cpp:183-340. -/
def restTbb (E : Env K) (P : Params K) (inp : Pairings K) (tree : RTree) (T : Pose3 K) (a : Acc K) : Acc K :=
  let a := inp.pt2ln.foldl (lnStep E P T) a
  let a := inp.ln2ln.foldl (lnlnStep E P T) a
  let r := plReduce E P T inp.pt2pl tree a.err
  let a : Acc K := ⟨a.sys + r.sys, r.err⟩
  let a := inp.pl2pl.foldl (plplStep E P T) a
  priorStep P T a

/-- The build: without TBB, or with TBB under a given schedule (per iteration, the split of the two reductions). -/
inductive Build where
  | serial
  | tbb (sched : Nat → RTree × RTree)

/-- The linear system and cost of iteration `k`, optimal_tf_gauss_newton.cpp:73-340.  Serial: (H, g) start from the values
left by the previous iteration (they are zeroed only once, lines 61-62). TBB: they are overwritten by the reduction
(lines 145-146). -/
def assemble (b : Build) (E : Env K) (P : Params K) (inp : Pairings K) (k : Nat) (T : Pose3 K) (sys : Sys K)
    (c : Cursor K) : Outcome (Acc K × Cursor K) :=
  match b with
  | .serial =>
    (ptLoop E P (!inp.pointWeights.isEmpty) T (⟨sys, 0⟩, c) 0 inp.pt2pt).bind fun s =>
      .ok (restSerial E P inp T s.1, s.2)
  | .tbb sched =>
    (ptReduce E P (!inp.pointWeights.isEmpty) T inp.pt2pt (sched k).1 0 c).bind fun s =>
      .ok (restTbb E P inp (sched k).2 T s.1, s.2)

/-- Result: the pose, the value returned, and the ghost trace. -/
structure Run (K : Type) where
  pose : Pose3 K
  trace : List (Pose3 K × Sys K)
  ret : Bool

variable [LinearOrder K]

/-- The loop, optimal_tf_gauss_newton.cpp:70-367, `n` iterations left, `k` done. -/
def loop (b : Build) (E : Env K) (P : Params K) (inp : Pairings K) :
    Nat → Nat → Pose3 K → Sys K → Cursor K → List (Pose3 K × Sys K) → Outcome (Run K)
  | 0, _, T, _, _, tr => .ok ⟨T, tr, true⟩
  | n + 1, k, T, sys, c, tr =>
    (assemble b E P inp k T sys c).bind fun s =>
      let tr := tr ++ [(T, s.1.sys)]
      if E.sqrt s.1.err ≤ P.maxCost then .ok ⟨T, tr, true⟩
      else
        let delta := -(E.solve s.1.sys.1 s.1.sys.2)
        let T' := T.compose (E.exp delta)
        if E.sqrt (sqNorm delta) < P.minDelta then .ok ⟨T', tr, true⟩
        else loop b E P inp n (k + 1) T' s.1.sys s.2 tr

/-- `optimal_tf_gauss_newton`, optimal_tf_gauss_newton.cpp:36-372. It always returns `true` (line 369). -/
def run (b : Build) (E : Env K) (P : Params K) (inp : Pairings K) : Outcome (Run K) :=
  match P.linearizationPoint with
  | none => .throw
  | some T0 => loop b E P inp P.maxInner 0 T0 0 ⟨P.pairWeights.pt2pt, inp.pointWeights, 0⟩ []

/-- `Solver_GaussNewton::impl_optimal_pose`, Solver_GaussNewton.cpp:42-71: the guess becomes the linearization point, and its
absence is an error. -/
def solver (b : Build) (E : Env K) (P : Params K) (inp : Pairings K) (guess : Option (Pose3 K)) : Outcome (Run K) :=
  match guess with
  | none => .throw
  | some g => run b E { P with linearizationPoint := some g } inp

end

/-! The unprotected sum `errNormSqr += ...` of the TBB build, optimal_tf_gauss_newton.cpp:134 and 252: the lambda
captures the variable by reference and runs on several threads. -/
namespace Race

/-- A worker: the terms still to add, and the value read, if it is between the read and the write of `+=`. -/
structure Worker (K : Type) where
  todo : List K
  loaded : Option K := none

/-- Shared `errNormSqr` and the workers. -/
structure State (K : Type) where
  err : K
  workers : List (Worker K)

/-- One memory access by worker `i`: read the variable, or write the sum. -/
inductive Step {K : Type} [Add K] : State K → State K → Prop
  | load {s : State K} {i : Nat} {x : K} {rest : List K} : s.workers[i]? = some ⟨x :: rest, none⟩ →
      Step s { s with workers := s.workers.set i ⟨x :: rest, some s.err⟩ }
  | store {s : State K} {i : Nat} {x v : K} {rest : List K} : s.workers[i]? = some ⟨x :: rest, some v⟩ →
      Step s ⟨v + x, s.workers.set i ⟨rest, none⟩⟩

/-- Any number of steps. -/
inductive Steps {K : Type} [Add K] : State K → State K → Prop
  | refl (s) : Steps s s
  | step {a b c} : Step a b → Steps b c → Steps a c

end Race

end Verif.Gn
