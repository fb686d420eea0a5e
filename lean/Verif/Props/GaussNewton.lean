import Verif.Lemmas.GaussNewtonLoop
import Verif.Lemmas.GaussNewtonRace
import Mathlib.Algebra.Order.Ring.Rat
import Mathlib.Tactic.NormNum
/-
C33 (fresh linear system at every iteration, independent of the parallelisation), C34 (per-layer weights in every
iteration), C62 (fixed point at exact alignment) and the reporting of `optimal_tf_gauss_newton`.
-/
namespace Verif.Props
open Verif.Gn Verif.Spec Verif.Spec.GN Verif.Lemmas.Gn
set_option linter.unusedSectionVars false
variable {K : Type} [Field K] [LinearOrder K]

section C33

/-- C33 for the parallel build without per-layer weights: whatever the partition and the order of the reductions, at every
inner iteration the linear system is the sum over all pairings at the current pose (what is missing: the serial build, see
`gn_serial_accumulates`, and tables of weights, see C34). -/
theorem gn_tbb_fresh_partial (E : Env K) (P : Params K) (inp : Pairings K) (hw : inp.pointWeights = [])
    (sched : Nat → RTree × RTree) (hs : ValidSchedule inp sched) (r : Run K) (h : run (.tbb sched) E P inp = .ok r) :
    ∀ q ∈ r.trace, q.2 = system E P inp (uniform inp P.pairWeights.pt2pt) q.1 := by
  unfold run at h
  split at h
  · cases h
  · rename_i T0 _
    exact loop_fresh _ E P inp _ _ _ (fun k T sys => assemble_tbb_plain E P inp hw sched hs k T sys _) _ _ _ _ _ _ h
      (by simp)

/-- C33, parallel build: the result (pose and all intermediate systems) is the same for any two schedules. -/
theorem gn_tbb_schedule_independent_partial (E : Env K) (P : Params K) (inp : Pairings K) (hw : inp.pointWeights = [])
    (s₁ s₂ : Nat → RTree × RTree) (h₁ : ValidSchedule inp s₁) (h₂ : ValidSchedule inp s₂) :
    run (.tbb s₁) E P inp = run (.tbb s₂) E P inp := by
  unfold run
  split
  · rfl
  · apply loop_congr
    intro k T sys c
    rw [assemble_tbb_plain E P inp hw s₁ h₁, assemble_tbb_plain E P inp hw s₂ h₂]

/-- The serial build: the system of iteration `k` is the sum of the fresh systems of iterations `0..k`. -/
theorem gn_serial_accumulates (E : Env K) (P : Params K) (inp : Pairings K) (hw : inp.pointWeights = []) (r : Run K)
    (h : run .serial E P inp = .ok r) (k : Nat) (q : Pose3 K × Sys K) (hq : r.trace[k]? = some q) :
    q.2 = ((r.trace.take (k + 1)).map fun p => system E P inp (uniform inp P.pairWeights.pt2pt) p.1).sum := by
  unfold run at h
  split at h
  · cases h
  · rename_i T0 _
    obtain ⟨tl, h1, h2⟩ := loop_piles _ E P inp _ _ _
      (fun k T sys => assemble_serial_plain E P inp hw k T sys _) _ _ _ _ _ _ h
    simp only [List.nil_append] at h1
    rw [h1] at hq ⊢
    have := h2 k q hq
    rwa [zero_add] at this

/-- C33 for the first iteration of the serial build. -/
theorem gn_serial_first_fresh_partial (E : Env K) (P : Params K) (inp : Pairings K) (hw : inp.pointWeights = [])
    (r : Run K) (h : run .serial E P inp = .ok r) (q : Pose3 K × Sys K) (hq : r.trace[0]? = some q) :
    q.2 = system E P inp (uniform inp P.pairWeights.pt2pt) q.1 := by
  have := gn_serial_accumulates E P inp hw r h 0 q hq
  rw [this]
  cases htr : r.trace with
  | nil => rw [htr] at hq; simp at hq
  | cons a l => rw [htr] at hq; simp at hq; subst hq; simp

/-- C33 fails in the second iteration of the serial build whenever the first system was not zero. -/
theorem gn_serial_second_not_fresh (E : Env K) (P : Params K) (inp : Pairings K) (hw : inp.pointWeights = [])
    (r : Run K) (h : run .serial E P inp = .ok r) (q₀ q₁ : Pose3 K × Sys K) (h0 : r.trace[0]? = some q₀)
    (h1 : r.trace[1]? = some q₁) (hne : system E P inp (uniform inp P.pairWeights.pt2pt) q₀.1 ≠ 0) :
    q₁.2 ≠ system E P inp (uniform inp P.pairWeights.pt2pt) q₁.1 := by
  have := gn_serial_accumulates E P inp hw r h 1 q₁ h1
  rw [this]
  cases htr : r.trace with
  | nil => rw [htr] at h0; simp at h0
  | cons a l =>
    cases l with
    | nil => rw [htr] at h1; simp at h1
    | cons b l =>
      rw [htr] at h0 h1
      simp at h0 h1
      subst h0 h1
      simpa using hne

/-- Derivative of `T ⊕ exp(e)` at `e = 0` with respect to `e = (translation, rotation)`. -/
def se3ExpJac {K : Type} [Field K] (T : Pose3 K) : Matrix (Fin 12) (Fin 6) K :=
  let R := T.R
  !![0, 0, 0, 0, -R.a02, R.a01; 0, 0, 0, 0, -R.a12, R.a11; 0, 0, 0, 0, -R.a22, R.a21;
     0, 0, 0, R.a02, 0, -R.a00; 0, 0, 0, R.a12, 0, -R.a10; 0, 0, 0, R.a22, 0, -R.a20;
     0, 0, 0, -R.a01, R.a00, 0; 0, 0, 0, -R.a11, R.a10, 0; 0, 0, 0, -R.a21, R.a20, 0;
     R.a00, R.a01, R.a02, 0, 0, 0; R.a10, R.a11, R.a12, 0, 0, 0; R.a20, R.a21, R.a22, 0, 0, 0]

/-- An environment for the examples: the solver always answers the same step. -/
def exEnv : Env ℚ where
  expJac := se3ExpJac
  solve := fun _ _ => ![1, 0, 0, 0, 0, 0]
  exp := fun d => ⟨M3.one, ⟨d 0, d 1, d 2⟩⟩
  sqrt := id
  ln := ⟨id, fun a b => a == b⟩
  junkErr := fun _ => 0
  junkJac := fun _ _ => 0

/-- Parameters for the examples. -/
def exGnParams : Params ℚ where
  linearizationPoint := some Pose3.identity
  prior := none
  minDelta := 1 / 1000
  maxCost := 0
  pairWeights := ⟨1, 1, 1, 1, 1⟩
  maxInner := 2
  kernel := .none
  kernelParam := 1

/-- One pair. -/
def exGnPairings : Pairings ℚ := { pt2pt := [⟨0, 0, ⟨5, 0, 0⟩, ⟨0, 0, 0⟩, 25⟩] }

/-- The hypotheses of the theorems above are met: a serial run of two iterations whose first system is not zero. -/
example : (run .serial exEnv exGnParams exGnPairings).Sat (fun r => r.trace.length = 2) ∧
    (system exEnv exGnParams exGnPairings (uniform exGnPairings 1) Pose3.identity).1 0 0 = 1 := by
  decide +kernel

/-- ... and a valid schedule with two chunks run right to left. -/
example : ValidSchedule { pt2pt := [⟨0, 0, ⟨5, 0, 0⟩, ⟨0, 0, 0⟩, 25⟩, ⟨1, 1, ⟨5, 0, 0⟩, ⟨0, 0, 0⟩, 25⟩] : Pairings ℚ }
    (fun _ => (.join true (.chunk .idle 0 1) (.chunk .idle 1 2), .idle)) := by
  intro k; exact ⟨rfl, rfl⟩

/-- Without planes both builds do the same in a single inner iteration, for every schedule. -/
theorem gn_builds_agree_one_iteration_partial (E : Env K) (P : Params K) (inp : Pairings K) (hw : inp.pointWeights = [])
    (hpl : inp.pt2pl = []) (h1 : P.maxInner ≤ 1) (sched : Nat → RTree × RTree) (hs : ValidSchedule inp sched) :
    run .serial E P inp = run (.tbb sched) E P inp := by
  unfold run
  split
  · rfl
  · have hc : ∀ T, costOther false P E inp T = costOther true P E inp T := by
      intro T; simp [costOther, hpl]
    have : P.maxInner = 0 ∨ P.maxInner = 1 := by omega
    rcases this with h | h
    · rw [h]; rfl
    · rw [h]
      simp only [loop, assemble_serial_plain E P inp hw, assemble_tbb_plain E P inp hw sched hs, Outcome.bind, zero_add, hc]

/-- With a point-to-plane pair the two builds stop at different costs: the serial build sums `w² r²`, the parallel one
`w r²`.  Here the parallel build stops at the guess and the serial one goes on. -/
theorem gn_builds_differ_on_planes :
    ∃ (E : Env ℚ) (P : Params ℚ) (inp : Pairings ℚ) (sched : Nat → RTree × RTree), ValidSchedule inp sched ∧
      P.maxInner = 1 ∧ (∃ r, run (.tbb sched) E P inp = .ok r ∧ r.pose = Pose3.identity) ∧
      (∃ r, run .serial E P inp = .ok r ∧ r.pose ≠ Pose3.identity) := by
  refine ⟨exEnv, { exGnParams with maxInner := 1, maxCost := 10, pairWeights := ⟨1, 1, 4, 1, 1⟩ },
    { pt2pl := [⟨⟨⟨⟨0, 0, 1⟩, -1⟩, ⟨0, 0, 1⟩⟩, ⟨0, 0, 0⟩⟩] }, fun _ => (.idle, .chunk .idle 0 1), ?_, rfl, ?_, ?_⟩
  · intro k; exact ⟨rfl, rfl⟩
  · exact Outcome.sat_iff.mp (by decide +kernel)
  · exact Outcome.sat_iff.mp (by decide +kernel)

/-- The shared cost of the parallel build under every interleaving of its unprotected reads and writes: the final value is
never more than the true sum (nor less than the initial value). -/
theorem gn_racing_cost_bounded [IsStrictOrderedRing K] (init : K) (terms : List (List K))
    (hpos : ∀ l ∈ terms, ∀ x ∈ l, 0 ≤ x) (s : Race.State K)
    (hsteps : Race.Steps ⟨init, terms.map fun l => ⟨l, none⟩⟩ s) (hdone : ∀ w ∈ s.workers, w.todo = []) :
    init ≤ s.err ∧ s.err ≤ init + (terms.map List.sum).sum := by
  have h0 : Inv init (terms.map List.sum).sum (⟨init, terms.map fun l => ⟨l, none⟩⟩ : Race.State K) := by
    refine ⟨le_refl _, ?_, ?_, ?_⟩
    · simp [pending, Function.comp_def]
    · intro w hw v hv
      simp only [List.mem_map] at hw
      obtain ⟨l, _, rfl⟩ := hw; simp at hv
    · intro w hw x hx
      simp only [List.mem_map] at hw
      obtain ⟨l, hl, rfl⟩ := hw; exact hpos l hl x hx
  have h := inv_steps h0 hsteps
  refine ⟨h.lo, ?_⟩
  have hp : pending s = 0 := by
    unfold pending
    have : s.workers.map (fun w => w.todo.sum) = s.workers.map (fun _ => (0 : K)) :=
      List.map_congr_left fun w hw => by rw [hdone w hw]; rfl
    rw [this]; simp
  have := h.hi
  rw [hp] at this
  linarith

/-- ... and it can be less than the true sum: updates get lost, so that the test against `maxCost` may stop the optimizer
too early. -/
theorem gn_racing_cost_loses_updates :
    ∃ s : Race.State ℚ, Race.Steps ⟨0, [⟨[1], none⟩, ⟨[1], none⟩]⟩ s ∧ (∀ w ∈ s.workers, w.todo = []) ∧ s.err = 1 := by
  refine ⟨⟨1, [⟨[], none⟩, ⟨[], none⟩]⟩, ?_, by simp, rfl⟩
  have e : (1 : ℚ) = 0 + 1 := by norm_num
  refine .step (.load (i := 0) (x := 1) (rest := []) rfl) (.step (.load (i := 1) (x := 1) (rest := []) rfl)
    (.step (.store (i := 0) (x := 1) (v := 0) (rest := []) rfl) (.step (.store (i := 1) (x := 1) (v := 0) (rest := []) rfl) ?_)))
  simp
  exact .refl _

end C33

section C34

/-- With a table covering the point pairs, the serial run: the first iteration, then the rest. -/
theorem run_serial_table_aux (E : Env K) (P : Params K) (inp : Pairings K) (hw : inp.pointWeights ≠ [])
    (hb : BlocksCover inp) (r : Run K) (h : run .serial E P inp = .ok r) :
    r.trace = [] ∨ ∃ (T0 : Pose3 K) (m : Nat) (w : K) (tl : List (Pose3 K × Sys K)),
      inp.pointWeights.getLast? = some (m, w) ∧
      r.trace = (T0, system E P inp (ExpandWeights inp.pointWeights) T0) :: tl ∧
      ∀ (j : Nat) (q : Pose3 K × Sys K), tl[j]? = some q →
        q.2 = system E P inp (ExpandWeights inp.pointWeights) T0
          + ((tl.take (j + 1)).map fun p => system E P inp (uniform inp w) p.1).sum := by
  unfold run at h
  split at h
  · cases h
  · rename_i T0 _
    cases hn : P.maxInner with
    | zero =>
      rw [hn] at h
      simp only [loop, Outcome.ok.injEq] at h
      subst h; exact .inl rfl
    | succ n =>
      rw [hn] at h
      obtain ⟨c, m, w, hl, hA, hB⟩ := serial_table_passes E P inp hw hb P.pairWeights.pt2pt T0
      simp only [loop, hA, Outcome.bind, zero_add, List.nil_append] at h
      right
      split at h
      · simp only [Outcome.ok.injEq] at h; subst h; exact ⟨T0, m, w, [], hl, rfl, by simp⟩
      · split at h
        · simp only [Outcome.ok.injEq] at h; subst h; exact ⟨T0, m, w, [], hl, rfl, by simp⟩
        · obtain ⟨tl, h1, h2⟩ := loop_piles _ E P inp _ _ _ hB _ _ _ _ _ _ h
          exact ⟨T0, m, w, tl, hl, by rw [h1]; simp, h2⟩

/-- C34 for the first inner iteration: with a table covering the point pairs, each pair has the weight of its block (what is
missing: the later iterations, see `gn_weights_later_iterations`, and the parallel build, see
`gn_tbb_weights_depend_on_schedule`). -/
theorem gn_weights_first_iteration_partial (E : Env K) (P : Params K) (inp : Pairings K) (hw : inp.pointWeights ≠ [])
    (hb : BlocksCover inp) (r : Run K) (h : run .serial E P inp = .ok r) (q : Pose3 K × Sys K)
    (hq : r.trace[0]? = some q) : q.2 = system E P inp (ExpandWeights inp.pointWeights) q.1 := by
  rcases run_serial_table_aux E P inp hw hb r h with h0 | ⟨T0, m, w, tl, _, h1, _⟩
  · rw [h0] at hq; simp at hq
  · rw [h1] at hq; simp at hq; subst hq; rfl

/-- In every later iteration of the serial build all point pairs get the weight of the last block (on top of the
accumulation of C33): the system grows by the fresh system at the current pose with that single weight. -/
theorem gn_weights_later_iterations (E : Env K) (P : Params K) (inp : Pairings K) (hw : inp.pointWeights ≠ [])
    (hb : BlocksCover inp) (r : Run K) (h : run .serial E P inp = .ok r) (k : Nat) (q q' : Pose3 K × Sys K)
    (hq : r.trace[k]? = some q) (hq' : r.trace[k + 1]? = some q') :
    ∃ b ∈ inp.pointWeights, inp.pointWeights.getLast? = some b ∧ q'.2 = q.2 + system E P inp (uniform inp b.2) q'.1 := by
  rcases run_serial_table_aux E P inp hw hb r h with h0 | ⟨T0, m, w, tl, hl, h1, h2⟩
  · rw [h0] at hq; simp at hq
  · refine ⟨(m, w), List.mem_of_getLast? hl, hl, ?_⟩
    rw [h1] at hq hq'
    simp only [List.getElem?_cons_succ] at hq'
    have e' := h2 k q' hq'
    obtain ⟨hk, hqk⟩ := List.getElem?_eq_some_iff.mp hq'
    have htake : tl.take (k + 1) = tl.take k ++ [q'] := by
      rw [List.take_succ, hq']; rfl
    rw [e', htake]
    cases k with
    | zero => simp at hq; subst hq; simp
    | succ k =>
      simp only [List.getElem?_cons_succ] at hq
      rw [h2 k q hq]
      simp [add_assoc]

/-- With a single block, or when no second iteration is needed, the weights are right; in particular C34 holds for tables
with one block, up to the accumulation of C33. -/
theorem gn_weights_single_block_partial (E : Env K) (P : Params K) (inp : Pairings K) (n : Nat) (w : K)
    (hw : inp.pointWeights = [(n, w)]) (hn : 1 ≤ n) (hb : n = inp.pt2pt.length) (r : Run K)
    (h : run .serial E P inp = .ok r) (k : Nat) (q : Pose3 K × Sys K) (hq : r.trace[k]? = some q) :
    q.2 = ((r.trace.take (k + 1)).map fun p => system E P inp (ExpandWeights inp.pointWeights) p.1).sum := by
  have hne : inp.pointWeights ≠ [] := by rw [hw]; simp
  have hbc : BlocksCover inp := ⟨by rw [hw]; simpa using hn, by intro _; rw [hw]; simp [hb]⟩
  rcases run_serial_table_aux E P inp hne hbc r h with h0 | ⟨T0, m, w', tl, hl, h1, h2⟩
  · rw [h0] at hq; simp at hq
  · have hl' : (m, w') = (n, w) := by rw [hw] at hl; simp at hl; simp [hl]
    obtain ⟨rfl, rfl⟩ := Prod.mk.inj hl'
    have hu : uniform inp w' = ExpandWeights inp.pointWeights := by
      rw [hw]; simp [uniform, ExpandWeights, hb]
    rw [h1] at hq ⊢
    cases k with
    | zero => simp at hq; subst hq; simp
    | succ k =>
      simp only [List.getElem?_cons_succ] at hq
      rw [h2 k q hq, hu]
      simp

/-- Two pairs in two blocks of weights 1 and 5. -/
def exGnWeighted : Pairings ℚ :=
  { pt2pt := [⟨0, 0, ⟨5, 0, 0⟩, ⟨0, 0, 0⟩, 25⟩, ⟨1, 1, ⟨3, 0, 0⟩, ⟨0, 0, 0⟩, 9⟩]
    pointWeights := [(1, 1), (1, 5)] }

/-- Hypotheses met: a covering table and a run of two iterations. -/
example : (∀ b ∈ exGnWeighted.pointWeights, 1 ≤ b.1) ∧
    (exGnWeighted.pointWeights.map (·.1)).sum = exGnWeighted.pt2pt.length ∧
    (run .serial exEnv exGnParams exGnWeighted).Sat (fun r => r.trace.length = 2) := by decide +kernel

/-- C34 fails in the second iteration: the weights the pairs should have give another system. -/
theorem gn_weights_second_iteration_wrong :
    ∃ (E : Env ℚ) (P : Params ℚ) (inp : Pairings ℚ) (r : Run ℚ) (q₀ q₁ : Pose3 ℚ × Sys ℚ), BlocksCover inp ∧
      run .serial E P inp = .ok r ∧ r.trace[0]? = some q₀ ∧ r.trace[1]? = some q₁ ∧
      q₁.2 ≠ q₀.2 + system E P inp (ExpandWeights inp.pointWeights) q₁.1 := by
  have hlen : (run .serial exEnv exGnParams exGnWeighted).Sat
      (fun r => (r.trace.map fun q => (q.1, q.2.1 0 0))
        = [(Pose3.identity, 6), (⟨M3.one, ⟨-1, 0, 0⟩⟩, 16)]) := by decide +kernel
  obtain ⟨r, hr, h2⟩ := Outcome.sat_iff.mp hlen
  have hl := congrArg List.length h2
  simp only [List.length_map, List.length_cons, List.length_nil] at hl
  obtain ⟨q₀, q₁, htr⟩ := List.length_eq_two.mp hl
  rw [htr] at h2
  simp only [List.map_cons, List.map_nil, List.cons.injEq, Prod.mk.injEq, and_true] at h2
  obtain ⟨⟨_, h0⟩, hp, h1⟩ := h2
  have hbc : BlocksCover exGnWeighted := ⟨by decide +kernel, fun _ => by decide +kernel⟩
  refine ⟨exEnv, exGnParams, exGnWeighted, r, q₀, q₁, hbc, hr, by rw [htr]; rfl, by rw [htr]; rfl, ?_⟩
  intro hc
  have hc := congrArg (fun s : Sys ℚ => s.1 0 0) hc
  simp only [Prod.fst_add, Matrix.add_apply, h0, h1, hp] at hc
  have hs : (system exEnv exGnParams exGnWeighted (ExpandWeights exGnWeighted.pointWeights)
    ⟨M3.one, ⟨-1, 0, 0⟩⟩).1 0 0 = 6 := by decide +kernel
  rw [hs] at hc
  norm_num at hc

/-- The parallel build: which weight a pair gets depends on the schedule. -/
theorem gn_tbb_weights_depend_on_schedule :
    ∃ (s₁ s₂ : Nat → RTree × RTree), ValidSchedule exGnWeighted s₁ ∧ ValidSchedule exGnWeighted s₂ ∧
      ∃ r₁ r₂, run (.tbb s₁) exEnv exGnParams exGnWeighted = .ok r₁ ∧ run (.tbb s₂) exEnv exGnParams exGnWeighted = .ok r₂ ∧
        (r₁.trace.map fun q => q.2.1 0 0)[0]? = some 6 ∧ (r₂.trace.map fun q => q.2.1 0 0)[0]? = some 10 := by
  refine ⟨fun _ => (.join false (.chunk .idle 0 1) (.chunk .idle 1 2), .idle),
    fun _ => (.join true (.chunk .idle 0 1) (.chunk .idle 1 2), .idle), fun _ => ⟨rfl, rfl⟩, fun _ => ⟨rfl, rfl⟩, ?_⟩
  have h1 : (run (.tbb fun _ => (.join false (.chunk .idle 0 1) (.chunk .idle 1 2), .idle)) exEnv exGnParams
    exGnWeighted).Sat (fun r => (r.trace.map fun q => q.2.1 0 0)[0]? = some 6) := by decide +kernel
  have h2 : (run (.tbb fun _ => (.join true (.chunk .idle 0 1) (.chunk .idle 1 2), .idle)) exEnv exGnParams
    exGnWeighted).Sat (fun r => (r.trace.map fun q => q.2.1 0 0)[0]? = some 10) := by decide +kernel
  obtain ⟨r₁, a₁, b₁⟩ := Outcome.sat_iff.mp h1
  obtain ⟨r₂, a₂, b₂⟩ := Outcome.sat_iff.mp h2
  exact ⟨r₁, r₂, a₁, a₂, b₁, b₂⟩

/-- A table of non-empty blocks which covers less than the point pairs makes the serial build read past its end. -/
theorem gn_short_table_ub (E : Env K) (P : Params K) (inp : Pairings K) (hw : inp.pointWeights ≠ [])
    (hpos : ∀ b ∈ inp.pointWeights, 1 ≤ b.1) (hs : (inp.pointWeights.map (·.1)).sum < inp.pt2pt.length)
    (hl : P.linearizationPoint ≠ none) (hn : P.maxInner ≠ 0) : run .serial E P inp = .ub := by
  unfold run
  cases hT : P.linearizationPoint with
  | none => exact absurd hT hl
  | some T0 =>
    cases hm : P.maxInner with
    | zero => exact absurd hm hn
    | succ n =>
      have hE : inp.pointWeights.isEmpty = false := by simpa using hw
      have hc : Verif.Lemmas.CurInv inp.pointWeights inp.pointWeights 0 0 := by
        cases hpw : inp.pointWeights with
        | nil => exact absurd hpw hw
        | cons b l => exact ⟨[], b.1, b.2, l, rfl, rfl, rfl, le_refl _, Nat.zero_le _⟩
      have := ptLoop_short E P T0 inp.pointWeights hpos inp.pt2pt ⟨0, 0⟩ ⟨P.pairWeights.pt2pt, inp.pointWeights, 0⟩ 0 hc
        (Nat.zero_le _) (by omega)
      simp only [loop, assemble, hE, Bool.not_false, this, Outcome.bind]

/-- Hypotheses met: one block of one pair for two pairs. -/
example : (1 : Nat) < ({ exGnWeighted with pointWeights := [(1, 1)] } : Pairings ℚ).pt2pt.length := by decide +kernel

end C34

section C62

/-- All pairings (no line pairs) are exactly aligned by `T`. -/
structure ExactlyAligned (inp : Pairings K) (T : Pose3 K) : Prop where
  pts : ∀ q ∈ inp.pt2pt, T.composePoint q.local = q.global
  lns : ∀ q ∈ inp.pt2ln, q.lnGlobal.director.normSq = 1 ∧ OnLine q.lnGlobal (T.composePoint q.ptLocal)
  pls : ∀ q ∈ inp.pt2pl, OnPlane q.plGlobal.plane (T.composePoint q.ptLocal)
  nms : ∀ q ∈ inp.pl2pl, T.R.mulVec q.pLocal.plane.n = q.pGlobal.plane.n
  noLines : inp.ln2ln = []

theorem costOther_aligned_aux (b : Bool) (E : Env K) (P : Params K) (inp : Pairings K) (T : Pose3 K)
    (h : ExactlyAligned inp T) : costOther b P E inp T = 0 := by
  have h1 : inp.pt2ln.map (fun q => robust P P.pairWeights.pt2ln (Err.pt2ln q T) * robust P P.pairWeights.pt2ln (Err.pt2ln q T)
    * sqLen (Err.pt2ln q T)) = inp.pt2ln.map (fun _ => (0 : K)) := by
    apply List.map_congr_left
    intro q hq
    obtain ⟨hu, s, hs⟩ := h.lns q hq
    have : sqLen (Err.pt2ln q T) = 0 := by
      simp only [P3.normSq, P3.dot] at hu
      have hz : Err.pt2ln q T = 0 := by
        funext i
        fin_cases i <;> simp [Err.pt2ln, hs, P3.dot]
        · linear_combination -(s * q.lnGlobal.director.x) * hu
        · linear_combination -(s * q.lnGlobal.director.y) * hu
        · linear_combination -(s * q.lnGlobal.director.z) * hu
      rw [hz]; simp [sqLen]
    rw [this, mul_zero]
  have h2 : inp.pt2pl.map (fun q => (if b then 1 else robust P P.pairWeights.pt2pl (Err.pt2pl q T))
    * robust P P.pairWeights.pt2pl (Err.pt2pl q T) * sqLen (Err.pt2pl q T)) = inp.pt2pl.map (fun _ => (0 : K)) := by
    apply List.map_congr_left
    intro q hq
    have : sqLen (Err.pt2pl q T) = 0 := by
      have hz : Err.pt2pl q T = 0 := by
        have := h.pls q hq
        simp only [OnPlane, P3.dot] at this
        funext i
        fin_cases i <;> simp [Err.pt2pl, this]
      rw [hz]; simp [sqLen]
    rw [this, mul_zero]
  have h3 : inp.pl2pl.map (fun q => robust P P.pairWeights.pl2pl (Err.pl2pl q T) * robust P P.pairWeights.pl2pl (Err.pl2pl q T)
    * sqLen (Err.pl2pl q T)) = inp.pl2pl.map (fun _ => (0 : K)) := by
    apply List.map_congr_left
    intro q hq
    have : sqLen (Err.pl2pl q T) = 0 := by
      have hz : Err.pl2pl q T = 0 := by
        funext i
        fin_cases i <;> simp [Err.pl2pl, h.nms q hq]
      rw [hz]; simp [sqLen]
    rw [this, mul_zero]
  unfold costOther
  rw [h1, h2, h3, h.noLines]
  simp

theorem costPoints_aligned_aux (P : Params K) (inp : Pairings K) (T : Pose3 K) (h : ExactlyAligned inp T) (ws : List K) :
    costPoints P inp.pt2pt ws T = 0 := by
  have : (inp.pt2pt.zip ws).map (fun q => robust P q.2 (Err.pt2pt q.1 T) * sqLen (Err.pt2pt q.1 T))
      = (inp.pt2pt.zip ws).map (fun _ => (0 : K)) := by
    apply List.map_congr_left
    intro q hq
    have hz : Err.pt2pt q.1 T = 0 := by
      have := h.pts q.1 (List.of_mem_zip hq).1
      funext i
      fin_cases i <;> simp [Err.pt2pt, this]
    rw [hz]; simp [sqLen]
  unfold costPoints
  rw [this]; simp

/-- C62: started at a pose which aligns all point, line and plane pairings exactly, the solver returns that pose unchanged,
whatever the linear solver, prior and exponential map do: serial build, with no table of weights or a covering one
(missing: line-to-line pairings, whose term does not vanish at alignment). -/
theorem gn_fixed_point_serial_partial (E : Env K) (P : Params K) (inp : Pairings K) (T0 : Pose3 K)
    (hl : P.linearizationPoint = some T0) (hb : BlocksCover inp) (ha : ExactlyAligned inp T0) (hs : E.sqrt 0 = 0)
    (hc : 0 ≤ P.maxCost) : ∃ r, run .serial E P inp = .ok r ∧ r.pose = T0 ∧ r.trace.length ≤ 1 := by
  unfold run
  rw [hl]
  cases hn : P.maxInner with
  | zero => exact ⟨_, rfl, rfl, by simp⟩
  | succ n =>
    by_cases hw : inp.pointWeights = []
    · simp only [loop, assemble_serial_plain E P inp hw, Outcome.bind, costPoints_aligned_aux P inp T0 ha,
        costOther_aligned_aux false E P inp T0 ha, add_zero, hs, if_pos hc]
      exact ⟨_, rfl, rfl, by simp⟩
    · obtain ⟨c, m, w, _, hA, _⟩ := serial_table_passes E P inp hw hb P.pairWeights.pt2pt T0
      simp only [loop, hA, Outcome.bind, costPoints_aligned_aux P inp T0 ha,
        costOther_aligned_aux false E P inp T0 ha, add_zero, hs, if_pos hc]
      exact ⟨_, rfl, rfl, by simp⟩

/-- The same for the parallel build, without a table, for every schedule. -/
theorem gn_fixed_point_tbb_partial (E : Env K) (P : Params K) (inp : Pairings K) (T0 : Pose3 K)
    (hl : P.linearizationPoint = some T0) (hw : inp.pointWeights = []) (sched : Nat → RTree × RTree)
    (hv : ValidSchedule inp sched) (ha : ExactlyAligned inp T0) (hs : E.sqrt 0 = 0) (hc : 0 ≤ P.maxCost) :
    ∃ r, run (.tbb sched) E P inp = .ok r ∧ r.pose = T0 ∧ r.trace.length ≤ 1 := by
  unfold run
  rw [hl]
  cases hn : P.maxInner with
  | zero => exact ⟨_, rfl, rfl, by simp⟩
  | succ n =>
    simp only [loop, assemble_tbb_plain E P inp hw sched hv, Outcome.bind, costPoints_aligned_aux P inp T0 ha,
      costOther_aligned_aux true E P inp T0 ha, add_zero, hs, if_pos hc]
    exact ⟨_, rfl, rfl, by simp⟩

/-- Hypotheses met: a shifted point, a point on a plane. -/
example : ExactlyAligned ({ pt2pt := [⟨0, 0, ⟨1, 2, 4⟩, ⟨1, 2, 3⟩, 0⟩], pt2pl := [⟨⟨⟨⟨0, 0, 1⟩, -1⟩, ⟨0, 0, 1⟩⟩, ⟨7, 8, 0⟩⟩] } :
    Pairings ℚ) ⟨M3.one, ⟨0, 0, 1⟩⟩ := by
  refine ⟨?_, by simp, ?_, by simp, rfl⟩
  · intro q hq; simp at hq; subst hq; decide +kernel
  · intro q hq; simp at hq; subst hq; norm_num [OnPlane, P3.dot, Pose3.composePoint, M3.one, M3.mulVec]

/-- C63: without a linearization point the function throws; with one and without a table of weights it always ends normally,
after at most the configured number of iterations, and with none configured it returns the guess.
Part of C63: too few pairings are not reported (`gn_always_reports_success`). -/
theorem gn_terminates_partial (b : Build) (E : Env K) (P : Params K) (inp : Pairings K) :
    (P.linearizationPoint = none → run b E P inp = .throw) ∧
    (∀ r, run b E P inp = .ok r → r.trace.length ≤ P.maxInner) ∧
    (∀ T0, P.linearizationPoint = some T0 → P.maxInner = 0 → ∃ r, run b E P inp = .ok r ∧ r.pose = T0) := by
  refine ⟨fun h => by simp [run, h], ?_, ?_⟩
  · intro r h
    unfold run at h
    split at h
    · cases h
    · obtain ⟨tl, h1, h2⟩ := loop_trace_prefix _ _ _ _ _ _ _ _ _ _ _ h
      rw [h1]; simpa using h2
  · intro T0 h h0
    simp [run, h, h0, loop]

/-- C63: normal termination, serial build, for every input with a covering or absent table. -/
theorem gn_serial_total (E : Env K) (P : Params K) (inp : Pairings K) (T0 : Pose3 K)
    (hl : P.linearizationPoint = some T0) (hb : BlocksCover inp) : ∃ r, run .serial E P inp = .ok r := by
  unfold run
  rw [hl]
  by_cases hw : inp.pointWeights = []
  · exact loop_total _ E P inp _ (fun k T sys => ⟨_, assemble_serial_plain E P inp hw k T sys _⟩) _ _ _ _ _
  · obtain ⟨c, m, w, _, hA, hB⟩ := serial_table_passes E P inp hw hb P.pairWeights.pt2pt T0
    show ∃ r, loop .serial E P inp P.maxInner 0 T0 0 ⟨P.pairWeights.pt2pt, inp.pointWeights, 0⟩ [] = .ok r
    cases hn : P.maxInner with
    | zero => exact ⟨_, rfl⟩
    | succ n =>
      simp only [loop, hA, Outcome.bind]
      split
      · exact ⟨_, rfl⟩
      · split
        · exact ⟨_, rfl⟩
        · exact loop_total _ E P inp c (fun k T sys => ⟨_, hB k T sys⟩) _ _ _ _ _

theorem loop_ret_aux (b : Build) (E : Env K) (P : Params K) (inp : Pairings K) (n : Nat) :
    ∀ (k : Nat) (T : Pose3 K) (sys : Sys K) (c : Cursor K) (tr : List (Pose3 K × Sys K)) (r : Run K),
      loop b E P inp n k T sys c tr = .ok r → r.ret = true := by
  induction n with
  | zero => intro k T sys c tr r h; simp only [loop, Outcome.ok.injEq] at h; subst h; rfl
  | succ n ih =>
    intro k T sys c tr r h
    simp only [loop, Outcome.bind_eq_ok] at h
    obtain ⟨s, _, h⟩ := h
    split at h
    · simp only [Outcome.ok.injEq] at h; subst h; rfl
    · split at h
      · simp only [Outcome.ok.injEq] at h; subst h; rfl
      · exact ih _ _ _ _ _ _ h

/-- C63: the function is documented to return `false` when there are too few pairings for a unique solution; it never does.
In particular with no pairings at all it ends normally and reports success. -/
theorem gn_always_reports_success (b : Build) (E : Env K) (P : Params K) (inp : Pairings K) :
    (∀ r, run b E P inp = .ok r → r.ret = true) ∧
    (∀ T0, P.linearizationPoint = some T0 → ∃ r, run .serial E P ({} : Pairings K) = .ok r ∧ r.ret = true) := by
  have key : ∀ (b : Build) (inp : Pairings K) r, run b E P inp = .ok r → r.ret = true := by
    intro b inp r h
    unfold run at h
    split at h
    · cases h
    · exact loop_ret_aux _ _ _ _ _ _ _ _ _ _ _ h
  refine ⟨key b inp, fun T0 hl => ?_⟩
  obtain ⟨r, hr⟩ := gn_serial_total E P {} T0 hl ⟨by simp, by simp⟩
  exact ⟨r, hr, key _ _ r hr⟩

/-- `Solver_GaussNewton` needs a guess and uses it as the linearization point. -/
theorem gn_solver_uses_guess (b : Build) (E : Env K) (P : Params K) (inp : Pairings K) :
    solver b E P inp none = .throw ∧
    ∀ g, solver b E P inp (some g) = run b E { P with linearizationPoint := some g } inp :=
  ⟨rfl, fun _ => rfl⟩

end C62
end Verif.Props
