import Verif.Props.GaussNewton
import Mathlib.Tactic.Ring
import Mathlib.Tactic.Linarith
import Mathlib.Tactic.Positivity
/-
C77: the steps of `optimal_tf_gauss_newton`.
-/
namespace Verif.Props
open Verif.Gn Verif.Spec Verif.Spec.GN Verif.Lemmas.Gn
set_option linter.unusedSectionVars false
variable {K : Type} [Field K] [LinearOrder K]

/-- the increment of the system `s` -/
def increment (E : Env K) (s : Sys K) : Fin 6 → K := -(E.solve s.1 s.2)

/-- the pose after the step from `q` -/
def stepped (E : Env K) (q : Pose3 K × Sys K) : Pose3 K := q.1.compose (E.exp (increment E q.2))

theorem loop_steps (b : Build) (E : Env K) (P : Params K) (inp : Pairings K) (n : Nat) :
    ∀ (k : Nat) (T : Pose3 K) (sys : Sys K) (c : Cursor K) (tr : List (Pose3 K × Sys K)) (r : Run K),
      loop b E P inp n k T sys c tr = .ok r → ∃ tl, r.trace = tr ++ tl ∧ (tl = [] ↔ n = 0) ∧ (n = 0 → r.pose = T) ∧
        (∀ q, tl[0]? = some q → q.1 = T) ∧
        (∀ j q q', tl[j]? = some q → tl[j + 1]? = some q' →
          q'.1 = stepped E q ∧ P.minDelta ≤ E.sqrt (sqLen (increment E q.2))) ∧
        (∀ q, tl.getLast? = some q → r.pose = q.1 ∨ r.pose = stepped E q) := by
  induction n with
  | zero =>
    intro k T sys c tr r h
    simp only [loop, Outcome.ok.injEq] at h
    subst h
    exact ⟨[], by simp, by simp, fun _ => rfl, by simp, by simp, by simp⟩
  | succ n ih =>
    intro k T sys c tr r h
    simp only [loop, Outcome.bind_eq_ok] at h
    obtain ⟨s, _, h⟩ := h
    split at h
    · simp only [Outcome.ok.injEq] at h
      subst h
      exact ⟨[(T, s.1.sys)], rfl, by simp, by simp, by simp, by simp, by simp⟩
    · split at h
      · simp only [Outcome.ok.injEq] at h
        subst h
        exact ⟨[(T, s.1.sys)], rfl, by simp, by simp, by simp, by simp, by intro q hq; simp at hq; subst hq; exact Or.inr rfl⟩
      · rename_i hmd
        obtain ⟨tl, h1, h2, h3, h4, h5, h6⟩ := ih _ _ _ _ _ _ h
        refine ⟨(T, s.1.sys) :: tl, by rw [h1]; simp, by simp, by simp, by simp, ?_, ?_⟩
        · intro j q q' hq hq'
          cases j with
          | zero =>
            simp at hq hq'
            subst hq
            exact ⟨h4 q' (by simpa using hq'), not_lt.1 hmd⟩
          | succ j =>
            simp only [List.getElem?_cons_succ] at hq hq'
            exact h5 j q q' hq hq'
        · intro q hq
          cases tl with
          | nil =>
            simp at hq
            subst hq
            exact Or.inr (h3 (h2.1 rfl))
          | cons a tl =>
            rw [List.getLast?_cons_cons] at hq
            exact h6 q hq

/-- **C77 (steps).** For both builds, all schedules and inputs: the first iteration is at the guess; each next one is at the pose
composed, on its right, with the exponential of the solution of its linear system; the result is the pose of the last iteration,
or that pose after its step; the loop goes on only after steps not below `minDelta`. -/
theorem gn_steps (b : Build) (E : Env K) (P : Params K) (inp : Pairings K) (T0 : Pose3 K) (hl : P.linearizationPoint = some T0)
    (r : Run K) (h : run b E P inp = .ok r) :
    (r.trace = [] ↔ P.maxInner = 0) ∧ (r.trace = [] → r.pose = T0) ∧ (∀ q, r.trace[0]? = some q → q.1 = T0) ∧
    (∀ j q q', r.trace[j]? = some q → r.trace[j + 1]? = some q' →
      q'.1 = q.1.compose (E.exp (-(E.solve q.2.1 q.2.2))) ∧ P.minDelta ≤ E.sqrt (sqLen (-(E.solve q.2.1 q.2.2)))) ∧
    (∀ q, r.trace.getLast? = some q → r.pose = q.1 ∨ r.pose = q.1.compose (E.exp (-(E.solve q.2.1 q.2.2)))) := by
  unfold run at h
  rw [hl] at h
  obtain ⟨tl, h1, h2, h3, h4, h5, h6⟩ := loop_steps _ _ _ _ _ _ _ _ _ _ _ h
  rw [List.nil_append] at h1
  rw [h1]
  exact ⟨h2, fun hh => h3 (h2.1 hh), h4, h5, h6⟩

theorem loop_stops (b : Build) (E : Env K) (P : Params K) (inp : Pairings K) (c : Cursor K) (sysOf : Nat → Pose3 K → Sys K → Sys K)
    (cost : Pose3 K → K) (hA : ∀ k T sys, assemble b E P inp k T sys c = .ok (⟨sysOf k T sys, cost T⟩, c)) (n : Nat) :
    ∀ (k : Nat) (T : Pose3 K) (sys : Sys K) (tr : List (Pose3 K × Sys K)) (r : Run K),
      loop b E P inp n k T sys c tr = .ok r → ∃ tl, r.trace = tr ++ tl ∧ (n = 0 → tl = []) ∧
        (∀ j q q', tl[j]? = some q → tl[j + 1]? = some q' → P.maxCost < E.sqrt (cost q.1)) ∧
        (∀ q, tl.getLast? = some q → (E.sqrt (cost q.1) ≤ P.maxCost ∧ r.pose = q.1) ∨
          (P.maxCost < E.sqrt (cost q.1) ∧ r.pose = stepped E q ∧
            (E.sqrt (sqLen (increment E q.2)) < P.minDelta ∨ tl.length = n))) := by
  induction n with
  | zero =>
    intro k T sys tr r h
    simp only [loop, Outcome.ok.injEq] at h
    subst h
    exact ⟨[], by simp, by simp, by simp, by simp⟩
  | succ n ih =>
    intro k T sys tr r h
    simp only [loop, hA, Outcome.bind] at h
    split at h
    · rename_i hc
      simp only [Outcome.ok.injEq] at h
      subst h
      exact ⟨[(T, _)], rfl, by simp, by simp, by intro q hq; simp at hq; subst hq; exact Or.inl ⟨hc, rfl⟩⟩
    · rename_i hc
      split at h
      · rename_i hmd
        simp only [Outcome.ok.injEq] at h
        subst h
        exact ⟨[(T, _)], rfl, by simp, by simp, by
          intro q hq; simp at hq; subst hq; exact Or.inr ⟨not_le.1 hc, rfl, Or.inl hmd⟩⟩
      · rename_i hmd
        obtain ⟨tl, h1, h2, h5, h6⟩ := ih _ _ _ _ _ h
        obtain ⟨tl', g1, g2, g3, g4, -, -⟩ := loop_steps _ _ _ _ _ _ _ _ _ _ _ h
        have : tl' = tl := by rw [h1] at g1; exact (List.append_cancel_left g1).symm
        subst this
        refine ⟨(T, sysOf k T sys) :: tl', by rw [h1]; simp, by simp, ?_, ?_⟩
        · intro j q q' hq hq'
          cases j with
          | zero => simp at hq; subst hq; exact not_le.1 hc
          | succ j =>
            simp only [List.getElem?_cons_succ] at hq hq'
            exact h5 j q q' hq hq'
        · intro q hq
          cases tl' with
          | nil =>
            simp at hq
            subst hq
            have hn := g2.1 rfl
            exact Or.inr ⟨not_le.1 hc, g3 hn, Or.inr (by simp [hn])⟩
          | cons a tl =>
            rw [List.getLast?_cons_cons] at hq
            rcases h6 q hq with h | ⟨a1, a2, a3 | a3⟩
            · exact Or.inl h
            · exact Or.inr ⟨a1, a2, Or.inl a3⟩
            · exact Or.inr ⟨a1, a2, Or.inr (by simpa using a3)⟩

/-- the cost the loop looks at, without a table of weights; the two builds weight the point-to-plane part differently -/
def plainCost (tbb : Bool) (E : Env K) (P : Params K) (inp : Pairings K) (T : Pose3 K) : K :=
  costPoints P inp.pt2pt (uniform inp P.pairWeights.pt2pt) T + costOther tbb P E inp T

/-- **C77 (end).** Without a table of weights, for both builds and all schedules: every iteration but the last one has a cost above
`maxCost`; if the last one has not, the result is its pose, unchanged; otherwise it is that pose after its step, which was below
`minDelta` or the last one allowed. -/
theorem gn_stops_partial (b : Build) (E : Env K) (P : Params K) (inp : Pairings K) (hw : inp.pointWeights = [])
    (hb : ∀ sched, b = .tbb sched → ValidSchedule inp sched) (r : Run K) (h : run b E P inp = .ok r) :
    let cost := plainCost (match b with | .serial => false | .tbb _ => true) E P inp
    (∀ j q q', r.trace[j]? = some q → r.trace[j + 1]? = some q' → P.maxCost < E.sqrt (cost q.1)) ∧
    (∀ q, r.trace.getLast? = some q → (E.sqrt (cost q.1) ≤ P.maxCost ∧ r.pose = q.1) ∨
      (P.maxCost < E.sqrt (cost q.1) ∧ r.pose = q.1.compose (E.exp (-(E.solve q.2.1 q.2.2))) ∧
        (E.sqrt (sqLen (-(E.solve q.2.1 q.2.2))) < P.minDelta ∨ r.trace.length = P.maxInner))) := by
  intro cost
  unfold run at h
  split at h
  · cases h
  · rename_i T0 _
    have hA : ∃ sysOf : Nat → Pose3 K → Sys K → Sys K, ∀ k T sys,
        assemble b E P inp k T sys ⟨P.pairWeights.pt2pt, inp.pointWeights, 0⟩ =
          .ok (⟨sysOf k T sys, cost T⟩, ⟨P.pairWeights.pt2pt, inp.pointWeights, 0⟩) := by
      cases b with
      | serial => exact ⟨_, fun k T sys => assemble_serial_plain E P inp hw k T sys _⟩
      | tbb sched => exact ⟨fun _ T _ => _, fun k T sys => assemble_tbb_plain E P inp hw sched (hb sched rfl) k T sys _⟩
    obtain ⟨sysOf, hA⟩ := hA
    obtain ⟨tl, h1, -, h5, h6⟩ := loop_stops b E P inp _ sysOf cost hA _ _ _ _ _ _ h
    rw [List.nil_append] at h1
    rw [h1]
    exact ⟨h5, h6⟩

/-! ### what the step is -/

variable [IsStrictOrderedRing K]

theorem sqLen_nonneg' {n : Nat} (e : Fin n → K) : 0 ≤ sqLen e := Finset.sum_nonneg fun _ _ => mul_self_nonneg _

/-- moving away from `d` by `h` -/
theorem linTerm_shift {n : Nat} (D : Matrix (Fin 12) (Fin 6) K) (w : K) (J : Matrix (Fin n) (Fin 12) K) (e : Fin n → K)
    (d h : Fin 6 → K) : linTerm D w J e (d + h) = linTerm D w J e d +
      2 * (h ⬝ᵥ ((term D w J e).1.mulVec d + (term D w J e).2)) + w * sqLen ((J * D).mulVec h) := by
  have dv : ∀ {m : Nat} (a : Fin m → K), sqLen a = a ⬝ᵥ a := fun a => rfl
  unfold linTerm term
  simp only [dv]
  generalize J * D = A
  rw [Matrix.mulVec_add, ← add_assoc]
  simp only [dotProduct_add, add_dotProduct]
  rw [Matrix.smul_mulVec, dotProduct_smul, dotProduct_smul, ← Matrix.mulVec_mulVec, Matrix.dotProduct_mulVec h,
    Matrix.vecMul_transpose, Matrix.dotProduct_mulVec h A.transpose e, Matrix.vecMul_transpose]
  rw [dotProduct_comm (A.mulVec d) (A.mulVec h), dotProduct_comm e (A.mulVec h)]
  simp only [smul_eq_mul]
  ring

theorem lin_sum {α : Type} (l : List α) (lin : α → (Fin 6 → K) → K) (t : α → Sys K) (s : α → (Fin 6 → K) → K)
    (hs : ∀ a ∈ l, ∀ d h, lin a (d + h) = lin a d + 2 * (h ⬝ᵥ ((t a).1.mulVec d + (t a).2)) + s a h)
    (hp : ∀ a ∈ l, ∀ h, 0 ≤ s a h) (d h : Fin 6 → K) :
    (l.map fun a => lin a d).sum + 2 * (h ⬝ᵥ ((l.map t).sum.1.mulVec d + (l.map t).sum.2)) ≤ (l.map fun a => lin a (d + h)).sum := by
  induction l with
  | nil => simp
  | cons a l ih =>
    have ih := ih (fun a ha => hs a (List.mem_cons_of_mem _ ha)) (fun a ha => hp a (List.mem_cons_of_mem _ ha))
    have h1 := hs a (List.mem_cons_self ..) d h
    have h2 := hp a (List.mem_cons_self ..) h
    simp only [List.map_cons, List.sum_cons, Prod.fst_add, Prod.snd_add, Matrix.add_mulVec, dotProduct_add] at *
    linarith

theorem robust_nonneg {n : Nat} (P : Params K) (w : K) (hw : 0 ≤ w) (e : Fin n → K) : 0 ≤ robust P w e := by
  unfold robust
  apply mul_nonneg hw
  have := sqLen_nonneg' e
  unfold kernelFactor
  split <;> positivity

/-- **C77 (step).** If the solver solved the system (`H δ = -g`) which is the fresh one of the pairings at this pose, then no other
increment gives a smaller linearised weighted cost.  (Weights not negative, no prior.) -/
theorem gn_step_minimises (E : Env K) (P : Params K) (inp : Pairings K) (ws : List K) (T : Pose3 K) (hprior : P.prior = none)
    (hws : ∀ w ∈ ws, 0 ≤ w)
    (hw : 0 ≤ P.pairWeights.pt2ln ∧ 0 ≤ P.pairWeights.ln2ln ∧ 0 ≤ P.pairWeights.pt2pl ∧ 0 ≤ P.pairWeights.pl2pl)
    (δ : Fin 6 → K) (hδ : (system E P inp ws T).1.mulVec δ = -(system E P inp ws T).2) (d : Fin 6 → K) :
    linCost E P inp ws T δ ≤ linCost E P inp ws T d := by
  obtain ⟨w1, w2, w3, w4⟩ := hw
  obtain ⟨h, rfl⟩ : ∃ h, d = δ + h := ⟨d - δ, by simp⟩
  have hz : (system E P inp ws T).1.mulVec δ + (system E P inp ws T).2 = 0 := by rw [hδ]; simp
  have a1 := lin_sum (inp.pt2pt.zip ws) _ _ _ (fun q _ d h => linTerm_shift (E.expJac T) (robust P q.2 (Err.pt2pt q.1 T)) (Err.pt2ptJac q.1) (Err.pt2pt q.1 T) d h)
    (fun q hq h => mul_nonneg (robust_nonneg P _ (hws _ (List.of_mem_zip hq).2) _) (sqLen_nonneg' _)) δ h
  have a2 := lin_sum inp.pt2ln _ _ _ (fun q _ d h => linTerm_shift (E.expJac T) (robust P P.pairWeights.pt2ln (Err.pt2ln q T)) (Err.pt2lnJac q) (Err.pt2ln q T) d h)
    (fun q _ h => mul_nonneg (robust_nonneg P _ w1 _) (sqLen_nonneg' _)) δ h
  have a3 := lin_sum inp.ln2ln _ _ _ (fun q _ d h => linTerm_shift (E.expJac T) (robust P P.pairWeights.ln2ln (Err.ln2ln E.ln E.junkErr q T)) (Err.ln2lnJac E.ln E.junkJac q T) (Err.ln2ln E.ln E.junkErr q T) d h)
    (fun q _ h => mul_nonneg (robust_nonneg P _ w2 _) (sqLen_nonneg' _)) δ h
  have a4 := lin_sum inp.pt2pl _ _ _ (fun q _ d h => linTerm_shift (E.expJac T) (robust P P.pairWeights.pt2pl (Err.pt2pl q T)) (Err.pt2plJac q) (Err.pt2pl q T) d h)
    (fun q _ h => mul_nonneg (robust_nonneg P _ w3 _) (sqLen_nonneg' _)) δ h
  have a5 := lin_sum inp.pl2pl _ _ _ (fun q _ d h => linTerm_shift (E.expJac T) (robust P P.pairWeights.pl2pl (Err.pl2pl q T)) (Err.pl2plJac q) (Err.pl2pl q T) d h)
    (fun q _ h => mul_nonneg (robust_nonneg P _ w4 _) (sqLen_nonneg' _)) δ h
  have hdot : h ⬝ᵥ ((system E P inp ws T).1.mulVec δ + (system E P inp ws T).2) = 0 := by rw [hz]; simp
  simp only [system, pointPart, otherPart, hprior, Option.elim_none, add_zero, Prod.fst_add, Prod.snd_add, Matrix.add_mulVec,
    dotProduct_add] at hdot
  simp only [dotProduct_add] at a1 a2 a3 a4 a5
  unfold linCost
  linarith

/-- **C77 (steps of the parallel build).** Without a table of weights and without prior, if the linear solver solves the systems it
is given: every increment of the parallel build minimises the weighted cost of the pairings linearised at its pose.  (The serial
build only does in its first iteration: C33.) -/
theorem gn_tbb_steps_minimise (E : Env K) (P : Params K) (inp : Pairings K) (hpw : inp.pointWeights = []) (hprior : P.prior = none)
    (sched : Nat → RTree × RTree) (hs : ValidSchedule inp sched) (r : Run K) (h : run (.tbb sched) E P inp = .ok r)
    (hw : 0 ≤ P.pairWeights.pt2pt ∧ 0 ≤ P.pairWeights.pt2ln ∧ 0 ≤ P.pairWeights.ln2ln ∧ 0 ≤ P.pairWeights.pt2pl ∧
      0 ≤ P.pairWeights.pl2pl) (q : Pose3 K × Sys K) (hq : q ∈ r.trace) (hsol : q.2.1.mulVec (E.solve q.2.1 q.2.2) = q.2.2)
    (d : Fin 6 → K) :
    linCost E P inp (uniform inp P.pairWeights.pt2pt) q.1 (-(E.solve q.2.1 q.2.2)) ≤
      linCost E P inp (uniform inp P.pairWeights.pt2pt) q.1 d := by
  have hf := gn_tbb_fresh_partial E P inp hpw sched hs r h q hq
  refine gn_step_minimises E P inp _ q.1 hprior ?_ hw.2 _ ?_ d
  · intro w hw'
    rw [List.eq_of_mem_replicate hw']; exact hw.1
  · rw [← hf, Matrix.mulVec_neg, hsol]

/-- an environment whose solver solves the system of the example: a step of 5 along x -/
def exEnv5 : Env ℚ := { exEnv with solve := fun _ _ => ![-5, 0, 0, 0, 0, 0] }

/-- the hypotheses of `gn_step_minimises` and of `gn_tbb_steps_minimise` are met; the run steps once and then stops on its cost -/
example : (system exEnv5 exGnParams exGnPairings (uniform exGnPairings 1) Pose3.identity).1.mulVec ![5, 0, 0, 0, 0, 0] =
      -(system exEnv5 exGnParams exGnPairings (uniform exGnPairings 1) Pose3.identity).2 ∧
    ValidSchedule exGnPairings (fun _ => (.chunk .idle 0 1, .idle)) ∧
    (run (.tbb fun _ => (.chunk .idle 0 1, .idle)) exEnv5 exGnParams exGnPairings).Sat (fun r => r.trace.length = 2 ∧
      r.pose.t = ⟨5, 0, 0⟩ ∧ ∀ q ∈ r.trace.take 1, q.2.1.mulVec (exEnv5.solve q.2.1 q.2.2) = q.2.2) := by
  refine ⟨by decide +kernel, fun k => ⟨rfl, rfl⟩, by decide +kernel⟩

end Verif.Props
