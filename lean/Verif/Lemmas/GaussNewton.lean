import Verif.Spec.GaussNewton
import Verif.Lemmas.Visit
import Verif.Lemmas.ErrorTerms
import Mathlib.Algebra.BigOperators.Group.List.Basic
import Mathlib.Tactic.Abel
import Mathlib.Tactic.Ring
namespace Verif.Lemmas.Gn
open Verif Verif.Gn Verif.Spec Verif.Spec.GN
set_option linter.unusedSectionVars false
variable {K : Type} [Field K]

theorem sqNorm_eq {n : Nat} (e : Fin n → K) : sqNorm e = sqLen e := rfl

theorem weight_eq {n : Nat} (P : Params K) (w : K) (e : Fin n → K) : weight P w e = robust P w e := by
  unfold weight robust
  rw [sqNorm_eq]
  cases P.kernel <;> simp [createRobustKernel, kernelFactor, pow_two]

theorem contrib_eq {n : Nat} (D : Matrix (Fin 12) (Fin 6) K) (w : K) (J : Matrix (Fin n) (Fin 12) K) (e : Fin n → K) :
    contrib D w J e = term D w J e := rfl

theorem foldl_acc {α : Type} (step : Acc K → α → Acc K) (f : α → Sys K) (g : α → K)
    (h : ∀ a p, step a p = ⟨a.sys + f p, a.err + g p⟩) (l : List α) (a : Acc K) :
    l.foldl step a = ⟨a.sys + (l.map f).sum, a.err + (l.map g).sum⟩ := by
  induction l generalizing a with
  | nil => simp
  | cons p l ih => simp [List.foldl_cons, ih, h, add_assoc]

theorem priorStep_eq (P : Params K) (T : Pose3 K) (a : Acc K) :
    priorStep P T a = ⟨a.sys + (P.prior.elim 0 fun f => f T), a.err⟩ := by
  unfold priorStep
  cases P.prior <;> simp

theorem restSerial_eq (E : Env K) (P : Params K) (inp : Pairings K) (T : Pose3 K) (a : Acc K) :
    restSerial E P inp T a = ⟨a.sys + otherPart E P inp T, a.err + costOther false P E inp T⟩ := by
  simp only [restSerial]
  rw [foldl_acc (lnStep E P T) _ _ (fun a p => rfl), foldl_acc (lnlnStep E P T) _ _ (fun a p => rfl),
    foldl_acc (plStep E P T) _ _ (fun a p => rfl), foldl_acc (plplStep E P T) _ _ (fun a p => rfl), priorStep_eq]
  simp only [weight_eq, sqNorm_eq, contrib_eq, otherPart, costOther, Bool.false_eq_true, if_false]
  congr 1
  · abel
  · ring

/-- What index `i` of a list contributes. -/
def at0 {α M : Type} [Zero M] (ps : List α) (f : α → M) (i : Nat) : M := (ps[i]?).elim 0 f

theorem sum_range_at0 {α M : Type} [AddCommMonoid M] (ps : List α) (f : α → M) :
    ((List.range ps.length).map (at0 ps f)).sum = (ps.map f).sum := by
  have : (List.range ps.length).map (at0 ps f) = ps.map f := by
    apply List.ext_getElem (by simp)
    intro i h1 h2
    simp [at0]
    simp at h1
    rw [List.getElem?_eq_getElem h1]; rfl
  rw [this]

theorem plBody_eq (E : Env K) (P : Params K) (T : Pose3 K) (ps : List (PtPlPair K)) (a : Acc K) (is : List Nat) :
    plBody E P T ps a is = ⟨a.sys + (is.map (at0 ps fun q => term (E.expJac T) (robust P P.pairWeights.pt2pl
      (Err.pt2pl q T)) (Err.pt2plJac q) (Err.pt2pl q T))).sum,
      a.err + (is.map (at0 ps fun q => robust P P.pairWeights.pt2pl (Err.pt2pl q T) * sqLen (Err.pt2pl q T))).sum⟩ := by
  unfold plBody
  rw [foldl_acc]
  intro a p
  cases h : ps[p]? with
  | none => simp [at0, h]
  | some q => simp [at0, h, plStepTbb, weight_eq, sqNorm_eq, contrib_eq]

theorem plReduce_eq (E : Env K) (P : Params K) (T : Pose3 K) (ps : List (PtPlPair K)) (t : RTree) (err : K) :
    plReduce E P T ps t err = ⟨(t.indices.map (at0 ps fun q => term (E.expJac T) (robust P P.pairWeights.pt2pl
      (Err.pt2pl q T)) (Err.pt2plJac q) (Err.pt2pl q T))).sum,
      err + (t.indices.map (at0 ps fun q => robust P P.pairWeights.pt2pl (Err.pt2pl q T) * sqLen (Err.pt2pl q T))).sum⟩ := by
  induction t generalizing err with
  | idle => simp [plReduce, RTree.indices]
  | chunk t lo hi ih => simp [plReduce, RTree.indices, ih, plBody_eq, add_assoc]
  | join b l r ihl ihr =>
    cases b <;> simp only [plReduce, RTree.indices, ihl, ihr, Bool.false_eq_true, if_false, if_true, List.map_append,
      List.sum_append, add_assoc]
    rw [add_comm (List.sum (List.map _ r.indices)) (List.sum _)]

theorem restTbb_eq (E : Env K) (P : Params K) (inp : Pairings K) (t : RTree) (T : Pose3 K) (a : Acc K)
    (ht : t.indices = List.range inp.pt2pl.length) :
    restTbb E P inp t T a = ⟨a.sys + otherPart E P inp T, a.err + costOther true P E inp T⟩ := by
  simp only [restTbb, plReduce_eq, ht, sum_range_at0]
  rw [foldl_acc (lnStep E P T) _ _ (fun a p => rfl), foldl_acc (lnlnStep E P T) _ _ (fun a p => rfl),
    foldl_acc (plplStep E P T) _ _ (fun a p => rfl), priorStep_eq]
  simp only [weight_eq, sqNorm_eq, contrib_eq, otherPart, costOther, if_true, one_mul]
  congr 1
  · abel
  · ring

/-- Contribution of one point pair with weight `w`. -/
abbrev ptTerm (E : Env K) (P : Params K) (T : Pose3 K) (w : K) (p : PtPair K) : Sys K :=
  term (E.expJac T) (robust P w (Err.pt2pt p T)) (Err.pt2ptJac p) (Err.pt2pt p T)

/-- Cost of one point pair with weight `w`. -/
abbrev ptCost (P : Params K) (T : Pose3 K) (w : K) (p : PtPair K) : K :=
  robust P w (Err.pt2pt p T) * sqLen (Err.pt2pt p T)

theorem ptStep_eq (E : Env K) (P : Params K) (hasW : Bool) (T : Pose3 K) (s : Acc K × Cursor K) (i : Nat) (p : PtPair K) :
    ptStep E P hasW T s i p = (nextWeight hasW i s.2).bind fun c =>
      .ok (⟨s.1.sys + ptTerm E P T c.wPt p, s.1.err + ptCost P T c.wPt p⟩, c) := by
  simp only [ptStep, weight_eq, sqNorm_eq, contrib_eq]

theorem pointPart_cons (E : Env K) (P : Params K) (p : PtPair K) (ps : List (PtPair K)) (w : K) (ws : List K)
    (T : Pose3 K) : pointPart E P (p :: ps) (w :: ws) T = ptTerm E P T w p + pointPart E P ps ws T := by
  simp [pointPart]

theorem costPoints_cons (P : Params K) (p : PtPair K) (ps : List (PtPair K)) (w : K) (ws : List K)
    (T : Pose3 K) : costPoints P (p :: ps) (w :: ws) T = ptCost P T w p + costPoints P ps ws T := by
  simp [costPoints]

/-- Serial loop without table. -/
theorem ptLoop_plain (E : Env K) (P : Params K) (T : Pose3 K) (ps : List (PtPair K)) (a : Acc K) (c : Cursor K) (i : Nat) :
    ptLoop E P false T (a, c) i ps = .ok (⟨a.sys + pointPart E P ps (List.replicate ps.length c.wPt) T,
      a.err + costPoints P ps (List.replicate ps.length c.wPt) T⟩, c) := by
  induction ps generalizing a i with
  | nil => simp [ptLoop, pointPart, costPoints]
  | cons p ps ih =>
    simp only [ptLoop, ptStep_eq, nextWeight, Bool.false_eq_true, if_false, Outcome.bind, ih, List.length_cons,
      List.replicate_succ, pointPart_cons, costPoints_cons, add_assoc]

theorem ptBody_plain (E : Env K) (P : Params K) (T : Pose3 K) (ps : List (PtPair K)) (a : Acc K) (c : Cursor K)
    (is : List Nat) (h : ∀ i ∈ is, i < ps.length) :
    ptBody E P false T ps (a, c) is = .ok (⟨a.sys + (is.map (at0 ps (ptTerm E P T c.wPt))).sum,
      a.err + (is.map (at0 ps (ptCost P T c.wPt))).sum⟩, c) := by
  induction is generalizing a with
  | nil => simp [ptBody]
  | cons i is ih =>
    have hi := h i (by simp)
    simp only [ptBody, List.getElem?_eq_getElem hi, ptStep_eq, nextWeight, Bool.false_eq_true, if_false, Outcome.bind]
    rw [ih _ (fun j hj => h j (by simp [hj]))]
    simp [at0, List.getElem?_eq_getElem hi, add_assoc]

theorem ptReduce_plain (E : Env K) (P : Params K) (T : Pose3 K) (ps : List (PtPair K)) (t : RTree) (err : K)
    (c : Cursor K) (h : ∀ i ∈ t.indices, i < ps.length) :
    ptReduce E P false T ps t err c = .ok (⟨(t.indices.map (at0 ps (ptTerm E P T c.wPt))).sum,
      err + (t.indices.map (at0 ps (ptCost P T c.wPt))).sum⟩, c) := by
  induction t generalizing err with
  | idle => simp [ptReduce, RTree.indices]
  | chunk t lo hi ih =>
    simp only [RTree.indices, List.mem_append] at h
    simp only [ptReduce, ih err (fun i hi => h i (.inl hi)), Outcome.bind]
    rw [ptBody_plain _ _ _ _ _ _ _ (fun i hi => h i (.inr hi))]
    simp [RTree.indices, add_assoc]
  | join b l r ihl ihr =>
    simp only [RTree.indices, List.mem_append] at h
    have hl := fun e => ihl e (fun i hi => h i (.inl hi))
    have hr := fun e => ihr e (fun i hi => h i (.inr hi))
    cases b <;> simp only [ptReduce, RTree.indices, hl, hr, Outcome.bind, Bool.false_eq_true, if_false, if_true,
      List.map_append, List.sum_append, add_assoc]
    rw [add_comm (List.sum (List.map (at0 ps (ptCost P T c.wPt)) r.indices)) (List.sum _)]

theorem pointPart_uniform (E : Env K) (P : Params K) (ps : List (PtPair K)) (w : K) (T : Pose3 K) :
    pointPart E P ps (List.replicate ps.length w) T = (ps.map (ptTerm E P T w)).sum := by
  induction ps with
  | nil => rfl
  | cons p ps ih => simp [List.replicate_succ, pointPart_cons, ih]

theorem costPoints_uniform (P : Params K) (ps : List (PtPair K)) (w : K) (T : Pose3 K) :
    costPoints P ps (List.replicate ps.length w) T = (ps.map (ptCost P T w)).sum := by
  induction ps with
  | nil => rfl
  | cons p ps ih => simp [List.replicate_succ, costPoints_cons, ih]

/-- The system and cost of an iteration without a table of weights. -/
theorem assemble_serial_plain (E : Env K) (P : Params K) (inp : Pairings K) (hw : inp.pointWeights = []) (k : Nat)
    (T : Pose3 K) (sys : Sys K) (c : Cursor K) :
    assemble .serial E P inp k T sys c = .ok (⟨sys + system E P inp (uniform inp c.wPt) T,
      costPoints P inp.pt2pt (uniform inp c.wPt) T + costOther false P E inp T⟩, c) := by
  simp only [assemble, hw, List.isEmpty_nil, Bool.not_true, ptLoop_plain, Outcome.bind, restSerial_eq, system,
    uniform, zero_add, add_assoc]

theorem assemble_tbb_plain (E : Env K) (P : Params K) (inp : Pairings K) (hw : inp.pointWeights = [])
    (sched : Nat → RTree × RTree) (hs : ValidSchedule inp sched) (k : Nat)
    (T : Pose3 K) (sys : Sys K) (c : Cursor K) :
    assemble (.tbb sched) E P inp k T sys c = .ok (⟨system E P inp (uniform inp c.wPt) T,
      costPoints P inp.pt2pt (uniform inp c.wPt) T + costOther true P E inp T⟩, c) := by
  simp only [assemble, hw, List.isEmpty_nil, Bool.not_true]
  rw [ptReduce_plain _ _ _ _ _ _ _ (by rw [(hs k).1]; simp)]
  simp only [Outcome.bind, (hs k).1, sum_range_at0, restTbb_eq E P inp _ T _ (hs k).2, system, uniform, zero_add,
    pointPart_uniform, costPoints_uniform]

end Verif.Lemmas.Gn
