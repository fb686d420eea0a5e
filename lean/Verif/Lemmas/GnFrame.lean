import Verif.Spec.GnFrame
import Verif.Lemmas.GaussNewtonLoop
import Verif.Lemmas.Rot
import Verif.Lemmas.FrameFree
import Mathlib.Tactic.FinCases
/-
The Gauss-Newton systems seen from another frame (C110).
-/
namespace Verif.Lemmas.GnF
open Verif Verif.Gn Verif.Spec Verif.Spec.GN Verif.Lemmas
set_option linter.unusedSectionVars false
variable {K : Type} [Field K]

/-- A vector as a column. -/
def col (v : P3 K) : Fin 3 → K := ![v.x, v.y, v.z]

/-- Translation and rotation parts of the six increments. -/
def incV : Fin 6 → P3 K := ![⟨1, 0, 0⟩, ⟨0, 1, 0⟩, ⟨0, 0, 1⟩, 0, 0, 0]
def incW : Fin 6 → P3 K := ![0, 0, 0, ⟨1, 0, 0⟩, ⟨0, 1, 0⟩, ⟨0, 0, 1⟩]

theorem deriv_col {T : Pose3 K} {D : Matrix (Fin 12) (Fin 6) K} (h : IsExpDeriv T D) (i : Fin 12) (j : Fin 6) :
    D i j = poseVec ⟨T.R.mul (crossMat (incW j)), T.R.mulVec (incV j)⟩ i := by
  have h1 := congrFun (h (incV j) (incW j)) i
  rw [← h1]
  fin_cases j <;> simp [incV, incW, Matrix.mulVec, dotProduct, Fin.sum_univ_succ]

theorem mul_deriv {n : Nat} {T : Pose3 K} {D : Matrix (Fin 12) (Fin 6) K} (h : IsExpDeriv T D) (J : Matrix (Fin n) (Fin 12) K)
    (i : Fin n) (j : Fin 6) : (J * D) i j = J.mulVec (poseVec ⟨T.R.mul (crossMat (incW j)), T.R.mulVec (incV j)⟩) i := by
  simp only [Matrix.mul_apply, Matrix.mulVec, dotProduct, deriv_col h]

/-- How a point `l` of the body moves with the increment `j`. -/
def drift (T : Pose3 K) (l : P3 K) (j : Fin 6) : P3 K := T.R.mulVec (incV j + (incW j).cross l)
/-- How a direction moves. -/
def turn (T : Pose3 K) (n : P3 K) (j : Fin 6) : P3 K := T.R.mulVec ((incW j).cross n)

theorem drift_move (G T : Pose3 K) (l : P3 K) (j : Fin 6) : drift (G.compose T) l j = G.R.mulVec (drift T l j) := by
  simp only [drift, Pose3.compose, mul_mulVec]

theorem turn_move (G T : Pose3 K) (l : P3 K) (j : Fin 6) : turn (G.compose T) l j = G.R.mulVec (turn T l j) := by
  simp only [turn, Pose3.compose, mul_mulVec]

theorem compose_col {T : Pose3 K} (l : P3 K) (j : Fin 6) :
    (Err.composeJac l).mulVec (poseVec ⟨T.R.mul (crossMat (incW j)), T.R.mulVec (incV j)⟩) = col (drift T l j) := by
  funext i
  fin_cases i <;>
    simp [Err.composeJac, Matrix.mulVec, dotProduct, Fin.sum_univ_succ, poseVec, col, drift, M3.mulVec, M3.mul, crossMat, P3.cross] <;> ring

theorem col_dot (a b : P3 K) : ∑ i, col a i * col b i = a.dot b := by
  simp [col, Fin.sum_univ_succ, P3.dot]; ring

/-- A term is made of dot products, which a rotation keeps. -/
theorem contrib_rot {R : M3 K} (hR : IsRotation R) {J J' : Matrix (Fin 3) (Fin 12) K} {D D' : Matrix (Fin 12) (Fin 6) K} {e e' : Fin 3 → K}
    {V : Fin 6 → P3 K} {u : P3 K} (hJ : ∀ i j, (J * D) i j = col (V j) i) (hJ' : ∀ i j, (J' * D') i j = col (R.mulVec (V j)) i)
    (he : e = col u) (he' : e' = col (R.mulVec u)) (w : K) : contrib D' w J' e' = contrib D w J e ∧ sqNorm e' = sqNorm e := by
  subst he he'
  refine ⟨?_, ?_⟩
  · unfold contrib
    congr 1
    · ext i j
      simp only [Matrix.smul_apply, Matrix.mul_apply (M := (J' * D').transpose), Matrix.mul_apply (M := (J * D).transpose), Matrix.transpose_apply, hJ, hJ',
        col_dot, rot_dot hR]
    · funext j
      simp only [Pi.smul_apply, Matrix.mulVec, dotProduct, Matrix.transpose_apply, hJ, hJ', col_dot, rot_dot hR]
  · unfold sqNorm
    rw [col_dot, col_dot, rot_dot hR]

/-- Weight and term together: what a pairing adds. -/
theorem both_rot {R : M3 K} (hR : IsRotation R) {P P' : Params K} (hk : P'.kernel = P.kernel) (hkp : P'.kernelParam = P.kernelParam)
    {J J' : Matrix (Fin 3) (Fin 12) K} {D D' : Matrix (Fin 12) (Fin 6) K} {e e' : Fin 3 → K}
    {V : Fin 6 → P3 K} {u : P3 K} (hJ : ∀ i j, (J * D) i j = col (V j) i) (hJ' : ∀ i j, (J' * D') i j = col (R.mulVec (V j)) i)
    (he : e = col u) (he' : e' = col (R.mulVec u)) (w : K) :
    weight P' w e' = weight P w e ∧ (∀ w, contrib D' w J' e' = contrib D w J e) ∧ sqNorm e' = sqNorm e := by
  have h := (contrib_rot hR hJ hJ' he he' w).2
  refine ⟨?_, fun w => (contrib_rot hR hJ hJ' he he' w).1, h⟩
  unfold weight
  rw [hk, hkp, h]

theorem err_pt2pt (p : PtPair K) (T : Pose3 K) : Err.pt2pt p T = col (T.composePoint p.local - p.global) := rfl

theorem jac_pt2pt {T : Pose3 K} {D : Matrix (Fin 12) (Fin 6) K} (h : IsExpDeriv T D) (p : PtPair K) (i : Fin 3) (j : Fin 6) :
    (Err.pt2ptJac p * D) i j = col (drift T p.local j) i := by
  rw [mul_deriv h, Err.pt2ptJac, compose_col]

/-- The part of `a` across the line. -/
def across (u a : P3 K) : P3 K := a - u.smul (u.dot a)

theorem err_pt2ln (p : PtLnPair K) (T : Pose3 K) :
    Err.pt2ln p T = col (across p.lnGlobal.director (T.composePoint p.ptLocal - p.lnGlobal.pBase)) := by
  funext i; fin_cases i <;> simp [Err.pt2ln, col, across, P3.smul] <;> ring

theorem jac_pt2ln {T : Pose3 K} {D : Matrix (Fin 12) (Fin 6) K} (h : IsExpDeriv T D) (p : PtLnPair K) (i : Fin 3) (j : Fin 6) :
    (Err.pt2lnJac p * D) i j = col (across p.lnGlobal.director (drift T p.ptLocal j)) i := by
  rw [mul_deriv h, Err.pt2lnJac, ← Matrix.mulVec_mulVec, compose_col]
  generalize drift T p.ptLocal j = a
  fin_cases i <;> simp [Matrix.mulVec, dotProduct, Fin.sum_univ_succ, col, across, P3.smul, P3.dot] <;> ring

/-- Minus the part of `a` along the normal, plus the offset. -/
def along (n : P3 K) (a d : K) : P3 K := n.smul (-(a + d) / n.normSq)

theorem err_pt2pl (p : PtPlPair K) (T : Pose3 K) :
    Err.pt2pl p T = col (along p.plGlobal.plane.n (p.plGlobal.plane.n.dot (T.composePoint p.ptLocal)) p.plGlobal.plane.d) := by
  funext i; fin_cases i <;> simp [Err.pt2pl, col, along, P3.smul, P3.dot, P3.normSq] <;> ring

theorem jac_pt2pl {T : Pose3 K} {D : Matrix (Fin 12) (Fin 6) K} (h : IsExpDeriv T D) (p : PtPlPair K) (i : Fin 3) (j : Fin 6) :
    (Err.pt2plJac p * D) i j = col (along p.plGlobal.plane.n (p.plGlobal.plane.n.dot (drift T p.ptLocal j)) 0) i := by
  rw [mul_deriv h, Err.pt2plJac, ← Matrix.mulVec_mulVec, compose_col]
  generalize drift T p.ptLocal j = a
  fin_cases i <;> simp [Matrix.mulVec, dotProduct, Fin.sum_univ_succ, col, along, P3.smul, P3.dot, P3.normSq] <;> ring

theorem err_pl2pl (p : PlPair K) (T : Pose3 K) : Err.pl2pl p T = col (T.R.mulVec p.pLocal.plane.n - p.pGlobal.plane.n) := rfl

theorem jac_pl2pl {T : Pose3 K} {D : Matrix (Fin 12) (Fin 6) K} (h : IsExpDeriv T D) (p : PlPair K) (i : Fin 3) (j : Fin 6) :
    (Err.pl2plJac p * D) i j = col (turn T p.pLocal.plane.n j) i := by
  rw [mul_deriv h]
  fin_cases i <;>
    simp [Err.pl2plJac, Matrix.mulVec, dotProduct, Fin.sum_univ_succ, poseVec, col, turn, M3.mulVec, M3.mul, crossMat, P3.cross] <;> ring

theorem across_rot {R : M3 K} (hR : IsRotation R) (u a : P3 K) : across (R.mulVec u) (R.mulVec a) = R.mulVec (across u a) := by
  simp only [across, rot_dot hR, mulVec_sub, mulVec_smul]

theorem along_rot {R : M3 K} (hR : IsRotation R) (n : P3 K) {a d a' d' : K} (h : a' + d' = a + d) :
    along (R.mulVec n) a' d' = R.mulVec (along n a d) := by
  simp only [along, rot_normSq hR, h, mulVec_smul]

/-! ### each kind of pairing, seen from the other frame -/

variable [LinearOrder K] [IsStrictOrderedRing K] {G : Pose3 K} {P P' : Params K} {D D' : Matrix (Fin 12) (Fin 6) K} {T : Pose3 K}

theorem pt_moved (hG : IsRotation G.R) (hk : P'.kernel = P.kernel) (hkp : P'.kernelParam = P.kernelParam) (hD : IsExpDeriv T D)
    (hD' : IsExpDeriv (G.compose T) D') {p p' : PtPair K} (h1 : p'.local = p.local) (h2 : p'.global = G.composePoint p.global) (w : K) :
    weight P' w (Err.pt2pt p' (G.compose T)) = weight P w (Err.pt2pt p T) ∧
      (∀ w, contrib D' w (Err.pt2ptJac p') (Err.pt2pt p' (G.compose T)) = contrib D w (Err.pt2ptJac p) (Err.pt2pt p T)) ∧
      sqNorm (Err.pt2pt p' (G.compose T)) = sqNorm (Err.pt2pt p T) := by
  refine both_rot hG hk hkp (V := drift T p.local) (jac_pt2pt hD p) ?_ (err_pt2pt p T) ?_ w
  · intro i j; rw [jac_pt2pt hD', h1, drift_move]
  · rw [err_pt2pt, h1, h2, compose_composePoint, composePoint_sub]

theorem ln_moved (hG : IsRotation G.R) (hk : P'.kernel = P.kernel) (hkp : P'.kernelParam = P.kernelParam) (hD : IsExpDeriv T D)
    (hD' : IsExpDeriv (G.compose T) D') {p p' : PtLnPair K} (h1 : p'.ptLocal = p.ptLocal) (h2 : p'.lnGlobal = movedLine G p.lnGlobal) (w : K) :
    weight P' w (Err.pt2ln p' (G.compose T)) = weight P w (Err.pt2ln p T) ∧
      (∀ w, contrib D' w (Err.pt2lnJac p') (Err.pt2ln p' (G.compose T)) = contrib D w (Err.pt2lnJac p) (Err.pt2ln p T)) ∧
      sqNorm (Err.pt2ln p' (G.compose T)) = sqNorm (Err.pt2ln p T) := by
  refine both_rot hG hk hkp (V := fun j => across p.lnGlobal.director (drift T p.ptLocal j)) (jac_pt2ln hD p) ?_ (err_pt2ln p T) ?_ w
  · intro i j; rw [jac_pt2ln hD', h1, h2, drift_move, movedLine, across_rot hG]
  · rw [err_pt2ln, h1, h2, movedLine, compose_composePoint, composePoint_sub, across_rot hG]

theorem pl_moved (hG : IsRotation G.R) (hk : P'.kernel = P.kernel) (hkp : P'.kernelParam = P.kernelParam) (hD : IsExpDeriv T D)
    (hD' : IsExpDeriv (G.compose T) D') {p p' : PtPlPair K} (h1 : p'.ptLocal = p.ptLocal) (h2 : p'.plGlobal.plane = movedPlane G p.plGlobal.plane)
    (w : K) :
    weight P' w (Err.pt2pl p' (G.compose T)) = weight P w (Err.pt2pl p T) ∧
      (∀ w, contrib D' w (Err.pt2plJac p') (Err.pt2pl p' (G.compose T)) = contrib D w (Err.pt2plJac p) (Err.pt2pl p T)) ∧
      sqNorm (Err.pt2pl p' (G.compose T)) = sqNorm (Err.pt2pl p T) := by
  refine both_rot hG hk hkp (V := fun j => along p.plGlobal.plane.n (p.plGlobal.plane.n.dot (drift T p.ptLocal j)) 0) (jac_pt2pl hD p) ?_
    (err_pt2pl p T) ?_ w
  · intro i j
    rw [jac_pt2pl hD', h1, h2, drift_move, movedPlane, rot_dot hG, along_rot hG _ rfl]
  · rw [err_pt2pl, h1, h2, movedPlane]
    rw [along_rot hG (a := p.plGlobal.plane.n.dot (T.composePoint p.ptLocal)) (d := p.plGlobal.plane.d)]
    rw [compose_composePoint]
    have h3 : G.composePoint (T.composePoint p.ptLocal) = G.R.mulVec (T.composePoint p.ptLocal) + G.t := rfl
    have h4 : ∀ a b c : P3 K, a.dot (b + c) = a.dot b + a.dot c := by intro a b c; simp [P3.dot]; ring
    rw [h3, h4, rot_dot hG]
    ring

theorem plpl_moved (hG : IsRotation G.R) (hk : P'.kernel = P.kernel) (hkp : P'.kernelParam = P.kernelParam) (hD : IsExpDeriv T D)
    (hD' : IsExpDeriv (G.compose T) D') {p p' : PlPair K} (h1 : p'.pLocal.plane = p.pLocal.plane)
    (h2 : p'.pGlobal.plane = movedPlane G p.pGlobal.plane) (w : K) :
    weight P' w (Err.pl2pl p' (G.compose T)) = weight P w (Err.pl2pl p T) ∧
      (∀ w, contrib D' w (Err.pl2plJac p') (Err.pl2pl p' (G.compose T)) = contrib D w (Err.pl2plJac p) (Err.pl2pl p T)) ∧
      sqNorm (Err.pl2pl p' (G.compose T)) = sqNorm (Err.pl2pl p T) := by
  refine both_rot hG hk hkp (V := turn T p.pLocal.plane.n) (jac_pl2pl hD p) ?_ (err_pl2pl p T) ?_ w
  · intro i j; rw [jac_pl2pl hD', h1, turn_move]
  · rw [err_pl2pl, h1, h2, movedPlane, Pose3.compose, mul_mulVec, ← mulVec_sub]

/-! ### the same pairings, in the same order -/

theorem forall2_of_map {α β γ : Type} {f : α → γ} {g : β → γ} {a : List α} {b : List β} (h : b.map g = a.map f) :
    List.Forall₂ (fun x y => g y = f x) a b := by
  induction a generalizing b with
  | nil => cases b with
    | nil => exact .nil
    | cons y b => simp at h
  | cons x a ih =>
    cases b with
    | nil => simp at h
    | cons y b =>
      simp only [List.map_cons, List.cons.injEq] at h
      exact .cons h.1 (ih h.2)

theorem forall2_get {α β : Type} {R : α → β → Prop} {a : List α} {b : List β} (h : List.Forall₂ R a b) (i : Nat) :
    Option.Rel R a[i]? b[i]? := by
  induction h generalizing i with
  | nil => exact .none
  | cons hr _ ih => cases i with
    | zero => simpa using Option.Rel.some hr
    | succ i => simpa using ih i

theorem foldl_moved {α β σ : Type} {R : α → β → Prop} {f : σ → α → σ} {g : σ → β → σ} (hf : ∀ s x y, R x y → g s y = f s x)
    {a : List α} {b : List β} (h : List.Forall₂ R a b) (s : σ) : b.foldl g s = a.foldl f s := by
  induction h generalizing s with
  | nil => rfl
  | cons hr _ ih => simp only [List.foldl_cons, hf _ _ _ hr, ih]

/-- What the two problems have in common. -/
structure Twin (E : Env K) (G : Pose3 K) (P P' : Params K) : Prop where
  rot : IsRotation G.R
  deriv : ∀ T, IsExpDeriv T (E.expJac T)
  par : MovedParams G P P'

section
variable {E : Env K} (h : Twin E G P P')
include h

theorem Twin.kernel : P'.kernel = P.kernel := by rw [h.par.rest]
theorem Twin.kernelParam : P'.kernelParam = P.kernelParam := by rw [h.par.rest]
theorem Twin.pw : P'.pairWeights = P.pairWeights := by rw [h.par.rest]

theorem ptStep_moved (hasW : Bool) (T : Pose3 K) (s : Gn.Acc K × Cursor K) (i : Nat) {p p' : PtPair K}
    (hp : (p'.local, p'.global) = (p.local, G.composePoint p.global)) :
    ptStep E P' hasW (G.compose T) s i p' = ptStep E P hasW T s i p := by
  obtain ⟨h1, h2⟩ := Prod.mk.inj hp
  have k := fun w => pt_moved h.rot h.kernel h.kernelParam (h.deriv T) (h.deriv (G.compose T)) h1 h2 w
  unfold ptStep
  congr 1
  funext c
  simp only [(k c.wPt).1, (k c.wPt).2.1, (k c.wPt).2.2]

theorem lnStep_moved (T : Pose3 K) (a : Gn.Acc K) {p p' : PtLnPair K} (hp : (p'.ptLocal, p'.lnGlobal) = (p.ptLocal, movedLine G p.lnGlobal)) :
    Gn.lnStep E P' (G.compose T) a p' = Gn.lnStep E P T a p := by
  obtain ⟨h1, h2⟩ := Prod.mk.inj hp
  have k := fun w => ln_moved h.rot h.kernel h.kernelParam (h.deriv T) (h.deriv (G.compose T)) h1 h2 w
  simp only [Gn.lnStep, h.pw, (k _).1, (k 0).2.1, (k 0).2.2]

theorem plStep_moved (T : Pose3 K) (a : Gn.Acc K) {p p' : PtPlPair K}
    (hp : (p'.ptLocal, p'.plGlobal.plane) = (p.ptLocal, movedPlane G p.plGlobal.plane)) :
    Gn.plStep E P' (G.compose T) a p' = Gn.plStep E P T a p := by
  obtain ⟨h1, h2⟩ := Prod.mk.inj hp
  have k := fun w => pl_moved h.rot h.kernel h.kernelParam (h.deriv T) (h.deriv (G.compose T)) h1 h2 w
  simp only [Gn.plStep, h.pw, (k _).1, (k 0).2.1, (k 0).2.2]

theorem plStepTbb_moved (T : Pose3 K) (a : Gn.Acc K) {p p' : PtPlPair K}
    (hp : (p'.ptLocal, p'.plGlobal.plane) = (p.ptLocal, movedPlane G p.plGlobal.plane)) :
    plStepTbb E P' (G.compose T) a p' = plStepTbb E P T a p := by
  obtain ⟨h1, h2⟩ := Prod.mk.inj hp
  have k := fun w => pl_moved h.rot h.kernel h.kernelParam (h.deriv T) (h.deriv (G.compose T)) h1 h2 w
  simp only [plStepTbb, h.pw, (k _).1, (k 0).2.1, (k 0).2.2]

theorem plplStep_moved (T : Pose3 K) (a : Gn.Acc K) {p p' : PlPair K}
    (hp : (p'.pLocal.plane, p'.pGlobal.plane) = (p.pLocal.plane, movedPlane G p.pGlobal.plane)) :
    plplStep E P' (G.compose T) a p' = plplStep E P T a p := by
  obtain ⟨h1, h2⟩ := Prod.mk.inj hp
  have k := fun w => plpl_moved h.rot h.kernel h.kernelParam (h.deriv T) (h.deriv (G.compose T)) h1 h2 w
  simp only [plplStep, h.pw, (k _).1, (k 0).2.1, (k 0).2.2]

theorem priorStep_moved (T : Pose3 K) (a : Gn.Acc K) : priorStep P' (G.compose T) a = priorStep P T a := by
  unfold priorStep
  have := h.par.prior
  revert this
  cases P.prior <;> cases P'.prior <;> intro this <;> cases this
  · rfl
  · rename_i hf; simp only [hf]

theorem ptLoop_moved (hasW : Bool) (T : Pose3 K) {ps ps' : List (PtPair K)}
    (hp : List.Forall₂ (fun p p' => (p'.local, p'.global) = (p.local, G.composePoint p.global)) ps ps') (s : Gn.Acc K × Cursor K) (i : Nat) :
    ptLoop E P' hasW (G.compose T) s i ps' = ptLoop E P hasW T s i ps := by
  induction hp generalizing s i with
  | nil => rfl
  | cons hr _ ih => simp only [ptLoop, ptStep_moved h hasW T s i hr, ih]

theorem ptBody_moved (hasW : Bool) (T : Pose3 K) {ps ps' : List (PtPair K)}
    (hp : List.Forall₂ (fun p p' => (p'.local, p'.global) = (p.local, G.composePoint p.global)) ps ps') (is : List Nat) (s : Gn.Acc K × Cursor K) :
    ptBody E P' hasW (G.compose T) ps' s is = ptBody E P hasW T ps s is := by
  induction is generalizing s with
  | nil => rfl
  | cons i is ih =>
    have hr := forall2_get hp i
    unfold ptBody
    revert hr
    cases ps[i]? <;> cases ps'[i]? <;> intro hr <;> cases hr
    · rfl
    · rename_i hr; simp only [ptStep_moved h hasW T s i hr, ih]

theorem ptReduce_moved (hasW : Bool) (T : Pose3 K) {ps ps' : List (PtPair K)}
    (hp : List.Forall₂ (fun p p' => (p'.local, p'.global) = (p.local, G.composePoint p.global)) ps ps') (t : RTree) (err : K) (c : Cursor K) :
    ptReduce E P' hasW (G.compose T) ps' t err c = ptReduce E P hasW T ps t err c := by
  induction t generalizing err c with
  | idle => rfl
  | chunk t lo hi ih => simp only [ptReduce, ih, ptBody_moved h hasW T hp]
  | join b l r ihl ihr => simp only [ptReduce, ihl, ihr]

theorem plReduce_moved (T : Pose3 K) {ps ps' : List (PtPlPair K)}
    (hp : List.Forall₂ (fun p p' => (p'.ptLocal, p'.plGlobal.plane) = (p.ptLocal, movedPlane G p.plGlobal.plane)) ps ps') (t : RTree) (err : K) :
    plReduce E P' (G.compose T) ps' t err = plReduce E P T ps t err := by
  have hb : ∀ a is, plBody E P' (G.compose T) ps' a is = plBody E P T ps a is := by
    intro a is
    unfold plBody
    refine foldl_moved (R := fun x y => y = x) ?_ (List.forall₂_same.mpr fun _ _ => rfl) a
    rintro s i j rfl
    have hr := forall2_get hp j
    revert hr
    cases ps[j]? <;> cases ps'[j]? <;> intro hr <;> cases hr
    · rfl
    · rename_i hr; simp only [plStepTbb_moved h T s hr]
  induction t generalizing err with
  | idle => rfl
  | chunk t lo hi ih => simp only [plReduce, ih, hb]
  | join b l r ihl ihr => simp only [plReduce, ihl, ihr]

theorem assemble_in_order {inp inp' : Pairings K} (hm : MovedInOrder G inp inp') (b : Build) (k : Nat) (T : Pose3 K) (sys : Sys K) (c : Cursor K) :
    assemble b E P' inp' k (G.compose T) sys c = assemble b E P inp k T sys c := by
  have f1 := forall2_of_map hm.pt2pt
  have f2 := forall2_of_map hm.pt2ln
  have f3 := forall2_of_map hm.pt2pl
  have f4 := forall2_of_map hm.pl2pl
  have e2 := fun s => foldl_moved (f := Gn.lnStep E P T) (g := Gn.lnStep E P' (G.compose T)) (fun s x y hr => lnStep_moved h T s hr) f2 s
  have e3 := fun s => foldl_moved (f := Gn.plStep E P T) (g := Gn.plStep E P' (G.compose T)) (fun s x y hr => plStep_moved h T s hr) f3 s
  have e4 := fun s => foldl_moved (f := plplStep E P T) (g := plplStep E P' (G.compose T)) (fun s x y hr => plplStep_moved h T s hr) f4 s
  cases b with
  | serial =>
    simp only [assemble, hm.weights, ptLoop_moved h _ T f1, restSerial, hm.noLines.1, hm.noLines.2, List.foldl_nil, e2, e3, e4, priorStep_moved h]
  | tbb sched =>
    simp only [assemble, hm.weights, ptReduce_moved h _ T f1, restTbb, hm.noLines.1, hm.noLines.2, List.foldl_nil, e2, plReduce_moved h T f3, e4,
      priorStep_moved h]

end

/-! ### in another order -/

theorem pose_assoc (A B C : Pose3 K) : (A.compose B).compose C = A.compose (B.compose C) := by
  ext <;> simp only [Pose3.compose, M3.mul, M3.mulVec, P3.add_x, P3.add_y, P3.add_z] <;> ring

theorem sum_moved {α β γ M : Type} [AddCommMonoid M] {f : α → γ} {g : β → γ} {F : α → M} {H : β → M}
    (hFH : ∀ x y, g y = f x → H y = F x) {a : List α} {b : List β} (h : (b.map g).Perm (a.map f)) : (b.map H).sum = (a.map F).sum := by
  induction b generalizing a with
  | nil =>
    have : a = [] := by simpa using h.symm.eq_nil
    subst this; rfl
  | cons y b ih =>
    have hm : g y ∈ a.map f := h.subset (by simp)
    obtain ⟨x, hx, hxy⟩ := List.mem_map.mp hm
    obtain ⟨s, t, rfl⟩ := List.append_of_mem hx
    have h2 : (b.map g).Perm ((s ++ t).map f) := by
      have h3 : ((s ++ x :: t).map f).Perm (f x :: (s ++ t).map f) := List.perm_middle.map f
      have h4 := h.trans h3
      rw [List.map_cons, hxy] at h4
      exact h4.cons_inv
    have h5 := ih h2
    rw [List.map_cons, List.sum_cons, h5, hFH x y hxy.symm]
    simp only [List.map_append, List.map_cons, List.sum_append, List.sum_cons]
    rw [add_left_comm]

section
variable {E : Env K} (h : Twin E G P P')
include h

open Verif.Lemmas.Gn in
theorem assemble_any_order {inp inp' : Pairings K} (hm : MovedAnyOrder G inp inp') {b b' : Build} (hb : SameBuild inp inp' b b') (k : Nat)
    (T : Pose3 K) (sys : Sys K) (c : Cursor K) : assemble b' E P' inp' k (G.compose T) sys c = assemble b E P inp k T sys c := by
  have k1 := fun (x : PtPair K) (y : PtPair K) (hp : (y.local, y.global) = (x.local, G.composePoint x.global)) w =>
    pt_moved (P := P) (P' := P') h.rot h.kernel h.kernelParam (h.deriv T) (h.deriv (G.compose T)) (Prod.mk.inj hp).1 (Prod.mk.inj hp).2 w
  have k2 := fun (x : PtLnPair K) (y : PtLnPair K) (hp : (y.ptLocal, y.lnGlobal) = (x.ptLocal, movedLine G x.lnGlobal)) w =>
    ln_moved (P := P) (P' := P') h.rot h.kernel h.kernelParam (h.deriv T) (h.deriv (G.compose T)) (Prod.mk.inj hp).1 (Prod.mk.inj hp).2 w
  have k3 := fun (x : PtPlPair K) (y : PtPlPair K) (hp : (y.ptLocal, y.plGlobal.plane) = (x.ptLocal, movedPlane G x.plGlobal.plane)) w =>
    pl_moved (P := P) (P' := P') h.rot h.kernel h.kernelParam (h.deriv T) (h.deriv (G.compose T)) (Prod.mk.inj hp).1 (Prod.mk.inj hp).2 w
  have k4 := fun (x : PlPair K) (y : PlPair K) (hp : (y.pLocal.plane, y.pGlobal.plane) = (x.pLocal.plane, movedPlane G x.pGlobal.plane)) w =>
    plpl_moved (P := P) (P' := P') h.rot h.kernel h.kernelParam (h.deriv T) (h.deriv (G.compose T)) (Prod.mk.inj hp).1 (Prod.mk.inj hp).2 w
  simp only [weight_eq, contrib_eq, sqNorm_eq] at k1 k2 k3 k4
  have hprior : (P'.prior.elim 0 fun f => f (G.compose T)) = (P.prior.elim 0 fun f => f T) := by
    have := h.par.prior
    revert this
    cases P.prior <;> cases P'.prior <;> intro this <;> cases this
    · rfl
    · rename_i hf; simp only [Option.elim_some, hf]
  have hsys : system E P' inp' (uniform inp' c.wPt) (G.compose T) = system E P inp (uniform inp c.wPt) T := by
    unfold system otherPart uniform
    rw [pointPart_uniform, pointPart_uniform, hm.noLines.1, hm.noLines.2, hprior]
    congr 1
    · exact sum_moved (fun x y hp => by simp only [ptTerm, (k1 x y hp c.wPt).1, (k1 x y hp 0).2.1]) hm.pt2pt
    · congr 1
      congr 1
      · congr 1
        · congr 1
          exact sum_moved (fun x y hp => by simp only [h.pw, (k2 x y hp _).1, (k2 x y hp 0).2.1]) hm.pt2ln
        · exact sum_moved (fun x y hp => by simp only [h.pw, (k3 x y hp _).1, (k3 x y hp 0).2.1]) hm.pt2pl
      · exact sum_moved (fun x y hp => by simp only [h.pw, (k4 x y hp _).1, (k4 x y hp 0).2.1]) hm.pl2pl
  have hcp : costPoints P' inp'.pt2pt (uniform inp' c.wPt) (G.compose T) = costPoints P inp.pt2pt (uniform inp c.wPt) T := by
    unfold uniform
    rw [costPoints_uniform, costPoints_uniform]
    exact sum_moved (fun x y hp => by simp only [ptCost, (k1 x y hp c.wPt).1, (k1 x y hp 0).2.2]) hm.pt2pt
  have hco : ∀ t, costOther t P' E inp' (G.compose T) = costOther t P E inp T := by
    intro t
    unfold costOther
    rw [hm.noLines.1, hm.noLines.2]
    congr 1
    · congr 1
      · congr 1
        exact sum_moved (fun x y hp => by simp only [h.pw, (k2 x y hp _).1, (k2 x y hp 0).2.2]) hm.pt2ln
      · exact sum_moved (fun x y hp => by simp only [h.pw, (k3 x y hp _).1, (k3 x y hp 0).2.2]) hm.pt2pl
    · exact sum_moved (fun x y hp => by simp only [h.pw, (k4 x y hp _).1, (k4 x y hp 0).2.2]) hm.pl2pl
  cases hb with
  | serial => rw [assemble_serial_plain _ _ _ hm.noTable.2, assemble_serial_plain _ _ _ hm.noTable.1, hsys, hcp, hco]
  | tbb s1 s2 => rw [assemble_tbb_plain _ _ _ hm.noTable.2 _ s2, assemble_tbb_plain _ _ _ hm.noTable.1 _ s1, hsys, hcp, hco]

/-- The loop, once the systems are the same. -/
theorem loop_moved {b b' : Build} {inp inp' : Pairings K}
    (hA : ∀ k T sys c, assemble b' E P' inp' k (G.compose T) sys c = assemble b E P inp k T sys c) (n : Nat) :
    ∀ (k : Nat) (T : Pose3 K) (sys : Sys K) (c : Cursor K) (tr : List (Pose3 K × Sys K)),
      loop b' E P' inp' n k (G.compose T) sys c (tr.map fun q => (G.compose q.1, q.2)) =
        (loop b E P inp n k T sys c tr).bind fun r => .ok (movedRun G r) := by
  have h1 : P'.maxCost = P.maxCost := by rw [h.par.rest]
  have h2 : P'.minDelta = P.minDelta := by rw [h.par.rest]
  induction n with
  | zero => intros; rfl
  | succ n ih =>
    intro k T sys c tr
    simp only [loop, hA]
    cases assemble b E P inp k T sys c with
    | throw => rfl
    | ub => rfl
    | ok s =>
      simp only [Outcome.bind, h1, h2]
      split
      · simp [movedRun]
      · split
        · simp [movedRun, pose_assoc]
        · have := ih (k + 1) (T.compose (E.exp (-(E.solve s.1.sys.1 s.1.sys.2)))) s.1.sys s.2 (tr ++ [(T, s.1.sys)])
          rw [List.map_append] at this
          simp only [List.map_cons, List.map_nil] at this
          rw [pose_assoc]
          exact this

theorem run_moved {b b' : Build} {inp inp' : Pairings K} (hw : inp'.pointWeights = inp.pointWeights)
    (hA : ∀ k T sys c, assemble b' E P' inp' k (G.compose T) sys c = assemble b E P inp k T sys c) :
    run b' E P' inp' = (run b E P inp).bind fun r => .ok (movedRun G r) := by
  have h1 : P'.maxInner = P.maxInner := by rw [h.par.rest]
  unfold run
  rw [h.par.guess]
  cases P.linearizationPoint with
  | none => rfl
  | some T0 =>
    simp only [Option.map_some, h1, h.pw, hw]
    exact loop_moved h hA P.maxInner 0 T0 0 _ []

end
end Verif.Lemmas.GnF
