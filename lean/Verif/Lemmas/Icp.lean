import Verif.Model.Icp
import Verif.Spec.Icp
import Verif.Props.Pairings
import Mathlib.Algebra.Order.Field.Basic
import Mathlib.Tactic.Linarith
namespace Verif.Lemmas
open Verif Verif.Spec

variable {K Pose MS : Type}

theorem lastSolved_append (h : List (IterEvent K Pose)) (e : IterEvent K Pose) :
    lastSolved (h ++ [e]) = match e.solver with
      | some (true, s) => some s
      | _ => lastSolved h := by
  unfold lastSolved
  rw [List.reverse_append]
  simp only [List.reverse_cons, List.reverse_nil, List.nil_append, List.singleton_append,
    List.findSome?_cons]
  rcases e.solver with _ | ⟨b, s⟩
  · rfl
  · cases b <;> rfl

theorem lastPairings_append (h : List (IterEvent K Pose)) (e : IterEvent K Pose) :
    lastPairings (h ++ [e]) = e.pairings := by
  simp [lastPairings]

theorem poseBefore_append_lt (init : Pose) (h : List (IterEvent K Pose)) (e : IterEvent K Pose)
    (k : Nat) (hk : k ≤ h.length) : poseBefore init (h ++ [e]) k = poseBefore init h k := by
  unfold poseBefore
  rw [List.take_append_of_le_length hk]

section
variable [LT K] [DecidableLT K] [Zero K] [Add K] [Mul K] [Div K] [Neg K]

variable {B : List (IterEvent K Pose) → Nat → Pose → Prop}

/-- `B` says when the stall test of the loop holds -/
structure StallRule (ops : PoseOps K Pose) (p : IcpParams K) (init : Pose) (B : List (IterEvent K Pose) → Nat → Pose → Prop) : Prop where
  rule : ∀ (h : List (IterEvent K Pose)) (cur : Pose),
    isStalled p (stepNorms ops cur (poseBefore init h h.length)
      (if h.length = 0 then none else some (poseBefore init h (h.length - 1)))) = true ↔ B h h.length cur
  app : ∀ (h : List (IterEvent K Pose)) (e : IterEvent K Pose) (k : Nat), k ≤ h.length → ∀ c, B (h ++ [e]) k c ↔ B h k c

theorem isStalled_iff {ops : PoseOps K Pose} {p : IcpParams K} {init : Pose} (hops : StallRule ops p init B)
    (h : List (IterEvent K Pose)) (cur prev : Pose) (prev2 : Option Pose)
    (h1 : prev = poseBefore init h h.length)
    (h2 : prev2 = if h.length = 0 then none else some (poseBefore init h (h.length - 1))) :
    isStalled p (stepNorms ops cur prev prev2) = true ↔ B h h.length cur := by
  subst h1 h2
  exact hops.rule h cur

theorem barelyMoved_append_lt (ops : PoseOps K Pose) (p : IcpParams K) (init : Pose)
    (h : List (IterEvent K Pose)) (e : IterEvent K Pose) (k : Nat) (hk : k ≤ h.length) (c : Pose) :
    BarelyMoved ops p init (h ++ [e]) k c ↔ BarelyMoved ops p init h k c := by
  unfold BarelyMoved
  rw [poseBefore_append_lt init h e k hk, poseBefore_append_lt init h e (k-1) (by omega)]

/-- facts about a new event appended at position `h.length` -/
structure NewEvent (B : List (IterEvent K Pose) → Nat → Pose → Prop) (env : IcpEnv K Pose MS) (p : IcpParams K) (init : Pose)
    (h : List (IterEvent K Pose)) (e : IterEvent K Pose) : Prop where
  iter : e.iter = h.length
  poseIn : e.poseIn = poseBefore init h h.length
  matched : ∃ ms, runMatchers env.matchers h.length e.poseIn env.freshMS = .ok (ms, e.pairings)
  noPairings : e.stop = some .noPairings ↔ e.pairings.size = 0
  solverRun : e.solver = none ↔ e.pairings.size = 0
  solverError : e.stop = some .solverError ↔ ∃ s, e.solver = some (false, s)
  stalled : e.stop = some .stalled ↔
    ∃ s, e.solver = some (true, s) ∧ B h h.length s.pose
  checkpoint : e.stop = some .qualityCheckpointFailed ↔
      ∃ s, e.solver = some (true, s) ∧ ¬ B h h.length s.pose ∧
        CheckpointFails env p h.length s.pose e.pairings
  hook : e.stop = some .hookRequest ↔
      ∃ s, e.solver = some (true, s) ∧ ¬ B h h.length s.pose ∧
        ¬ CheckpointFails env p h.length s.pose e.pairings ∧ HookStops env h.length e.pairings s
  noOther : e.stop ≠ some .undefined ∧ e.stop ≠ some .maxIterations

theorem genuine_append (ops : PoseOps K Pose) (env : IcpEnv K Pose MS) (p : IcpParams K) (init : Pose)
    (hops : StallRule ops p init B) (h : List (IterEvent K Pose)) (e : IterEvent K Pose)
    (hg : GenuineBy B env p init h) (hall : ∀ e ∈ h, e.stop = none)
    (hn : NewEvent B env p init h e) : GenuineBy B env p init (h ++ [e]) := by
  have key : ∀ (k : Nat) (e' : IterEvent K Pose), (h ++ [e])[k]? = some e' →
      (k < h.length ∧ h[k]? = some e') ∨ (k = h.length ∧ e' = e) := by
    intro k e' hk
    rw [List.getElem?_append] at hk
    split at hk
    · left; exact ⟨by assumption, hk⟩
    · right
      have hk' : k - h.length = 0 := by
        by_contra hc
        have : 1 ≤ k - h.length := by omega
        rw [List.getElem?_eq_none (by simpa using this)] at hk
        cases hk
      rw [hk'] at hk
      simp at hk
      exact ⟨by omega, hk.symm⟩
  constructor
  · intro k e' hk
    rcases key k e' hk with ⟨hl, hk⟩ | ⟨rfl, rfl⟩
    · exact hg.iter k e' hk
    · exact hn.iter
  · intro k e' hk
    rcases key k e' hk with ⟨hl, hk⟩ | ⟨rfl, rfl⟩
    · rw [poseBefore_append_lt _ _ _ _ hl.le]; exact hg.poseIn k e' hk
    · rw [poseBefore_append_lt _ _ _ _ le_rfl]; exact hn.poseIn
  · intro k e' hk
    rcases key k e' hk with ⟨hl, hk⟩ | ⟨rfl, rfl⟩
    · exact hg.matched k e' hk
    · exact hn.matched
  · intro k e' hk hlt
    rcases key k e' hk with ⟨hl, hk⟩ | ⟨rfl, rfl⟩
    · exact hall e' (List.mem_of_getElem? hk)
    · simp at hlt
  · intro k e' hk
    rcases key k e' hk with ⟨hl, hk⟩ | ⟨rfl, rfl⟩
    · exact hg.noPairings k e' hk
    · exact hn.noPairings
  · intro k e' hk
    rcases key k e' hk with ⟨hl, hk⟩ | ⟨rfl, rfl⟩
    · exact hg.solverRun k e' hk
    · exact hn.solverRun
  · intro k e' hk
    rcases key k e' hk with ⟨hl, hk⟩ | ⟨rfl, rfl⟩
    · exact hg.solverError k e' hk
    · exact hn.solverError
  · intro k e' hk
    rcases key k e' hk with ⟨hl, hk⟩ | ⟨rfl, rfl⟩
    · rw [hg.stalled k e' hk]; simp only [hops.app h e k hl.le]
    · rw [hn.stalled]; simp only [hops.app h e' _ le_rfl]
  · intro k e' hk
    rcases key k e' hk with ⟨hl, hk⟩ | ⟨rfl, rfl⟩
    · rw [hg.checkpoint k e' hk]; simp only [hops.app h e k hl.le]
    · rw [hn.checkpoint]; simp only [hops.app h e' _ le_rfl]
  · intro k e' hk
    rcases key k e' hk with ⟨hl, hk⟩ | ⟨rfl, rfl⟩
    · rw [hg.hook k e' hk]; simp only [hops.app h e k hl.le]
    · rw [hn.hook]; simp only [hops.app h e' _ le_rfl]
  · intro k e' hk
    rcases key k e' hk with ⟨hl, hk⟩ | ⟨rfl, rfl⟩
    · exact hg.noOther k e' hk
    · exact hn.noOther

/-- Loop invariant -/
structure LInv (B : List (IterEvent K Pose) → Nat → Pose → Prop) (env : IcpEnv K Pose MS) (p : IcpParams K) (init : Pose)
    (one : K) (hasLog : Bool) (s : LoopState K Pose) : Prop where
  n : s.n = s.trace.length
  sol : s.sol = (lastSolved s.trace).getD ⟨init, one⟩
  prs : s.pairings = lastPairings s.trace
  prev : s.prev = s.sol.pose
  prev2 : s.prev2 = if s.trace.length = 0 then none
    else some (poseBefore init s.trace (s.trace.length - 1))
  all : ∀ e ∈ s.trace, e.stop = none ∧ ∃ sol, e.solver = some (true, sol)
  gen : GenuineBy B env p init s.trace
  log : s.log = if hasLog then some (loggedIterations p s.trace) else none

/-- State of affairs after a break -/
structure LEnd (B : List (IterEvent K Pose) → Nat → Pose → Prop) (env : IcpEnv K Pose MS) (p : IcpParams K) (init : Pose)
    (one : K) (hasLog : Bool) (s : LoopState K Pose) (r : Reason) : Prop where
  n : s.n + 1 = s.trace.length
  last : ∃ e, s.trace.getLast? = some e ∧ e.stop = some r ∧
    (e.solver = none ∧ s.sol = (lastSolved s.trace).getD ⟨init, one⟩ ∨ ∃ b, e.solver = some (b, s.sol))
  prs : s.pairings = lastPairings s.trace
  gen : GenuineBy B env p init s.trace
  log : s.log = if hasLog then some (loggedIterations p s.trace) else none

theorem poseBefore_length (init : Pose) (one : K) (h : List (IterEvent K Pose)) :
    poseBefore init h h.length = ((lastSolved h).getD ⟨init, one⟩).pose := by
  unfold poseBefore
  rw [List.take_length]
  cases lastSolved h <;> rfl

theorem checkpointFails_iff (env : IcpEnv K Pose MS) (p : IcpParams K) (n : Nat) (pose : Pose)
    (prs : Pairings K) (b : Bool) (hb : checkpointFails env p n pose prs = .ok b) :
    b = true ↔ CheckpointFails env p n pose prs := by
  unfold checkpointFails at hb
  unfold CheckpointFails
  cases hl : p.qualityCheckpoints.lookup n with
  | none => rw [hl] at hb; simp at hb; subst hb; simp
  | some q =>
    rw [hl] at hb
    simp only [Outcome.bind_eq_ok] at hb
    obtain ⟨v, hv, hb⟩ := hb
    simp at hb
    subst hb
    simp only [decide_eq_true_eq, Option.some.injEq]
    constructor
    · intro h; exact ⟨q, v, rfl, hv, h⟩
    · rintro ⟨q', v', rfl, hv', h⟩
      rw [hv] at hv'; cases hv'; exact h

theorem hookStops_iff (env : IcpEnv K Pose MS) (n : Nat) (prs : Pairings K) (sol : Sol K Pose) :
    hookStops env n prs sol = true ↔ HookStops env n prs sol := by
  unfold hookStops HookStops
  cases env.hook <;> simp

theorem logged_append (p : IcpParams K) (h : List (IterEvent K Pose)) (e : IterEvent K Pose) :
    loggedIterations p (h ++ [e]) = loggedIterations p h ++ loggedIterations p [e] := by
  simp [loggedIterations, List.filterMap_append]

theorem saveDetails_spec (p : IcpParams K) (n : Nat) (hasLog : Bool) (h : List (IterEvent K Pose))
    (st : Bool) (sol : Sol K Pose) (prs : Pairings K) (pin : Pose) (r : Option Reason)
    (log log' : Option (List (Nat × Pose × Pairings K)))
    (hr : r = some .stalled ↔ st = true)
    (hlog : log = if hasLog then some (loggedIterations p h) else none)
    (hs : saveDetails p n st sol.pose prs log = .ok log') :
    log' = if hasLog then some (loggedIterations p (h ++ [⟨n, pin, prs, some (true, sol), r⟩])) else none := by
  rw [logged_append]
  unfold saveDetails at hs
  have hcond : (p.saveIterationDetails &&
      (decide (p.decimationIterationDetails = 0) ||
       decide (n % p.decimationIterationDetails = 0) || st)) = true ↔
      (p.saveIterationDetails = true ∧
         (p.decimationIterationDetails = 0 ∨ p.decimationIterationDetails ∣ n ∨
          r = some .stalled)) := by
    rw [hr]
    simp [Bool.and_eq_true, Bool.or_eq_true, Nat.dvd_iff_mod_eq_zero, or_assoc]
  split at hs
  · rename_i hc
    have hc' := hcond.mp hc
    subst hlog
    cases hasLog
    · simp at hs
    · simp at hs
      subst hs
      simp [loggedIterations, hc']
  · rename_i hc
    have hc' : ¬ (p.saveIterationDetails = true ∧
         (p.decimationIterationDetails = 0 ∨ p.decimationIterationDetails ∣ n ∨
          r = some .stalled)) := fun h => hc (hcond.mpr h)
    simp at hs
    subst hs
    rw [hlog]
    have hnil : loggedIterations p [⟨n, pin, prs, some (true, sol), r⟩] = [] := by
      unfold loggedIterations
      rw [List.filterMap_cons]
      simp only [List.filterMap_nil]
      rw [if_neg hc']
    rw [hnil, List.append_nil]

theorem body_spec (ops : PoseOps K Pose) (env : IcpEnv K Pose MS) (p : IcpParams K) (init : Pose)
    (one : K) (hasLog : Bool)
    (hops : StallRule ops p init B)
    (s : LoopState K Pose) (hI : LInv B env p init one hasLog s)
    (s' : LoopState K Pose) (brk : Option Reason)
    (hb : icpBody ops env p init s = .ok (s', brk)) :
    s'.n = s.n ∧
    (brk = none → LInv B env p init one hasLog { s' with n := s.n + 1 }) ∧
    (∀ r, brk = some r → LEnd B env p init one hasLog { s' with reason := r } r) := by
  unfold icpBody at hb
  rw [Outcome.bind_eq_ok] at hb
  obtain ⟨⟨ms, prs⟩, hm, hb⟩ := hb
  have hsolpose : s.sol.pose = poseBefore init s.trace s.trace.length := by
    rw [poseBefore_length init one, ← hI.sol]
  have hallstop : ∀ e ∈ s.trace, e.stop = none := fun e he => (hI.all e he).1
  rw [hI.n] at hm
  simp only at hb
  split at hb
  · -- no pairings
    rename_i hemp
    have hsz := (Props.isEmpty_iff_size prs).mp hemp
    simp only [Outcome.ok.injEq, Prod.mk.injEq] at hb
    obtain ⟨rfl, rfl⟩ := hb
    refine ⟨rfl, by simp, ?_⟩
    rintro r hr
    cases hr
    refine ⟨by simp [hI.n], ⟨_, List.getLast?_concat .., rfl, Or.inl ⟨rfl, ?_⟩⟩, ?_, ?_, ?_⟩
    · simp only [lastSolved_append]; exact hI.sol
    · rw [lastPairings_append]
    · refine genuine_append ops env p init hops s.trace _ hI.gen hallstop ?_
      refine ⟨hI.n, hsolpose, ⟨ms, hm⟩, ?_, ?_, ?_, ?_, ?_, ?_, ?_⟩ <;> simp [hsz]
    · rw [hI.log, logged_append]; simp [loggedIterations]
  · rename_i hemp
    have hsz : prs.size ≠ 0 := fun h => hemp ((Props.isEmpty_iff_size prs).mpr h)
    rw [Outcome.bind_eq_ok] at hb
    obtain ⟨⟨okb, sol, fin⟩, hsv, hb⟩ := hb
    simp only at hb
    cases okb with
    | false =>
      simp only [Bool.not_false, if_true, Outcome.ok.injEq, Prod.mk.injEq] at hb
      obtain ⟨rfl, rfl⟩ := hb
      refine ⟨rfl, by simp, ?_⟩
      rintro r hr
      cases hr
      refine ⟨by simp [hI.n], ⟨_, List.getLast?_concat .., rfl, Or.inr ⟨false, rfl⟩⟩, ?_, ?_, ?_⟩
      · rw [lastPairings_append]
      · refine genuine_append ops env p init hops s.trace _ hI.gen hallstop ?_
        refine ⟨hI.n, hsolpose, ⟨ms, hm⟩, ?_, ?_, ?_, ?_, ?_, ?_, ?_⟩ <;> simp [hsz]
      · rw [hI.log, logged_append]; simp [loggedIterations]
    | true =>
      simp only [Bool.not_true, Bool.false_eq_true, if_false] at hb
      rw [Outcome.bind_eq_ok] at hb
      obtain ⟨log, hlog, hb⟩ := hb
      have hst := isStalled_iff hops s.trace sol.pose s.prev s.prev2
        (by rw [hI.prev]; exact hsolpose) hI.prev2
      split at hb
      · -- stalled
        rename_i hstl
        have hbm := hst.mp hstl
        simp only [Outcome.ok.injEq, Prod.mk.injEq] at hb
        obtain ⟨rfl, rfl⟩ := hb
        refine ⟨rfl, by simp, ?_⟩
        rintro r hr
        cases hr
        refine ⟨by simp [hI.n], ⟨_, List.getLast?_concat .., rfl, Or.inr ⟨true, rfl⟩⟩, ?_, ?_, ?_⟩
        · rw [lastPairings_append]
        · refine genuine_append ops env p init hops s.trace _ hI.gen hallstop ?_
          refine ⟨hI.n, hsolpose, ⟨ms, hm⟩, ?_, ?_, ?_, ?_, ?_, ?_, ?_⟩ <;> simp [hsz, hbm]
        · exact saveDetails_spec p s.n hasLog s.trace _ sol prs s.sol.pose _ s.log log (by simp [hstl]) hI.log hlog
      · rename_i hstl
        have hbm : ¬ B s.trace s.trace.length sol.pose := fun h => hstl (hst.mpr h)
        rw [Outcome.bind_eq_ok] at hb
        obtain ⟨bad, hbad, hb⟩ := hb
        have hcf := checkpointFails_iff env p s.n sol.pose prs bad hbad
        rw [hI.n] at hcf
        split at hb
        · rename_i hbt
          have hcf' := hcf.mp hbt
          simp only [Outcome.ok.injEq, Prod.mk.injEq] at hb
          obtain ⟨rfl, rfl⟩ := hb
          refine ⟨rfl, by simp, ?_⟩
          rintro r hr
          cases hr
          refine ⟨by simp [hI.n], ⟨_, List.getLast?_concat .., rfl, Or.inr ⟨true, rfl⟩⟩, ?_, ?_, ?_⟩
          · rw [lastPairings_append]
          · refine genuine_append ops env p init hops s.trace _ hI.gen hallstop ?_
            refine ⟨hI.n, hsolpose, ⟨ms, hm⟩, ?_, ?_, ?_, ?_, ?_, ?_, ?_⟩ <;> simp [hsz, hbm, hcf']
          · exact saveDetails_spec p s.n hasLog s.trace _ sol prs s.sol.pose _ s.log log (by simp [hstl]) hI.log hlog
        · rename_i hbt
          have hcf' : ¬ CheckpointFails env p s.trace.length sol.pose prs := fun h => hbt (hcf.mpr h)
          have hhk := hookStops_iff env s.n prs sol
          rw [hI.n] at hhk hb
          split at hb
          · rename_i hht
            have hhk' := hhk.mp hht
            simp only [Outcome.ok.injEq, Prod.mk.injEq] at hb
            obtain ⟨rfl, rfl⟩ := hb
            refine ⟨hI.n.symm, by simp, ?_⟩
            rintro r hr
            cases hr
            refine ⟨by simp [hI.n], ⟨_, List.getLast?_concat .., rfl, Or.inr ⟨true, rfl⟩⟩, ?_, ?_, ?_⟩
            · rw [lastPairings_append]
            · refine genuine_append ops env p init hops s.trace _ hI.gen hallstop ?_
              refine ⟨rfl, hsolpose, ⟨ms, hm⟩, ?_, ?_, ?_, ?_, ?_, ?_, ?_⟩ <;> simp [hsz, hbm, hcf', hhk']
            · rw [hI.n] at hlog
              exact saveDetails_spec p _ hasLog s.trace _ sol prs s.sol.pose _ s.log log (by simp [hstl]) hI.log hlog
          · rename_i hht
            have hhk' : ¬ HookStops env s.trace.length prs sol := fun h => hht (hhk.mpr h)
            simp only [Outcome.ok.injEq, Prod.mk.injEq] at hb
            obtain ⟨rfl, rfl⟩ := hb
            refine ⟨hI.n.symm, ?_, by simp⟩
            intro _
            refine ⟨by simp [hI.n], ?_, ?_, rfl, ?_, ?_, ?_, ?_⟩
            · simp only [lastSolved_append]; rfl
            · simp only [lastPairings_append]
            · simp only [List.length_append, List.length_cons, List.length_nil]
              rw [if_neg (by omega)]
              rw [poseBefore_append_lt _ _ _ _ (by omega), hI.prev, hsolpose]; rfl
            · intro e he
              rcases List.mem_append.mp he with he | he
              · exact hI.all e he
              · simp at he; subst he; exact ⟨rfl, sol, rfl⟩
            · refine genuine_append ops env p init hops s.trace _ hI.gen hallstop ?_
              refine ⟨rfl, hsolpose, ⟨ms, hm⟩, ?_, ?_, ?_, ?_, ?_, ?_, ?_⟩ <;> simp [hsz, hbm, hcf', hhk']
            · rw [hI.n] at hlog
              exact saveDetails_spec p _ hasLog s.trace _ sol prs s.sol.pose _ s.log log (by simp [hstl]) hI.log hlog

theorem loop_spec (ops : PoseOps K Pose) (env : IcpEnv K Pose MS) (p : IcpParams K) (init : Pose)
    (one : K) (hasLog : Bool)
    (hops : StallRule ops p init B)
    (fuel : Nat) (s : LoopState K Pose) (hI : LInv B env p init one hasLog s)
    (s' : LoopState K Pose) (hb : icpLoop ops env p init fuel s = .ok s') :
    (LInv B env p init one hasLog s' ∧ s'.n = s.n + fuel) ∨
    (LEnd B env p init one hasLog s' s'.reason ∧ s'.n < s.n + fuel) := by
  induction fuel generalizing s with
  | zero => simp [icpLoop] at hb; subst hb; left; exact ⟨hI, rfl⟩
  | succ fuel ih =>
    rw [icpLoop, Outcome.bind_eq_ok] at hb
    obtain ⟨⟨s1, brk⟩, h1, hb⟩ := hb
    obtain ⟨hn, hnone, hsome⟩ := body_spec ops env p init one hasLog hops s hI s1 brk h1
    cases brk with
    | none =>
      simp only at hb
      rcases ih _ (hnone rfl) hb with ⟨h, h'⟩ | ⟨h, h'⟩
      · left; exact ⟨h, by simp at h'; omega⟩
      · right; exact ⟨h, by simp at h'; omega⟩
    | some r =>
      simp only [Outcome.ok.injEq] at hb
      subst hb
      right
      exact ⟨hsome r rfl, by simp [hn]⟩

theorem init_inv (env : IcpEnv K Pose MS) (p : IcpParams K) (init : Pose)
    (one : K) (hasLog : Bool) :
    LInv B env p init one hasLog
      { n := 0, sol := ⟨init, one⟩, pairings := {}, prev := init, prev2 := none, lastCorr := none,
        fin := [], log := if hasLog then some [] else none,
        reason := .undefined, trace := [] } := by
  refine ⟨rfl, rfl, rfl, rfl, rfl, by simp, ?_, ?_⟩
  · constructor <;> intro k e hk <;> simp at hk
  · cases hasLog <;> rfl

/-- The whole of `align`: the history is genuine and the result is read off it. -/
theorem align_spec (ops : PoseOps K Pose) (env : IcpEnv K Pose MS) (p : IcpParams K) (init : Pose)
    (one : K) (wantsLog : Bool)
    (hops : StallRule ops p init B)
    (r : IcpResult K Pose) (h : align ops env p init one wantsLog = .ok r) :
    GenuineBy B env p init r.trace ∧
    r.pairings = lastPairings r.trace ∧
    r.log = (if wantsLog || p.generateDebugFiles then some (loggedIterations p r.trace) else none) ∧
    evaluateQuality env.quality r.nIterations true r.pose r.pairings = .ok r.quality ∧
    ((r.reason = .maxIterations ∧ r.nIterations = p.maxIterations ∧ r.trace.length = p.maxIterations ∧
        (∀ e ∈ r.trace, e.stop = none) ∧
        (⟨r.pose, r.scale⟩ : Sol K Pose) = (lastSolved r.trace).getD ⟨init, one⟩) ∨
     (r.nIterations < p.maxIterations ∧ r.trace.length = r.nIterations + 1 ∧
       ∃ e, r.trace.getLast? = some e ∧ e.stop = some r.reason ∧
        ((e.solver = none ∧ (⟨r.pose, r.scale⟩ : Sol K Pose) = (lastSolved r.trace).getD ⟨init, one⟩) ∨
          ∃ b, e.solver = some (b, ⟨r.pose, r.scale⟩)))) := by
  unfold align at h
  simp only [Outcome.bind_def, Outcome.bind_eq_ok, Outcome.assert_eq_ok] at h
  obtain ⟨_, _, _, _, s, hs, q, hq, h⟩ := h
  split at h
  · cases h
  · simp only [Outcome.pure_def, Outcome.ok.injEq] at h
    subst h
    simp only
    rcases loop_spec ops env p init one (wantsLog || p.generateDebugFiles) hops p.maxIterations _
      (init_inv (B := B) env p init one (wantsLog || p.generateDebugFiles)) s hs with ⟨hI, hn⟩ | ⟨hE, hn⟩
    · simp only [Nat.zero_add] at hn
      refine ⟨hI.gen, hI.prs, hI.log, hq, Or.inl ⟨?_, hn, ?_, ?_, ?_⟩⟩
      · rw [if_pos (by omega)]
      · rw [← hI.n]; exact hn
      · exact fun e he => (hI.all e he).1
      · exact hI.sol
    · simp only [Nat.zero_add] at hn
      refine ⟨hE.gen, hE.prs, hE.log, hq, Or.inr ⟨hn, hE.n.symm, ?_⟩⟩
      rw [if_neg (by omega)]
      exact hE.last
end
end Verif.Lemmas

namespace Verif.Lemmas
open Verif Verif.Spec
variable {K Pose MS : Type} [LT K] [DecidableLT K] [Zero K] [Add K] [Mul K] [Div K] [Neg K]
  {B : List (IterEvent K Pose) → Nat → Pose → Prop}

/-- the last event and the result -/
theorem last_event (ops : PoseOps K Pose) (env : IcpEnv K Pose MS) (p : IcpParams K) (init : Pose)
    (one : K) (wantsLog : Bool)
    (hops : StallRule ops p init B)
    (r : IcpResult K Pose) (h : align ops env p init one wantsLog = .ok r)
    (k : Nat) (e : IterEvent K Pose) (hk : r.trace[k]? = some e) (re : Reason) (hst : e.stop = some re) :
    r.reason = re ∧ k = r.nIterations ∧ e.pairings = r.pairings ∧
      ∀ b s, e.solver = some (b, s) → s = ⟨r.pose, r.scale⟩ := by
  obtain ⟨hg, hp, -, -, hcase⟩ := align_spec ops env p init one wantsLog hops r h
  have hkl : k < r.trace.length := by
    by_contra hc
    rw [List.getElem?_eq_none (by omega)] at hk; cases hk
  have hlast : k + 1 = r.trace.length := by
    by_contra hc
    have := hg.onlyLast k e hk (by omega)
    rw [this] at hst; cases hst
  rcases hcase with ⟨-, -, -, hall, -⟩ | ⟨-, hl, e', he', hs', hsol⟩
  · have := hall e (List.mem_of_getElem? hk)
    rw [this] at hst; cases hst
  · have hk' : r.trace[r.trace.length - 1]? = some e' := by
      rw [← List.getLast?_eq_getElem?]; exact he'
    have : r.trace.length - 1 = k := by omega
    rw [this, hk] at hk'
    cases hk'
    rw [hst] at hs'
    refine ⟨by simpa using hs'.symm, by omega, ?_, ?_⟩
    · rw [hp]; simp [lastPairings, he']
    · intro b s hbs
      rcases hsol with ⟨hn, -⟩ | ⟨b', hb⟩
      · rw [hbs] at hn; cases hn
      · rw [hb] at hbs; cases hbs; rfl

theorem get_last (ops : PoseOps K Pose) (env : IcpEnv K Pose MS) (p : IcpParams K) (init : Pose)
    (one : K) (wantsLog : Bool)
    (hops : StallRule ops p init B)
    (r : IcpResult K Pose) (h : align ops env p init one wantsLog = .ok r)
    (hr : r.reason ≠ .maxIterations) :
    ∃ e, r.trace[r.nIterations]? = some e ∧ e.stop = some r.reason := by
  obtain ⟨hg, hp, -, -, hcase⟩ := align_spec ops env p init one wantsLog hops r h
  rcases hcase with ⟨hm, -⟩ | ⟨-, hl, e, he, hs, -⟩
  · exact absurd hm hr
  · refine ⟨e, ?_, hs⟩
    rw [← he, List.getLast?_eq_getElem?, hl]; rfl

theorem align_checkpoint (ops : PoseOps K Pose) (env : IcpEnv K Pose MS) (p : IcpParams K) (init : Pose)
    (one : K) (wantsLog : Bool)
    (hops : StallRule ops p init B)
    (r : IcpResult K Pose) (h : align ops env p init one wantsLog = .ok r) :
    (r.reason = .qualityCheckpointFailed →
      CheckpointFails env p r.nIterations r.pose r.pairings) ∧
    (∀ k e s, r.trace[k]? = some e → e.solver = some (true, s) →
      ¬ B r.trace k s.pose → CheckpointFails env p k s.pose e.pairings →
      r.reason = .qualityCheckpointFailed ∧ k = r.nIterations ∧ s.pose = r.pose ∧
        e.pairings = r.pairings) := by
  obtain ⟨hg, -⟩ := align_spec ops env p init one wantsLog hops r h
  constructor
  · intro hr
    obtain ⟨e, hk, hs⟩ := get_last ops env p init one wantsLog hops r h (by simp [hr])
    obtain ⟨s, hs', -, hcf⟩ := (hg.checkpoint _ e hk).mp (by rw [hs, hr])
    obtain ⟨-, -, hpr, hsol⟩ := last_event ops env p init one wantsLog hops r h _ e hk _ hs
    have := hsol _ _ hs'
    subst this
    rw [← hpr]; exact hcf
  · intro k e s hk hs hbm hcf
    have hst := (hg.checkpoint k e hk).mpr ⟨s, hs, hbm, hcf⟩
    obtain ⟨h1, h2, h3, h4⟩ := last_event ops env p init one wantsLog hops r h _ e hk _ hst
    have := h4 _ _ hs
    subst this
    exact ⟨h1, h2, rfl, h3⟩

theorem align_hook (ops : PoseOps K Pose) (env : IcpEnv K Pose MS) (p : IcpParams K) (init : Pose)
    (one : K) (wantsLog : Bool)
    (hops : StallRule ops p init B)
    (r : IcpResult K Pose) (h : align ops env p init one wantsLog = .ok r) :
    (r.reason = .hookRequest → HookStops env r.nIterations r.pairings ⟨r.pose, r.scale⟩) ∧
    (∀ k e s, r.trace[k]? = some e → e.solver = some (true, s) →
      ¬ B r.trace k s.pose → ¬ CheckpointFails env p k s.pose e.pairings →
      HookStops env k e.pairings s →
      r.reason = .hookRequest ∧ k = r.nIterations ∧ s = ⟨r.pose, r.scale⟩ ∧ e.pairings = r.pairings) := by
  obtain ⟨hg, -⟩ := align_spec ops env p init one wantsLog hops r h
  constructor
  · intro hr
    obtain ⟨e, hk, hs⟩ := get_last ops env p init one wantsLog hops r h (by simp [hr])
    obtain ⟨s, hs', -, -, hh⟩ := (hg.hook _ e hk).mp (by rw [hs, hr])
    obtain ⟨-, -, hpr, hsol⟩ := last_event ops env p init one wantsLog hops r h _ e hk _ hs
    have := hsol _ _ hs'
    subst this
    rw [← hpr]; exact hh
  · intro k e s hk hs hbm hcf hh
    have hst := (hg.hook k e hk).mpr ⟨s, hs, hbm, hcf, hh⟩
    obtain ⟨h1, h2, h3, h4⟩ := last_event ops env p init one wantsLog hops r h _ e hk _ hst
    have := h4 _ _ hs
    subst this
    exact ⟨h1, h2, rfl, h3⟩

theorem body_no_ub (ops : PoseOps K Pose) (env : IcpEnv K Pose MS) (p : IcpParams K) (init : Pose)
    (hm : ∀ n pose, runMatchers env.matchers n pose env.freshMS ≠ .ub)
    (hs : ∀ prs out sc fin, runSolvers ops.tnorm env.solvers prs out sc fin ≠ .ub)
    (hq : ∀ n b pose prs, evaluateQuality env.quality n b pose prs ≠ .ub)
    (s : LoopState K Pose) (hlog : p.saveIterationDetails = true → s.log.isSome = true) :
    icpBody ops env p init s ≠ .ub ∧
    ∀ s' b, icpBody ops env p init s = .ok (s', b) → (s.log.isSome = true → s'.log.isSome = true) := by
  unfold icpBody
  cases h1 : runMatchers env.matchers s.n s.sol.pose env.freshMS with
  | ub => exact absurd h1 (hm _ _)
  | throw => simp
  | ok v =>
    obtain ⟨ms, prs⟩ := v
    simp only [Outcome.bind]
    split
    · refine ⟨by simp, ?_⟩
      intro s' b hb
      simp only [Outcome.ok.injEq, Prod.mk.injEq] at hb
      obtain ⟨rfl, -⟩ := hb
      exact id
    · generalize hsc : (SolverCtx.mk (some s.n) (some s.sol.pose) (some (ops.sub s.sol.pose init)) s.lastCorr) = sc
      cases h2 : runSolvers ops.tnorm env.solvers prs s.sol sc s.fin with
      | ub => exact absurd h2 (hs _ _ _ _)
      | throw => simp
      | ok v =>
        obtain ⟨okb, sol, fin⟩ := v
        simp only
        split
        · refine ⟨by simp, ?_⟩
          intro s' b hb
          simp only [Outcome.ok.injEq, Prod.mk.injEq] at hb
          obtain ⟨rfl, -⟩ := hb
          exact id
        · cases h3 : saveDetails p s.n (isStalled p (stepNorms ops sol.pose s.prev s.prev2)) sol.pose prs s.log with
          | ub =>
            exfalso
            unfold saveDetails at h3
            split at h3
            · rename_i hc
              simp only [Bool.and_eq_true] at hc
              have := hlog hc.1
              cases hl : s.log with
              | none => rw [hl] at this; simp at this
              | some l => rw [hl] at h3; simp at h3
            · simp at h3
          | throw => simp
          | ok log =>
            have hl2 : s.log.isSome = true → log.isSome = true := by
              intro hsome
              unfold saveDetails at h3
              split at h3
              · cases hl : s.log with
                | none => rw [hl] at h3; simp at h3
                | some l => rw [hl] at h3; simp at h3; subst h3; rfl
              · simp at h3; subst h3; exact hsome
            simp only
            split
            · refine ⟨by simp, ?_⟩
              intro s' b hb
              simp only [Outcome.ok.injEq, Prod.mk.injEq] at hb
              obtain ⟨rfl, -⟩ := hb
              exact hl2
            · cases h4 : checkpointFails env p s.n sol.pose prs with
              | ub =>
                exfalso
                unfold checkpointFails at h4
                split at h4
                · simp at h4
                · rw [Outcome.bind_eq_ub] at h4
                  rcases h4 with h4 | ⟨a, -, h4⟩
                  · exact hq _ _ _ _ h4
                  · simp at h4
              | throw => simp
              | ok bad =>
                simp only
                split
                · refine ⟨by simp, ?_⟩
                  intro s' b hb
                  simp only [Outcome.ok.injEq, Prod.mk.injEq] at hb
                  obtain ⟨rfl, -⟩ := hb
                  exact hl2
                · split
                  · refine ⟨by simp, ?_⟩
                    intro s' b hb
                    simp only [Outcome.ok.injEq, Prod.mk.injEq] at hb
                    obtain ⟨rfl, -⟩ := hb
                    exact hl2
                  · refine ⟨by simp, ?_⟩
                    intro s' b hb
                    simp only [Outcome.ok.injEq, Prod.mk.injEq] at hb
                    obtain ⟨rfl, -⟩ := hb
                    exact hl2

theorem loop_no_ub (ops : PoseOps K Pose) (env : IcpEnv K Pose MS) (p : IcpParams K) (init : Pose)
    (hm : ∀ n pose, runMatchers env.matchers n pose env.freshMS ≠ .ub)
    (hs : ∀ prs out sc fin, runSolvers ops.tnorm env.solvers prs out sc fin ≠ .ub)
    (hq : ∀ n b pose prs, evaluateQuality env.quality n b pose prs ≠ .ub)
    (fuel : Nat) (s : LoopState K Pose) (hlog : p.saveIterationDetails = true → s.log.isSome = true) :
    icpLoop ops env p init fuel s ≠ .ub := by
  induction fuel generalizing s with
  | zero => simp [icpLoop]
  | succ fuel ih =>
    obtain ⟨h1, h2⟩ := body_no_ub ops env p init hm hs hq s hlog
    rw [icpLoop]
    intro hc
    rw [Outcome.bind_eq_ub] at hc
    rcases hc with hc | ⟨⟨s', b⟩, hb, hc⟩
    · exact h1 hc
    · cases b with
      | none => exact ih { s' with n := s.n + 1 } (fun h => h2 s' none hb (hlog h)) hc
      | some r => simp at hc

theorem align_no_ub (ops : PoseOps K Pose) (env : IcpEnv K Pose MS) (p : IcpParams K) (init : Pose)
    (one : K) (wantsLog : Bool)
    (hm : ∀ n pose, runMatchers env.matchers n pose env.freshMS ≠ .ub)
    (hs : ∀ prs out sc fin, runSolvers ops.tnorm env.solvers prs out sc fin ≠ .ub)
    (hq : ∀ n b pose prs, evaluateQuality env.quality n b pose prs ≠ .ub)
    (hlog : p.saveIterationDetails = true → wantsLog = true ∨ p.generateDebugFiles = true)
    (hmax : 0 < p.maxIterations) :
    align ops env p init one wantsLog ≠ .ub := by
  intro hc
  unfold align at hc
  simp only [Outcome.bind_def, Outcome.bind_eq_ub, Outcome.assert_ne_ub, false_or] at hc
  obtain ⟨_, -, _, -, hc⟩ := hc
  rcases hc with hc | ⟨s, -, hc⟩
  · refine loop_no_ub ops env p init hm hs hq _ _ ?_ hc
    intro h
    have := hlog h
    simp [this]
  · rcases hc with hc | ⟨q, -, hc⟩
    · exact hq _ _ _ _ hc
    · simp [hmax] at hc

theorem align_details_ub (ops : PoseOps K Pose) (env : IcpEnv K Pose MS) (p : IcpParams K)
    (init : Pose) (one : K)
    (hne : env.matchers ≠ [] ∧ env.solvers ≠ [] ∧ env.quality ≠ [])
    (hmap : env.globalEmpty = false ∧ env.localEmpty = false)
    (hd : p.saveIterationDetails = true) (hg : p.generateDebugFiles = false)
    (hmax : 0 < p.maxIterations)
    (ms : MS) (prs : Pairings K) (hm : runMatchers env.matchers 0 init env.freshMS = .ok (ms, prs))
    (hsz : prs.size ≠ 0) (sol : Sol K Pose) (fin : List Nat)
    (hs : runSolvers ops.tnorm env.solvers prs ⟨init, one⟩
      ⟨some 0, some init, some (ops.sub init init), none⟩ [] = .ok (true, sol, fin)) :
    align ops env p init one false = .ub := by
  obtain ⟨m, hm'⟩ : ∃ m, p.maxIterations = m + 1 := ⟨p.maxIterations - 1, by omega⟩
  have hemp : prs.isEmpty = false := by
    by_contra hc
    simp at hc
    exact hsz ((Props.isEmpty_iff_size prs).mp hc)
  simp [align, hmap, Outcome.assert, hm', icpLoop, hne, hg, icpBody, hm, hemp, hs, saveDetails, hd]

end Verif.Lemmas

namespace Verif.Lemmas
open Verif Verif.Spec
variable {K Pose MS : Type} [Field K] [LinearOrder K] [IsStrictOrderedRing K]

theorem absK_eq (x : K) : absK x = |x| := by
  unfold absK
  split
  · rename_i h; exact (abs_of_neg h).symm
  · rename_i h; exact (abs_of_nonneg (not_lt.mp h)).symm

theorem keepMin_abs_lt {a b t : K} (ha : 0 ≤ a) (hb : 0 ≤ b) : absK (keepMin a b) < t ↔ absK a < t ∨ absK b < t := by
  have : keepMin a b = min a b := by
    unfold keepMin
    split_ifs with h
    · exact (min_eq_right h.le).symm
    · exact (min_eq_left (not_lt.mp h)).symm
  rw [this, absK_eq, absK_eq, absK_eq, abs_of_nonneg ha, abs_of_nonneg hb, abs_of_nonneg (le_min ha hb), min_lt_iff]

theorem stallRule (ops : PoseOps K Pose) (p : IcpParams K) (init : Pose)
    (hops : ∀ d, 0 ≤ (ops.logNorms d).1 ∧ 0 ≤ (ops.logNorms d).2) : StallRule ops p init (BarelyMoved ops p init) where
  rule h cur := by
    unfold isStalled stepNorms BarelyMoved SmallT SmallR
    by_cases hl : h.length = 0
    · simp [hl]
    · simp only [hl, if_false, Bool.and_eq_true, decide_eq_true_eq]
      rw [keepMin_abs_lt (hops _).1 (hops _).1, keepMin_abs_lt (hops _).2 (hops _).2]
      have : 0 < h.length := by omega
      simp only [this, true_and]
  app h e k hk c := barelyMoved_append_lt ops p init h e k hk c

end Verif.Lemmas
