import Verif.Model.Sm2mm
/-
Selected keyframes, and the calls made on generators and filters.
-/
namespace Verif
namespace Sm
variable {K B O M : Type}

/-- keyframes `start..end`, both included, as far as they exist -/
def Selected {α : Type} (sm : List α) (start endIdx : Option Nat) : List α :=
  (sm.zipIdx.filter fun p => decide (start.getD 0 ≤ p.2) && (endIdx.all fun e => decide (p.2 ≤ e))).map Prod.fst

/-- Calls. -/
inductive Ev (O : Type) where
  | gen (k : Nat) (o : O)
  | filter (k : Nat)
  | final (k : Nat)
  deriving DecidableEq

/-- An environment whose map is the list of the calls made: `ng` generators, the k-th handling the observations with `h k`, `nf` filters,
`nl` final filters. -/
def tracing (ng nf nl : Nat) (h : Nat → O → Bool) : SmEnv K Unit O (List (Ev O)) where
  gens := (List.range ng).map fun k => fun _ _ o m => .ok (h k o, m ++ [.gen k o])
  filters := (List.range nf).map fun k => fun _ m => .ok (m ++ [.filter k])
  finals := (List.range nl).map fun k => fun _ m => .ok (m ++ [.final k])
  onComment _ b := b
  empty := []

/-- The calls an observation causes: each generator once, in order; then, if one of them handled it, each filter once, in order. -/
def obsCalls (ng nf : Nat) (h : Nat → O → Bool) (o : O) : List (Ev O) :=
  (List.range ng).map (fun k => Ev.gen k o) ++ if (List.range ng).any (fun k => h k o) then (List.range nf).map .filter else []

/-- Keyframes without null pointers, with their observations. -/
def KF.full (kf : KF K O) (os : List O) : Prop := kf.pose.isSome = true ∧ kf.sf = some (os.map some)

end Sm
end Verif
