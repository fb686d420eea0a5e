import Verif.Model.Pipeline
/-
What the lists built from YAML and the calls of generators should be (C10, C59).
-/
namespace Verif.Spec
open Verif

/-- One enabled entry is turned into an object: plugin loaded (if any), class created, weight read. -/
inductive Built {Reg Y Obj W : Type} (rg : Registry Reg Y Obj) (one : W) :
    Reg → List (YEntry Y W) → List (Obj × W) → Reg → Prop where
  | nil (reg : Reg) : Built rg one reg [] [] reg
  | cons {reg reg1 reg' : Reg} {e : YEntry Y W} {es : List (YEntry Y W)} {o : Obj} {c : String} {y : Y}
      {lst : List (Obj × W)}
      (hp : (e.plugin = none ∧ reg1 = reg) ∨ ∃ m, e.plugin = some m ∧ rg.loadPlugin reg m = .ok reg1)
      (hc : e.cls = some c) (hy : e.params = some y) (ho : rg.create reg1 c y = .ok o)
      (rest : Built rg one reg1 es lst reg') :
      Built rg one reg (e :: es) ((o, e.weight.getD one) :: lst) reg'

/-- Calling generators in order on (generator, observation) pairs: `hs` = their answers. -/
inductive CallsInOrder {O M : Type} :
    List ((O → M → Outcome (Bool × M)) × O) → M → List Bool → M → Prop where
  | nil (m : M) : CallsInOrder [] m [] m
  | cons {g : O → M → Outcome (Bool × M)} {o : O} {rest : List ((O → M → Outcome (Bool × M)) × O)}
      {m m1 m2 : M} {h : Bool} {hs : List Bool} (hg : g o m = .ok (h, m1))
      (hr : CallsInOrder rest m1 hs m2) : CallsInOrder ((g, o) :: rest) m (h :: hs) m2

end Verif.Spec
