import Verif.Model.Outcome
import Verif.Model.AMap
import Mathlib.Data.String.Basic
/-
`pointcloud_bitfield_t`: /repo/mp2p_icp_map/include/mp2p_icp/pointcloud_bitfield.h:42-134
-/
namespace Verif

/-- `DenseOrSparseBitField`, pointcloud_bitfield.h:46-94.  `std::set<uint64_t>` as the list of its
elements (insertion of a present element changes nothing). -/
structure BitField where
  dense : Option (List Bool) := none
  sparse : List Nat := []
  deriving DecidableEq, Repr

namespace BitField

/-- `assign`, lines 51-67. -/
def assign (_b : BitField) (n : Nat) (dense : Bool) : BitField :=
  if dense then { dense := some (List.replicate n false), sparse := [] }
  else { dense := none, sparse := [] }

/-- `operator[]`, lines 69-76; out of range of the dense vector is undefined behaviour. -/
def get (b : BitField) (i : Nat) : Outcome Bool :=
  match b.dense with
  | some v => match v[i]? with
    | some x => .ok x
    | none => .ub
  | none => .ok (decide (i ∈ b.sparse))

/-- `mark_as_set`, lines 77-87. -/
def mark (b : BitField) (i : Nat) : Outcome BitField :=
  match b.dense with
  | some v => if i < v.length then .ok { b with dense := some (v.set i true) } else .ub
  | none => .ok { b with sparse := if i ∈ b.sparse then b.sparse else i :: b.sparse }

/-- The two operations changing a flag field. -/
inductive Op where
  | assign (n : Nat) (dense : Bool)
  | mark (i : Nat)
  deriving DecidableEq, Repr

/-- Run one operation. -/
def step (b : BitField) : Op → Outcome BitField
  | .assign n d => .ok (b.assign n d)
  | .mark i => b.mark i

/-- Run a sequence of operations. -/
def run (b : BitField) : List Op → Outcome BitField
  | [] => .ok b
  | o :: os => (b.step o).bind fun b' => b'.run os

end BitField

/-- A layer of the map as `initialize_from` sees it: `none` = not capable of nearest-neighbour searches;
otherwise its number of points and whether it has indices (dense). -/
abbrev LayerInfo := Option (Nat × Bool)

/-- First loop of `initialize_from`, lines 109-118. -/
def initFlagsLoop : AMap String LayerInfo → AMap String BitField → AMap String BitField
  | [], f => f
  | (name, none) :: ls, f => have _ := name; initFlagsLoop ls f
  | (name, some (n, d)) :: ls, f => initFlagsLoop ls (f.set name (((f.get name).getD {}).assign n d))

/-- `initialize_from` (the point layers), lines 105-131: then the layers no longer in the map are erased. -/
def initFlags (layers : AMap String LayerInfo) (f : AMap String BitField) : AMap String BitField :=
  (initFlagsLoop layers f).filter fun e => (layers.get e.1).isSome

end Verif
