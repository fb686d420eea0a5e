import Mathlib.Order.Defs.LinearOrder
/-
`std::map<K,V>`: a list of (key, value) pairs in increasing key order.
Models the containers `metric_map_t::layers` (/repo/mp2p_icp_map/include/mp2p_icp/metricmap.h), the sample
buffers of `LocalVelocityBuffer`, etc.
-/
namespace Verif

/-- `std::map<κ,α>` -/
abbrev AMap (κ α : Type) := List (κ × α)

namespace AMap
variable {κ α : Type} [LinearOrder κ]

/-- `m.find(k)` -/
def get (m : AMap κ α) (k : κ) : Option α := (m.find? fun e => decide (e.1 = k)).map (·.2)
/-- `m.erase(k)` -/
def erase (m : AMap κ α) (k : κ) : AMap κ α := m.filter fun e => decide (e.1 ≠ k)
/-- insertion of a new key at its place -/
def insertNew (k : κ) (v : α) : AMap κ α → AMap κ α
  | [] => [(k, v)]
  | e :: m => if k < e.1 then (k, v) :: e :: m else e :: insertNew k v m
/-- `m[k] = v` -/
def set (m : AMap κ α) (k : κ) (v : α) : AMap κ α := insertNew k v (m.erase k)
/-- keys in increasing order, no key twice: invariant of `std::map` -/
def Sorted (m : AMap κ α) : Prop := m.Pairwise fun a b => a.1 < b.1

end AMap
end Verif
