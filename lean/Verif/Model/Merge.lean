import Mathlib.Logic.Function.Basic
import Verif.Model.Pipeline
/-
`metric_map_t::merge_with`, `clear`, `empty`, `size`: /repo/mp2p_icp_map/src/metricmap.cpp:437-556.
A `metric_map_t` holds shared pointers to its layers, so layers live in a heap.
-/
namespace Verif
namespace Merge

/-- lines, planes, and the named layers by address; metricmap.h:63-85 (identifiers and georeferencing left out: these
functions do not touch them). -/
structure MMap (Ln Pl : Type) where
  lines : List Ln := []
  planes : List Pl := []
  layers : AMap String Nat := []

/-- the layers in memory; a point cloud is the list of its points (all their channels), any other map is opaque -/
structure Mem (Pt X : Type) where
  heap : Nat → Layer (List Pt) X
  next : Nat

/-- MRPT's pose composition on points and lines (`composePoint`, `rotateVector`); `one` is the identity -/
structure Geo (Pose Pt Ln : Type) where
  one : Pose
  pt : Pose → Pt → Pt
  ln : Pose → Ln → Ln
  pt_one : ∀ p, pt one p = p

variable {Pose Pt Ln Pl X : Type}

/-- state of the merge: memory and the receiver -/
structure MState (Pt X Ln Pl : Type) where
  mem : Mem Pt X
  map : MMap Ln Pl

/-- One layer, metricmap.cpp:487-529.  The flag tells that an exception was thrown. -/
def mergeLayer (G : Geo Pose Pt Ln) (pose : Option Pose) (s : MState Pt X Ln Pl) (name : String) (addr : Nat) :
    Outcome (MState Pt X Ln Pl × Bool) :=
  match s.map.layers.get name with
  | none =>
    -- duplicateGetSmartPtr: a new object
    let mem := { s.mem with heap := Function.update s.mem.heap s.mem.next (s.mem.heap addr), next := s.mem.next + 1 }
    let map := { s.map with layers := s.map.layers.set name s.mem.next }
    match pose, mem.heap s.mem.next with
    | none, _ => .ok (⟨mem, map⟩, false)
    | some q, .pts p => .ok (⟨{ mem with heap := Function.update mem.heap s.mem.next (.pts (p.map (G.pt q))) }, map⟩, false)
    | some _, .other _ => .ok (⟨mem, map⟩, true)
  | some a =>
    match s.mem.heap a, s.mem.heap addr with
    | .pts p, .pts p' =>
      .ok (⟨{ s.mem with heap := Function.update s.mem.heap a (.pts (p ++ p'.map (G.pt (pose.getD G.one)))) }, s.map⟩, false)
    -- the cast of the other map gives a null pointer, dereferenced by insertAnotherMap
    | .pts _, .other _ => .ub
    | .other _, _ => .ok (s, true)

/-- The loop over the layers of the other map, metricmap.cpp:487-529. -/
def mergeLoop (G : Geo Pose Pt Ln) (pose : Option Pose) : List (String × Nat) → MState Pt X Ln Pl →
    Outcome (MState Pt X Ln Pl × Bool)
  | [], s => .ok (s, false)
  | e :: l, s => (mergeLayer G pose s e.1 e.2).bind fun r => if r.2 then .ok r else mergeLoop G pose l r.1

/-- `merge_with`, metricmap.cpp:442-530, the two maps being different objects (merging a map with itself would copy
lines through invalidated iterators).  With a pose, the first plane throws ("To-do"), after the lines were appended. -/
def mergeWith (G : Geo Pose Pt Ln) (mem : Mem Pt X) (this other : MMap Ln Pl) (pose : Option Pose) :
    Outcome (MState Pt X Ln Pl × Bool) :=
  let lines := this.lines ++ match pose with | none => other.lines | some q => other.lines.map (G.ln q)
  if pose.isSome && !other.planes.isEmpty then .ok (⟨mem, { this with lines := lines }⟩, true)
  else mergeLoop G pose other.layers ⟨mem, { this with lines := lines, planes := this.planes ++ other.planes }⟩

/-- `empty`, metricmap.cpp:437 -/
def MMap.isEmpty (m : MMap Ln Pl) : Bool := m.layers.isEmpty && m.lines.isEmpty && m.planes.isEmpty

def Layer.pointCount : Layer (List Pt) X → Nat
  | .pts p => p.length
  | .other _ => 0
/-- `size_points_only`, metricmap.cpp:545-556 -/
def sizePoints (mem : Mem Pt X) (m : MMap Ln Pl) : Nat :=
  m.layers.foldl (fun n e => n + Layer.pointCount (mem.heap e.2)) 0
/-- `size`, metricmap.cpp:534-543 -/
def size (mem : Mem Pt X) (m : MMap Ln Pl) : Nat := m.lines.length + m.planes.length + sizePoints mem m

end Merge
end Verif
