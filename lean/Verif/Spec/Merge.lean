import Verif.Model.Merge
/-
What a merge should do, on the contents of the maps.
-/
namespace Verif
namespace Merge
variable {Pose Pt Ln Pl X : Type}

/-- the contents of layer `name` of a map, if it has it -/
def content (mem : Mem Pt X) (m : MMap Ln Pl) (name : String) : Option (Layer (List Pt) X) := (m.layers.get name).map mem.heap

/-- the relative pose (if any) applied to a layer -/
def moved (G : Geo Pose Pt Ln) (pose : Option Pose) : Layer (List Pt) X → Layer (List Pt) X
  | .pts p => .pts (p.map (G.pt (pose.getD G.one)))
  | .other x => .other x

/-- the relative pose (if any) applied to lines -/
def movedLines (G : Geo Pose Pt Ln) (pose : Option Pose) (l : List Ln) : List Ln :=
  match pose with | none => l | some q => l.map (G.ln q)

/-- the two contents of a layer put together -/
def joined (G : Geo Pose Pt Ln) (pose : Option Pose) :
    Option (Layer (List Pt) X) → Option (Layer (List Pt) X) → Option (Layer (List Pt) X)
  | a, none => a
  | none, some b => some (moved G pose b)
  | some (.pts p), some (.pts q) => some (.pts (p ++ q.map (G.pt (pose.getD G.one))))
  | some a, some _ => some a

/-- A map as the library builds it: each layer its own object, in allocated memory. -/
structure Own (mem : Mem Pt X) (m : MMap Ln Pl) : Prop where
  sorted : m.layers.Sorted
  alloc : ∀ e ∈ m.layers, e.2 < mem.next
  inj : ∀ e ∈ m.layers, ∀ e' ∈ m.layers, e.2 = e'.2 → e = e'

/-- no layer object belongs to both maps -/
def Disjoint (a b : MMap Ln Pl) : Prop := ∀ e ∈ a.layers, ∀ e' ∈ b.layers, e.2 ≠ e'.2

/-- The merge of layers `a` (here) and `b` (there) is possible: same name, both clouds; with a pose, only clouds. -/
def Mergeable (pose : Option Pose) : Option (Layer (List Pt) X) → Option (Layer (List Pt) X) → Prop
  | _, none => True
  | none, some (.pts _) => True
  | none, some (.other _) => pose = none
  | some (.pts _), some (.pts _) => True
  | some _, some _ => False

/-- How many points the map's layer of that name holds: those of a cloud, none of any other kind, none if there is no
such layer. -/
def pointsIn (mem : Mem Pt X) (m : MMap Ln Pl) (name : String) : Nat :=
  match content mem m name with
  | some (.pts p) => p.length
  | _ => 0

end Merge
end Verif
