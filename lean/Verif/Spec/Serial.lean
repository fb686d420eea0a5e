import Verif.Model.Wire
/-
What it means for a serializer to be faithful.  Independent of how the readers and writers are built.
-/
namespace Verif
namespace Serial
open Wire

/-- Reading what `w` wrote for `x`, whatever follows in the stream, gives `x` back and leaves exactly what
follows. -/
def RoundTrip {α : Type} (get : Rd α) (w : Bytes) (x : α) : Prop :=
  ∀ rest, get (w ++ rest) = .ok (x, rest)

/-- A stream cut anywhere inside the object is refused with an exception. -/
def RefusesCut {α : Type} (get : Rd α) (w : Bytes) : Prop :=
  ∀ cut, cut <+: w → cut ≠ w → get cut = .throw

/-- No stream, however corrupt, makes the reader leave the defined behaviour. -/
def Safe {α : Type} (get : Rd α) : Prop := ∀ s, get s ≠ .ub

/-- Both: the written bytes are read back exactly, and nothing shorter is accepted in their place. -/
def Faithful {α : Type} (get : Rd α) (w : Bytes) (x : α) : Prop :=
  RoundTrip get w x ∧ RefusesCut get w

end Serial
end Verif
