import Verif.Model.Tools
/-
Specification vocabulary for the command-line tools.
-/
namespace Verif
namespace Tool
variable {P S T G K τ : Type}

/-- a keyframe with its pose moved -/
def moveKey [SMul G P] (g : G) (kf : Key P S T) : Key P S T := { kf with pose := kf.pose.map (g • ·) }

/-- the stamp of a keyframe: that of its first observation with a valid one (see `firstStamp_spec`) -/
def keyStamp (kf : Key P (List (Obs τ)) T) : Option τ := kf.sf.bind firstStamp

/-- cell of a table -/
def Table.cell (d : Table K) (row : Nat) (col : Int) : Option K := d.data[row * d.cols + col.toNat]?

/-- The column is one of the table's. -/
def Table.HasCol (d : Table K) (col : Int) : Prop := 0 ≤ col ∧ col < d.cols

/-- The options of txt2mm name columns of the table; colours are always in the columns 3, 4 and 5. -/
def TxtOpts.ColsIn (o : TxtOpts) (d : Table K) : Prop :=
  d.HasCol o.colX ∧ d.HasCol (o.colX + 2) ∧ (o.format = "xyzi" ∨ o.format = "xyzirt" → d.HasCol o.colI) ∧
  (o.format = "xyzirt" → d.HasCol o.colR ∧ d.HasCol o.colT)

/-- A colour `v` written on the scale of 0 to 255 is the shade `c` on the scale of 0 to 1, fractions being dropped. -/
def Shade [Field K] [LinearOrder K] (v c : K) : Prop :=
  ∃ n : Nat, n ≤ 255 ∧ c * 255 = n ∧ ((n : K) ≤ v ∧ v < n + 1 ∨ n = 0 ∧ -1 < v ∧ v < 0)

/-- The point `p` is row `row` of the table, as far as txt2mm takes it: the position, and the intensity or the colour if the format
has one.  (Rings and times are not taken.) -/
structure RowPoint [Field K] [LinearOrder K] (o : TxtOpts) (d : Table K) (row : Nat) (p : TPt K) : Prop where
  x : d.cell row o.colX = some p.x
  y : d.cell row (o.colX + 1) = some p.y
  z : d.cell row (o.colX + 2) = some p.z
  intensity : o.format = "xyzi" ∨ o.format = "xyzirt" → ∃ v, d.cell row o.colI = some v ∧ p.i = some v
  noIntensity : ¬ (o.format = "xyzi" ∨ o.format = "xyzirt") → p.i = none
  noRing : p.ring = none
  noTime : p.t = none
  plainColour : o.format = "xyzrgb_normalized" → ∃ r g b, d.cell row 3 = some r ∧ d.cell row 4 = some g ∧ d.cell row 5 = some b ∧
    p.rgb = some (r, g, b)
  colour : o.format = "xyzrgb" → ∃ r g b r' g' b', d.cell row 3 = some r ∧ d.cell row 4 = some g ∧ d.cell row 5 = some b ∧
    Shade r r' ∧ Shade g g' ∧ Shade b b' ∧ p.rgb = some (r', g', b')
  noColour : o.format ≠ "xyzrgb" → o.format ≠ "xyzrgb_normalized" → p.rgb = none

end Tool
end Verif
