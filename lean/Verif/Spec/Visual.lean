import Verif.Model.Visual
import Mathlib.Order.Bounds.Basic
/-
What a 3D view of a map, and of pairings, should show.
-/
namespace Verif
namespace Viz
variable {K C : Type} [Field K] [LinearOrder K]

/-- The limits of the colour map: those given; otherwise the extremes of the coordinate over the cloud, or, if a percentile is
given, the limits which leave out the outliers. -/
def LimitsAre (e : Ext K) (m : ColorMode K) (i : Fin 3) (pts : List (P3 K)) (lo hi : K) : Prop :=
  ∃ a b, IsLeast {x | ∃ q ∈ pts, x = coordOf i q} a ∧ IsGreatest {x | ∃ q ∈ pts, x = coordOf i q} b ∧
    (∀ x, m.lo = some x → lo = x) ∧ (∀ x, m.hi = some x → hi = x) ∧
    (m.lo = none → m.percentile = none → lo = a) ∧ (m.hi = none → m.percentile = none → hi = b) ∧
    (∀ c, m.percentile = some c →
      (m.lo = none → lo = (e.limits (pts.map (coordOf i)) a (if b = a then a + 1 / 10 else b) c).1) ∧
      (m.hi = none → hi = (e.limits (pts.map (coordOf i)) a (if b = a then a + 1 / 10 else b) c).2))

/-- The object with another point size, if it is a cloud. -/
def withSize (s : K) : Obj K C → Obj K C
  | .cloud pts _ c => .cloud pts s c
  | .coloured pts _ c => .coloured pts s c
  | o => o

/-- A cloud as documented: nothing if it is empty; one colour, or its own colours, or coloured by a coordinate. -/
def PtsDrawn (e : Ext K) (p : LayerP K C) (l : Layer K C) (pts : List (P3 K)) (objs : List (Obj K C)) : Prop :=
  match p.mode with
  | none => (pts = [] ∧ objs = []) ∨ (pts ≠ [] ∧ objs = [.cloud pts p.size p.color])
  | some m =>
    (m.keep = true ∧ objs = (l.own l.free).map (withSize p.size)) ∨
    (m.keep = false ∧ pts = [] ∧ objs = []) ∨
    (m.keep = false ∧ pts ≠ [] ∧ ∃ i lo hi, m.coord = some i ∧ LimitsAre e m i pts lo hi ∧
      objs = [.coloured pts p.size (.byCoord i lo hi m.map)])

/-- A layer as documented. -/
def LayerDrawn (e : Ext K) (p : LayerP K C) (l : Layer K C) (objs : List (Obj K C)) : Prop :=
  match l.kind with
  | .null => False
  | .points pts => PtsDrawn e p l pts objs
  | .voxels occ =>
    (p.voxelsAsPoints = true ∧ PtsDrawn e p l occ objs) ∨ (p.voxelsAsPoints = false ∧ objs = l.own p.freeSpace)
  | .other => objs = (l.own l.free).map (withSize p.size)

/-- The layer is shown by the map's own renderer, with a point size to be applied. -/
def OwnColours (p : LayerP K C) (l : Layer K C) : Prop :=
  l.kind = .other ∨ ((∃ m, p.mode = some m ∧ m.keep = true) ∧
    ((∃ pts, l.kind = .points pts) ∨ (∃ occ, l.kind = .voxels occ ∧ p.voxelsAsPoints = true)))

/-- Only the free-space flag of a voxel map drawn as such is set. -/
def LayerAfter (p : LayerP K C) (l l' : Layer K C) : Prop :=
  l'.kind = l.kind ∧ l'.own = l.own ∧
  ((∃ occ, l.kind = .voxels occ) ∧ p.voxelsAsPoints = false → l'.free = p.freeSpace) ∧
  (¬ ((∃ occ, l.kind = .voxels occ) ∧ p.voxelsAsPoints = false) → l'.free = l.free)

/-- The parameters of a layer, `none`: not shown. -/
def paramsFor (p : PointsP K C) (n : String) : Option (LayerP K C) :=
  if p.visible then (if p.perLayer = [] then some p.allLayers else AMap.get p.perLayer n) else none

/-- The layers to show, in the order of their names. -/
def shownNames (p : PointsP K C) (ls : AMap String (Layer K C)) : List String :=
  if p.visible then (if p.perLayer = [] then ls.map (·.1) else p.perLayer.map (·.1)) else []

/-- The objects of all the layers to show. -/
def PointsDrawn (e : Ext K) (p : PointsP K C) (ls : AMap String (Layer K C)) (objs : List (Obj K C)) : Prop :=
  ∃ each : List (List (Obj K C)), objs = each.flatten ∧
    List.Forall₂ (fun n ob => ∃ q l, paramsFor p n = some q ∧ AMap.get ls n = some l ∧ LayerDrawn e q l ob)
      (shownNames p ls) each

/-- One grid per plane. -/
def PlanesDrawn (p : PlanesP K C) (pls : List (PlanePatch K)) (objs : List (Obj K C)) : Prop :=
  (p.visible = false ∧ objs = []) ∨
  (p.visible = true ∧ List.Forall₂ (fun pl o => o = .grid p.halfWidth p.spacing p.color pl) pls objs)

/-- The segment of a line: centred at its base point, along its director. -/
def SegmentOf (len : K) (l : Line3 K) (s : P3 K × P3 K) : Prop :=
  s.1 + s.2 = l.pBase + l.pBase ∧ s.2 - s.1 = P3.smul len l.director

/-- One segment per line, of the individual lengths if given, in one object; none if they are not visible. -/
def LinesDrawn (p : LinesP K C) (ls : List (Line3 K)) (objs : List (Obj K C)) : Prop :=
  (p.visible = false ∧ objs = []) ∨
  (p.visible = true ∧ ∃ segs, objs = [.segments p.color segs] ∧ segs.length = ls.length ∧
    ∀ i l s, ls[i]? = some l → segs[i]? = some s →
      SegmentOf (match p.lengths with | some v => v.getD i p.length | none => p.length) l s)

/-- Equal but for the sizes of points. -/
def SameButSize (a b : List (Obj K C)) : Prop := a.map (withSize 0) = b.map (withSize 0)

/-- The layers afterwards. -/
def LayersAfter (p : PointsP K C) (ls ls' : AMap String (Layer K C)) : Prop :=
  (∀ n, AMap.get ls n = none → AMap.get ls' n = none) ∧
  (∀ n l, AMap.get ls n = some l → ∃ l', AMap.get ls' n = some l' ∧
    (∀ q, paramsFor p n = some q → LayerAfter q l l') ∧ (paramsFor p n = none → l' = l))

/-! ### pairings -/

/-- One segment per pairing, from the local point, moved by the pose, to its counterpart. -/
def Linked (T : Pose3 K) {P : Type} (pt tgt : P → P3 K) (ps : List P) (segs : List (P3 K × P3 K)) : Prop :=
  List.Forall₂ (fun q s => s = (T.composePoint (pt q), tgt q)) ps segs

end Viz
end Verif
