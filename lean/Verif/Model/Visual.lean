import Mathlib.Data.String.Basic
import Mathlib.Algebra.Order.Field.Basic
import Verif.Model.Linalg
import Verif.Model.AMap
import Verif.Model.Pairings
/-
3D views of a map and of pairings: `metric_map_t::get_visualization` (/repo/mp2p_icp_map/src/metricmap.cpp:180-433,
parameters in /repo/mp2p_icp_map/include/mp2p_icp/render_params.h) and `Pairings::get_visualization`
(/repo/mp2p_icp/src/Pairings.cpp:176-275).
Simplifications: the view is the list of its objects in the order of insertion (no nested sets); objects have the attributes set
by this code only; two layer names never share one map object.
-/
namespace Verif
namespace Viz
variable {K C : Type} [Field K] [LinearOrder K]

/-- colours of a coloured cloud: those of the cloud itself, or by a coordinate between two limits -/
inductive Colouring (K : Type) where
  | original
  | byCoord (axis : Fin 3) (lo hi : K) (map : Nat)
  deriving DecidableEq, Repr

/-- objects of a view -/
inductive Obj (K C : Type) where
  /-- `CGridPlaneXY` placed on a plane patch -/
  | grid (halfWidth spacing : K) (color : C) (pl : PlanePatch K)
  /-- `CTexturedPlane` placed on a plane patch -/
  | patch (half : K) (color : C) (pl : PlanePatch K)
  /-- `CSetOfLines` -/
  | segments (color : C) (segs : List (P3 K × P3 K))
  /-- `CPointCloud` -/
  | cloud (pts : List (P3 K)) (size : K) (color : C)
  /-- `CPointCloudColoured` -/
  | coloured (pts : List (P3 K)) (size : K) (col : Colouring K)
  | other (n : Nat)
  deriving DecidableEq, Repr

/-- `render_params_planes_t`, render_params.h:40-54 -/
structure PlanesP (K C : Type) where
  visible : Bool
  halfWidth : K
  spacing : K
  color : C

/-- `render_params_lines_t`, render_params.h:58-72 -/
structure LinesP (K C : Type) where
  visible : Bool
  color : C
  length : K
  lengths : Option (List K)

/-- `color_mode_t`, render_params.h:81-119 -/
structure ColorMode (K : Type) where
  keep : Bool
  map : Nat
  coord : Option (Fin 3)
  lo : Option K
  hi : Option K
  percentile : Option K

/-- `render_params_point_layer_t`, render_params.h:123-148 -/
structure LayerP (K C : Type) where
  size : K
  color : C
  mode : Option (ColorMode K)
  voxelsAsPoints : Bool
  freeSpace : Bool

/-- `render_params_points_t`, render_params.h:151-172 -/
structure PointsP (K C : Type) where
  visible : Bool
  allLayers : LayerP K C
  perLayer : AMap String (LayerP K C)

/-- `render_params_t`, render_params.h:175-189 -/
structure RenderP (K C : Type) where
  planes : PlanesP K C
  lines : LinesP K C
  points : PointsP K C

/-- class of a layer; occupied voxels (`getOccupiedVoxels`, external) as points -/
inductive Kind (K : Type) where
  | points (pts : List (P3 K))
  | voxels (occ : List (P3 K))
  | other
  | null
  deriving DecidableEq, Repr

/-- a layer: its class, its own renderer (`getVisualizationInto`, external; the flag is `generateFreeVoxels`), the flag -/
structure Layer (K C : Type) where
  kind : Kind K
  own : Bool → List (Obj K C)
  free : Bool

structure VMap (K C : Type) where
  planes : List (PlanePatch K)
  lines : List (Line3 K)
  layers : AMap String (Layer K C)

/-- external: `TPlane::getAsPose3DForcingOrigin` succeeds (the centroid is on the plane); limits which leave out a share of
the values, computed from their histogram (`confidenceIntervalsFromHistogram`) -/
structure Ext (K : Type) where
  poseOk : PlanePatch K → Bool
  limits : List K → K → K → K → K × K

/-- `get_visualization_planes`, metricmap.cpp:194-217 -/
def renderPlanes (e : Ext K) (p : PlanesP K C) : List (PlanePatch K) → Outcome (List (Obj K C))
  | [] => .ok []
  | pl :: l =>
    if p.visible then
      if e.poseOk pl then (renderPlanes e p l).bind fun r => .ok (.grid p.halfWidth p.spacing p.color pl :: r) else .throw
    else .ok []

/-- `get_visualization_lines`, metricmap.cpp:219-237: neither `visible` nor `lengths` is looked at -/
def renderLines (p : LinesP K C) (ls : List (Line3 K)) : Obj K C :=
  .segments p.color (ls.map fun l =>
    (l.pBase - P3.smul (1 / 2 * p.length) l.director, l.pBase + P3.smul (1 / 2 * p.length) l.director))

def coordOf (i : Fin 3) (p : P3 K) : K := if i = 0 then p.x else if i = 1 then p.y else p.z

/-- `boundingBox()` (external), one coordinate of it; the cloud is not empty -/
def bboxCoord (i : Fin 3) : List (P3 K) → K × K
  | [] => (0, 0)
  | p :: l => l.foldl (fun b q => (min b.1 (coordOf i q), max b.2 (coordOf i q))) (coordOf i p, coordOf i p)

/-- metricmap.cpp:341-412: the limits of the colour map -/
def colorLimits (e : Ext K) (m : ColorMode K) (i : Fin 3) (pts : List (P3 K)) : K × K :=
  let bb := if m.lo.isNone || m.hi.isNone then bboxCoord i pts else (0, 0)
  let mm := if m.lo.isNone || m.hi.isNone then
      (match m.percentile with
      | some c => e.limits (pts.map (coordOf i)) bb.1 (if bb.2 = bb.1 then bb.1 + 1 / 10 else bb.2) c
      | none => bb)
    else bb
  (m.lo.getD mm.1, m.hi.getD mm.2)

def Obj.isColoured : Obj K C → Bool
  | .coloured .. => true
  | _ => false

def Obj.isCloud : Obj K C → Bool
  | .cloud .. => true
  | _ => false

def Obj.resize (s : K) : Obj K C → Obj K C
  | .cloud pts _ c => .cloud pts s c
  | .coloured pts _ c => .coloured pts s c
  | o => o

/-- `setPointSize` of the first object which satisfies `f` -/
def resizeFirst (f : Obj K C → Bool) (s : K) : List (Obj K C) → List (Obj K C)
  | [] => []
  | o :: l => if f o then o.resize s :: l else o :: resizeFirst f s l

/-- metricmap.cpp:312-322: own renderer, then the point size for the first coloured cloud of the view, or else for its first
plain cloud -/
def renderOwn (p : LayerP K C) (o : List (Obj K C)) (l : Layer K C) : List (Obj K C) :=
  let o := o ++ l.own l.free
  if o.any Obj.isColoured then resizeFirst Obj.isColoured p.size o
  else if o.any Obj.isCloud then resizeFirst Obj.isCloud p.size o else o

/-- metricmap.cpp:306-431, after the choice of the points -/
def renderPts (e : Ext K) (p : LayerP K C) (o : List (Obj K C)) (l : Layer K C) (pts : List (P3 K)) :
    Outcome (List (Obj K C) × Layer K C) :=
  match p.mode with
  | none => if pts.isEmpty then .ok (o, l) else .ok (o ++ [.cloud pts p.size p.color], l)
  | some m =>
    if m.keep then .ok (renderOwn p o l, l)
    else if pts.isEmpty then .ok (o, l)
    else match m.coord with
      | none => .throw
      | some i =>
        .ok (o ++ [.coloured pts p.size (.byCoord i (colorLimits e m i pts).1 (colorLimits e m i pts).2 m.map)], l)

/-- `get_visualization_map_layer`, metricmap.cpp:270-431: the view and the layer afterwards -/
def renderLayer (e : Ext K) (p : LayerP K C) (o : List (Obj K C)) (l : Layer K C) :
    Outcome (List (Obj K C) × Layer K C) :=
  match l.kind with
  | .null => .ub
  | .other => .ok (renderOwn p o l, l)
  | .points pts => renderPts e p o l pts
  | .voxels occ =>
    if p.voxelsAsPoints then renderPts e p o l occ
    else .ok (o ++ l.own p.freeSpace, { l with free := p.freeSpace })

/-- the loop over `perLayer`, metricmap.cpp:249-262 -/
def renderPerLayer (e : Ext K) : AMap String (LayerP K C) → List (Obj K C) → AMap String (Layer K C) →
    Outcome (List (Obj K C) × AMap String (Layer K C))
  | [], o, ls => .ok (o, ls)
  | (n, p) :: r, o, ls =>
    match AMap.get ls n with
    | none => .throw
    | some l => (renderLayer e p o l).bind fun x => renderPerLayer e r x.1 (AMap.set ls n x.2)

/-- the loop over all layers, metricmap.cpp:266-269 -/
def renderAll (e : Ext K) (p : LayerP K C) : AMap String (Layer K C) → List (Obj K C) →
    Outcome (List (Obj K C) × AMap String (Layer K C))
  | [], o => .ok (o, [])
  | (n, l) :: r, o => (renderLayer e p o l).bind fun x => (renderAll e p r x.1).bind fun y => .ok (y.1, (n, x.2) :: y.2)

/-- `get_visualization_points`, metricmap.cpp:239-273 -/
def renderPoints (e : Ext K) (p : PointsP K C) (o : List (Obj K C)) (ls : AMap String (Layer K C)) :
    Outcome (List (Obj K C) × AMap String (Layer K C)) :=
  if p.visible then
    if p.perLayer.isEmpty then renderAll e p.allLayers ls o else renderPerLayer e p.perLayer o ls
  else .ok (o, ls)

/-- `metric_map_t::get_visualization`, metricmap.cpp:180-192: the view, and the map afterwards (a `const` member function, but
the layers are held by pointer) -/
def view (e : Ext K) (p : RenderP K C) (m : VMap K C) : Outcome (List (Obj K C) × VMap K C) :=
  (renderPlanes e p.planes m.planes).bind fun o =>
  (renderPoints e p.points (o ++ [renderLines p.lines m.lines]) m.layers).bind fun r => .ok (r.1, { m with layers := r.2 })

/-! ### pairings -/

/-- `render_params_pairings_pt2pt_t`, render_params.h:191-198 -/
structure Pt2PtP (C : Type) where
  visible : Bool
  color : C

/-- `render_params_pairings_pt2pl_t`, render_params.h:200-209; `render_params_pairings_pt2ln_t`, render_params.h:211-220
(`color2`, `size`: colour and size of the plane patches, or colour and length of the lines) -/
structure Pt2X (K C : Type) where
  visible : Bool
  color : C
  color2 : C
  size : K

/-- `get_visualization_pt2pt`, Pairings.cpp:192-209 -/
def viewPt2Pt (p : Pt2PtP C) (T : Pose3 K) (ps : List (PtPair K)) : List (Obj K C) :=
  if p.visible then [.segments p.color (ps.map fun q => (T.composePoint q.local, q.global))] else []

/-- the loop of `get_visualization_pt2pl`, Pairings.cpp:222-243; the pose's translation is the centroid -/
def patches (e : Ext K) (p : Pt2X K C) (T : Pose3 K) : List (PtPlPair K) → Outcome (List (Obj K C) × List (P3 K × P3 K))
  | [] => .ok ([], [])
  | q :: l =>
    if e.poseOk q.plGlobal then (patches e p T l).bind fun r =>
      .ok (.patch (1 / 2 * p.size) p.color2 q.plGlobal :: r.1, (T.composePoint q.ptLocal, q.plGlobal.centroid) :: r.2)
    else .throw

/-- `get_visualization_pt2pl`, Pairings.cpp:211-246 -/
def viewPt2Pl (e : Ext K) (p : Pt2X K C) (T : Pose3 K) (ps : List (PtPlPair K)) : Outcome (List (Obj K C)) :=
  if p.visible then (patches e p T ps).bind fun r => .ok (r.1 ++ [.segments p.color r.2]) else .ok []

/-- `get_visualization_pt2ln`, Pairings.cpp:248-275 -/
def viewPt2Ln (p : Pt2X K C) (T : Pose3 K) (ps : List (PtLnPair K)) : List (Obj K C) :=
  if p.visible then
    [.segments p.color (ps.map fun q => (T.composePoint q.ptLocal, q.lnGlobal.pBase)),
     .segments p.color2 (ps.map fun q => (q.lnGlobal.pBase - P3.smul (1 / 2 * p.size) q.lnGlobal.director,
       q.lnGlobal.pBase + P3.smul (1 / 2 * p.size) q.lnGlobal.director))]
  else []

/-- `Pairings::get_visualization`, Pairings.cpp:176-190 -/
def viewPairings (e : Ext K) (p1 : Pt2PtP C) (p2 p3 : Pt2X K C) (T : Pose3 K) (ps : Pairings K) : Outcome (List (Obj K C)) :=
  (viewPt2Pl e p2 T ps.pt2pl).bind fun o => .ok (viewPt2Pt p1 T ps.pt2pt ++ o ++ viewPt2Ln p3 T ps.pt2ln)

end Viz
end Verif
