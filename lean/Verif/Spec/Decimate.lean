import Verif.Model.Decimate
/-
What voxel decimation promises.
-/
namespace Verif
namespace Vox
open Flt
variable {K X : Type}

/-! ### for any numbers -/

/-- The column of a voxel. -/
def column (k : Idx) : ℤ × ℤ := (k.1, k.2.1)

/-- The points of one voxel; `key` = the voxel of each point. -/
def pointsIn (key : FPt K → Idx) (input : List (FPt K)) (k : Idx) : List (FPt K) := input.filter fun p => key p = k

/-- `reps`: one representative for each voxel that holds a point of `input`, and nothing else (in any order).  `rep v r`: `r` is a
representative of the points `v` of a voxel. -/
def DecimatedBy (key : FPt K → Idx) (rep : List (FPt K) → FPt K → Prop) (input reps : List (FPt K)) : Prop :=
  ∃ ks : List Idx, ks.Nodup ∧ (∀ k, k ∈ ks ↔ ∃ p ∈ input, key p = k) ∧
    List.Forall₂ (fun k r => rep (pointsIn key input k) r) ks reps

/-- `reps`: one point for each column that holds a point of `input`, at height `z`, with the `x`, `y` of the representative of a
voxel of the column. -/
def FlattenedBy [Zero K] (key : FPt K → Idx) (rep : List (FPt K) → FPt K → Prop) (z : K) (input reps : List (FPt K)) : Prop :=
  ∃ cs : List (ℤ × ℤ), cs.Nodup ∧ (∀ c, c ∈ cs ↔ ∃ p ∈ input, column (key p) = c) ∧
    List.Forall₂ (fun c r => ∃ k q, column k = c ∧ pointsIn key input k ≠ [] ∧ rep (pointsIn key input k) q ∧
      r = ⟨q.x, q.y, z, 0, 0, 0⟩) cs reps

/-- What the filter appends for the clouds it decimates. -/
def OutputBy [Zero K] (key : FPt K → Idx) (rep : List (FPt K) → FPt K → Prop) (f : Option K) (input reps : List (FPt K)) : Prop :=
  match f with
  | none => DecimatedBy key rep input reps
  | some z => FlattenedBy key rep z input reps

/-! ### for numbers without rounding -/
section
variable [Field K] [LinearOrder K] [FloorRing K]

/-- The voxel of a point: each coordinate divided by the side and truncated towards zero. -/
def voxelKey (res : K) (p : FPt K) : Idx := (truncZ (p.x / res), truncZ (p.y / res), truncZ (p.z / res))

/-- 32 bits are enough for an index. -/
def Fits (i : ℤ) : Prop := -2 ^ 31 ≤ i ∧ i < 2 ^ 31

/-- All the indices of the point fit. -/
def InRange (res : K) (p : FPt K) : Prop :=
  res ≠ 0 ∧ Fits (truncZ (p.x / res)) ∧ Fits (truncZ (p.y / res)) ∧ Fits (truncZ (p.z / res))

/-- The points of one voxel. -/
def inVoxel (res : K) (input : List (FPt K)) (k : Idx) : List (FPt K) := input.filter fun p => voxelKey res p = k

/-- The average of some points (no other channels). -/
def average (v : List (FPt K)) : FPt K :=
  ⟨(v.map (·.x)).sum / v.length, (v.map (·.y)).sum / v.length, (v.map (·.z)).sum / v.length, 0, 0, 0⟩

/-- squared distance -/
def dist2 (a b : FPt K) : K := (a.x - b.x) ^ 2 + (a.y - b.y) ^ 2 + (a.z - b.z) ^ 2

/-- `r` is a representative of the points `v` of one voxel. -/
def IsRep (meth : Method) (v : List (FPt K)) (r : FPt K) : Prop :=
  match meth with
  | .firstPoint => v.head? = some r
  | .randomPoint => r ∈ v
  | .closestToAverage => r ∈ v ∧ ∀ q ∈ v, dist2 r (average v) ≤ dist2 q (average v)
  | .voxelAverage => r = average v

/-- `reps`: one representative for each voxel that holds a point of `input`, and nothing else (in any order). -/
def Decimated (res : K) (meth : Method) (input reps : List (FPt K)) : Prop :=
  ∃ ks : List Idx, ks.Nodup ∧ (∀ k, k ∈ ks ↔ ∃ p ∈ input, voxelKey res p = k) ∧
    List.Forall₂ (fun k r => IsRep meth (inVoxel res input k) r) ks reps

/-- `reps`: one point for each column that holds a point of `input`, at height `z`, with the `x`, `y` of the representative of a
voxel of the column. -/
def Flattened (res : K) (meth : Method) (z : K) (input reps : List (FPt K)) : Prop :=
  ∃ cs : List (ℤ × ℤ), cs.Nodup ∧ (∀ c, c ∈ cs ↔ ∃ p ∈ input, column (voxelKey res p) = c) ∧
    List.Forall₂ (fun c r => ∃ k q, column k = c ∧ inVoxel res input k ≠ [] ∧ IsRep meth (inVoxel res input k) q ∧
      r = ⟨q.x, q.y, z, 0, 0, 0⟩) cs reps

/-- What the filter appends for the clouds it decimates. -/
def Output (res : K) (meth : Method) (f : Option K) (input reps : List (FPt K)) : Prop :=
  match f with
  | none => Decimated res meth input reps
  | some z => Flattened res meth z input reps

end

section
variable [Zero K]
/-- What the filter appends for the clouds it passes through. -/
def passed (f : Option K) (ps : List (FPt K)) : List (FPt K) :=
  match f with
  | none => ps
  | some z => ps.map fun p => ⟨p.x, p.y, z, 0, 0, 0⟩

/-- `m'` is `m` with `ps` appended to layer `out` (in the class of that layer; created of class `e` if new), all other layers
untouched. -/
def AppendedTo (out : String) (e : Cloud K) (ps : List (FPt K)) (m m' : FMap K X) : Prop :=
  (∃ c0, (m.get out = some (.pts c0) ∨ (m.get out = none ∧ c0 = e)) ∧
    m'.get out = some (.pts { c0 with pts := c0.pts ++ ps.map (conform c0) })) ∧
  ∀ n, n ≠ out → m'.get n = m.get n
end

end Vox
end Verif
