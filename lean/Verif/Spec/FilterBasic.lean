import Verif.Model.FilterBasic
/-
What the partition, intensity and time filters promise.
-/
namespace Verif
namespace Flt
variable {K X : Type}

/-- `m'` is `m` with the points of `c` distributed: every output layer `n` (created empty, of the class of the input, if new)
has its earlier points followed by exactly the points of `c` that `target` sends to `n`, in the order of `c`; every other
layer is as before. -/
def Partitioned [Zero K] (c : Cloud K) (outs : List String) (target : FPt K → String) (m m' : FMap K X) : Prop :=
  ∀ n, if n ∈ outs ∧ n ≠ "" then
      ∃ c0, (m.get n = some (.pts c0) ∨ (m.get n = none ∧ c0 = { c with pts := [] })) ∧
        m'.get n = some (.pts { c0 with pts := c0.pts ++ ((c.pts.filter fun p => target p = n).map (conform c0)) })
    else m'.get n = m.get n

/-- No output name is taken by a layer that is not a point cloud. -/
def Openable (outs : List String) (m : FMap K X) : Prop :=
  ∀ n ∈ outs, n ≠ "" → ∀ x, m.get n ≠ some (.other x)

end Flt
end Verif

namespace Verif
namespace Flt
variable {K X : Type}

/-- A cloud with `f` applied to its intensities and nothing else changed. -/
def mapI (f : K → K) (c : Cloud K) : Cloud K := { c with pts := c.pts.map fun q => { q with i := f q.i } }
/-- A cloud with `f` applied to its time stamps and nothing else changed. -/
def mapT (f : K → K) (c : Cloud K) : Cloud K := { c with pts := c.pts.map fun q => { q with t := f q.t } }

/-- `[lo, hi]` is the range of the values `l`: both ends are values, all values are within. -/
def IsRange [LinearOrder K] (l : List K) (lo hi : K) : Prop := lo ∈ l ∧ hi ∈ l ∧ ∀ v ∈ l, lo ≤ v ∧ v ≤ hi

/-- The range remembered in `mem` contains `v`. -/
def NormMem.Covers [LinearOrder K] (mem : NormMem K) (v : K) : Prop := ∃ a b, mem.lo = some a ∧ mem.hi = some b ∧ a ≤ v ∧ v ≤ b

/-- The remembered range has its ends among the values `l`: either nothing seen and nothing remembered, or the range of `l`. -/
def NormMem.Of [LinearOrder K] (mem : NormMem K) (l : List K) : Prop :=
  (l = [] ∧ mem.lo = none ∧ mem.hi = none) ∨ ∃ a b, mem.lo = some a ∧ mem.hi = some b ∧ IsRange l a b

/-- A history of calls of one intensity filter on a sequence of maps: the maps it left and its memory; calls that throw leave the
memory as it was. -/
def normHistory [Field K] [LinearOrder K] (p : NormParams K) : NormMem K → List (FMap K X) → NormMem K
  | mem, [] => mem
  | mem, m :: ms =>
    match filterNormalize p mem m with
    | .ok r => normHistory p r.2 ms
    | _ => normHistory p mem ms

/-- The intensities of a layer, as far as the filter takes them. -/
def intensities [Field K] [LinearOrder K] (p : NormParams K) (m : FMap K X) : List K :=
  match m.get p.layer with
  | some (.pts c) => if c.hasI then c.pts.map (·.i) else []
  | _ => []

end Flt
end Verif
