import Mathlib.Algebra.Order.Field.Basic
import Mathlib.Algebra.Order.Floor.Defs
import Mathlib.Algebra.Order.Round
import Verif.Model.AMap
import Verif.Model.Outcome
/-
`LocalVelocityBuffer`: /repo/mp2p_icp_map/src/LocalVelocityBuffer.cpp and the header of the same name.
Times are elements of an ordered field (the code uses `double`).
-/
namespace Verif
namespace Vel

variable {K V P : Type}

/-- `class LocalVelocityBuffer`, LocalVelocityBuffer.h:33-103: parameters, the two sample maps, the reference time. -/
structure Buf (K V : Type) where
  maxWindow : K
  tol : K
  lin : AMap K V := []
  ang : AMap K V := []
  refTime : K

section
variable [Field K] [LinearOrder K]

/-- `delete_too_old_entries`, LocalVelocityBuffer.cpp:36-62: erase the entries with `now - t > max_time_window`, in both
maps. -/
def Buf.deleteOld (b : Buf K V) (now : K) : Buf K V :=
  { b with
    lin := b.lin.filter fun e => !decide (now - e.1 > b.maxWindow)
    ang := b.ang.filter fun e => !decide (now - e.1 > b.maxWindow) }

/-- `add_linear_velocity`, LocalVelocityBuffer.cpp:22-27. -/
def Buf.addLinear (b : Buf K V) (t : K) (v : V) : Buf K V := ({ b with lin := AMap.set b.lin t v }).deleteOld t
/-- `add_angular_velocity`, LocalVelocityBuffer.cpp:29-34. -/
def Buf.addAngular (b : Buf K V) (t : K) (v : V) : Buf K V := ({ b with ang := AMap.set b.ang t v }).deleteOld t
/-- `clear`, LocalVelocityBuffer.h:57-61 -/
def Buf.clear (b : Buf K V) : Buf K V := { b with lin := [], ang := [] }
/-- `set_reference_zero_time`, LocalVelocityBuffer.h:77 -/
def Buf.setRef (b : Buf K V) (t : K) : Buf K V := { b with refTime := t }

/-- The calls a user can make on a buffer. -/
inductive Op (K V : Type) where
  | lin (t : K) (v : V)
  | ang (t : K) (v : V)
  | ref (t : K)
  | clear

def Buf.apply (b : Buf K V) : Op K V → Buf K V
  | .lin t v => b.addLinear t v
  | .ang t v => b.addAngular t v
  | .ref t => b.setRef t
  | .clear => b.clear

/-- a history of calls -/
def Buf.run (b : Buf K V) (ops : List (Op K V)) : Buf K V := ops.foldl Buf.apply b

/-! ### pose reconstruction -/

/-- `mrpt::containers::find_closest` (external): the key closest to `x`; on a tie the smaller key. -/
def findClosest (m : AMap K V) (x : K) : Option K :=
  match m with
  | [] => none
  | e :: m => some (m.foldl (fun best e => if |e.1 - x| < |best - x| then e.1 else best) e.1)

/-- `find_closest_with_tolerance` (external): none if the closest key is farther than `tol`. -/
def findClosestTol (m : AMap K V) (x tol : K) : Option K :=
  match findClosest m x with
  | none => none
  | some t => if |t - x| > tol then none else some t

/-- What the integration uses from MRPT and from the constants: `integ p w dt` = `p * exp(w dt)`, the identity, and
`INTERPOLATION_TIME_STEP_SEC` (line 89). -/
structure IntegEnv (K V P : Type) where
  one : P
  integ : P → V → K → P
  step : K
  /-- `1e-3 * INTERPOLATION_TIME_STEP_SEC` -/
  eps : K

/-- The integration state: pose, `prev_stamp`, trajectory. -/
structure IState (K P : Type) where
  pose : P
  prev : K
  traj : AMap K P

/-- The inner `for (;;)` of the forward pass, LocalVelocityBuffer.cpp:105-121, at most `fuel` times; `none` if it has not
left the loop by then. -/
def innerFwd (e : IntegEnv K V P) (ref tgt : K) (w : V) : Nat → IState K P → Option (IState K P)
  | 0, _ => none
  | fuel + 1, s =>
    let dt := min (tgt - s.prev) e.step
    let prev := s.prev + dt
    if |dt| < e.eps then some { s with prev := prev }
    else
      let pose := e.integ s.pose w dt
      innerFwd e ref tgt w fuel { pose := pose, prev := prev, traj := AMap.set s.traj (prev - ref) pose }

/-- The inner loop of the backward pass, LocalVelocityBuffer.cpp:140-156. -/
def innerBwd (e : IntegEnv K V P) (ref tgt : K) (w : V) : Nat → IState K P → Option (IState K P)
  | 0, _ => none
  | fuel + 1, s =>
    let dt := -(min (|tgt - s.prev|) e.step)
    let prev := s.prev + dt
    if |dt| < e.eps then some { s with prev := prev }
    else
      let pose := e.integ s.pose w dt
      innerBwd e ref tgt w fuel { pose := pose, prev := prev, traj := AMap.set s.traj (prev - ref) pose }

/-- result of a pass with a bound on the inner loops: `none` = a loop did not end within the bound -/
abbrev Fueled (α : Type) := Option (Outcome α)

/-- The forward pass, LocalVelocityBuffer.cpp:91-122.  `it` is the iterator: the samples from it on, `[]` being
`end()`.  `++it; it->first` dereferences `end()` when `it` was the last sample. -/
def forward (e : IntegEnv K V P) (fuel : Nat) (ref half : K) : List (K × V) → IState K P → Fueled (IState K P)
  | [], s => some (.ok s)
  | [_], s => if s.prev - ref < half then some .ub else some (.ok s)
  | cur :: nxt :: rest, s =>
    if s.prev - ref < half then
      match innerFwd e ref nxt.1 cur.2 fuel s with
      | none => none
      | some s' => forward e fuel ref half (nxt :: rest) s'
    else some (.ok s)

/-- The backward pass, LocalVelocityBuffer.cpp:123-157.  `cur` is the current sample, `before` the earlier ones,
latest first; the loop breaks at `begin()`. -/
def backward (e : IntegEnv K V P) (fuel : Nat) (ref half : K) : K × V → List (K × V) → IState K P → Option (IState K P)
  | _, [], s => some s
  | cur, nxt :: rest, s =>
    if s.prev - ref > -half then
      match innerBwd e ref nxt.1 cur.2 fuel s with
      | none => none
      | some s' => backward e fuel ref half nxt rest s'
    else some s

/-- `reconstruct_poses_around_reference_time`, LocalVelocityBuffer.cpp:64-160. -/
def reconstruct (e : IntegEnv K V P) (fuel : Nat) (b : Buf K V) (half : K) : Fueled (AMap K P) :=
  match findClosestTol b.ang b.refTime b.tol with
  | none => some (.ok [])
  | some ref =>
    -- it_ref = angular_velocities_.find(ref_time)
    match b.ang.dropWhile fun s => decide (s.1 < ref) with
    | [] => some .ub
    | cur :: rest =>
      match forward e fuel ref half (cur :: rest) ⟨e.one, cur.1, AMap.set [] 0 e.one⟩ with
      | none => none
      | some .ub => some .ub
      | some .throw => some .throw
      | some (.ok s) =>
        match backward e fuel ref half cur (b.ang.takeWhile fun s => decide (s.1 < ref)).reverse
            ⟨e.one, cur.1, s.traj⟩ with
        | none => none
        | some s => some (.ok s.traj)
end

/-! ### YAML -/

/-- The YAML dictionary written by `toYAML`; an absent key is `none`.  Stamps are printed with `%.09lf`: here the
nearest integer number of nanoseconds.  Simplification: the entries of a map are ordered by that number (the real
map by its text). -/
structure YState (K : Type) (T : Type) where
  refTime : K
  lin : Option (AMap Int T)
  ang : Option (AMap Int T)
structure YDoc (K : Type) (T : Type) where
  /-- `parameters`: max_time_window, tolerance_search_stamp -/
  params : Option (K × K)
  state : Option (YState K T)

section
variable [Field K] [LinearOrder K] [IsStrictOrderedRing K] [FloorRing K] {T : Type}

/-- `mrpt::format("%.09lf", time)` as a number of nanoseconds -/
def stampKey (t : K) : Int := round (t * 10 ^ 9)
/-- `std::stod` of it -/
def stampOf (n : Int) : K := (n : K) / 10 ^ 9

/-- loops of `toYAML`, LocalVelocityBuffer.cpp:176-193: one assignment per sample -/
def dump (fmt : V → T) (m : AMap K V) : Option (AMap Int T) :=
  if m.isEmpty then none else some (m.foldl (fun y e => AMap.set y (stampKey e.1) (fmt e.2)) [])

/-- `toYAML`, LocalVelocityBuffer.cpp:162-198; `fmt` is the text of a vector (MRPT). -/
def toYAML (fmt : V → T) (b : Buf K V) : YDoc K T where
  params := some (b.maxWindow, b.tol)
  state := some { refTime := b.refTime, lin := dump fmt b.lin, ang := dump fmt b.ang }

/-- loops of `fromYAML`, LocalVelocityBuffer.cpp:221-237: `map[stod(key)] = FromString(text)` -/
def restoreLoop (parse : T → Outcome V) : AMap K V → List (Int × T) → Outcome (AMap K V)
  | acc, [] => .ok acc
  | acc, e :: l => (parse e.2).bind fun v => restoreLoop parse (AMap.set acc (stampOf e.1) v) l
def restore (parse : T → Outcome V) (o : Option (AMap Int T)) : Outcome (AMap K V) :=
  match o with
  | none => .ok []
  | some l => restoreLoop parse [] l

/-- LocalVelocityBuffer.cpp:207-212 -/
def loadParams (b : Buf K V) : Option (K × K) → Buf K V
  | none => b
  | some p => { b with maxWindow := p.1, tol := p.2 }
/-- `fromYAML`, LocalVelocityBuffer.cpp:200-239 (the node being a map). -/
def fromYAML (parse : T → Outcome V) (b : Buf K V) (d : YDoc K T) : Outcome (Buf K V) :=
  let b := loadParams b d.params
  match d.state with
  | none => .ok b
  | some s =>
    (restore parse s.lin).bind fun l => (restore parse s.ang).bind fun a =>
    .ok { b with refTime := s.refTime, lin := l, ang := a }
end

end Vel
end Verif
