import Verif.Model.Velocity
/-
What a velocity buffer should hold, said from the history of calls alone.
-/
namespace Verif
namespace Vel
variable {K V : Type}

/-- the time of a call that inserts a sample -/
def Op.addTime? : Op K V → Option K
  | .lin t _ => some t
  | .ang t _ => some t
  | _ => none

/-- Times of the insertions of a history. -/
def addTimes (ops : List (Op K V)) : List K := ops.filterMap Op.addTime?

/-- Sample `(t,v)` was inserted as a linear velocity, and since then the buffer was not cleared, no other linear
sample was stored at `t`, and no insertion came more than a window later. -/
def LinDue [Sub K] [LE K] (window : K) (ops : List (Op K V)) (t : K) (v : V) : Prop :=
  ∃ pre post, ops = pre ++ .lin t v :: post ∧ (∀ o ∈ post, o ≠ .clear) ∧ (∀ v', .lin t v' ∉ post) ∧
    t - t ≤ window ∧ ∀ now ∈ addTimes post, now - t ≤ window

/-- The same for angular velocities. -/
def AngDue [Sub K] [LE K] (window : K) (ops : List (Op K V)) (t : K) (v : V) : Prop :=
  ∃ pre post, ops = pre ++ .ang t v :: post ∧ (∀ o ∈ post, o ≠ .clear) ∧ (∀ v', .ang t v' ∉ post) ∧
    t - t ≤ window ∧ ∀ now ∈ addTimes post, now - t ≤ window

/-! ### reconstruction -/
section
variable {P : Type} [Field K] [LinearOrder K]

/-- the constants of the code make sense -/
def IntegEnv.Ok (e : IntegEnv K V P) : Prop := 0 < e.eps ∧ e.eps ≤ e.step

/-- consecutive samples at least `eps` apart -/
def Spaced (eps : K) (l : List (K × V)) : Prop := l.IsChain fun a b => eps ≤ b.1 - a.1

/-- integrating the same rate over two consecutive intervals is integrating it over their union -/
def IntegEnv.Additive (e : IntegEnv K V P) (w : V) : Prop :=
  (∀ p a b, e.integ (e.integ p w a) w b = e.integ p w (a + b)) ∧ ∀ p, e.integ p w 0 = p

/-- cutting `g` into steps leaves no remainder below `eps`, except zero -/
def NoTiny (e : IntegEnv K V P) (g : K) : Prop := ∀ n : ℕ, 0 < g - n * e.step → e.eps ≤ g - n * e.step

end

/-! ### YAML -/
section
variable [Field K] [LinearOrder K] [IsStrictOrderedRing K] [FloorRing K]
/-- a time as it is printed: rounded to whole nanoseconds -/
def printed (t : K) : K := (round (t * 10 ^ 9) : K) / 10 ^ 9
/-- the time is a whole number of nanoseconds -/
def WholeNs (t : K) : Prop := ∃ n : Int, t = (n : K) / 10 ^ 9
end

end Vel
end Verif
