import Mathlib.Data.List.Perm.Basic
import Mathlib.Logic.Function.Basic
import Verif.Model.AMap
import Verif.Model.Outcome
/-
Dynamic parameters: /repo/mp2p_icp_map/src/Parameterizable.cpp and the header of the same name.
-/
namespace Verif
namespace Param

variable {F X K : Type}

/-- `double*`, `float*`, `uint32_t*`: Parameterizable.h:38 -/
inductive Kind where
  | f64 | f32 | u32
  deriving DecidableEq

/-- What the code uses from `mrpt::expr` and from the compiler (external).  `compile` looks at the names of the variables
only, as `CRuntimeCompiledExpression::compile` does: it stores references to the values. -/
structure Lang (F X K : Type) where
  /-- the text is a well formed formula -/
  valid : F → Bool
  /-- the variables it mentions -/
  free : F → List X
  /-- its value, given the variables -/
  value : F → (X → Option K) → K
  /-- the value only depends on the variables it mentions -/
  value_free : ∀ f σ τ, (∀ x ∈ free f, σ x = τ x) → value f σ = value f τ
  /-- conversion of a double to the type of the target; undefined for a `uint32_t` out of range -/
  cast : Kind → K → Outcome K
  /-- what evaluating an expression whose compilation failed does -/
  uncompiled : Outcome K

/-- `std::optional<CRuntimeCompiledExpression> compiled` -/
inductive Comp where
  | none
  /-- emplaced, but its compilation threw -/
  | failed
  /-- compiled without variables -/
  | closed
  /-- compiled with references to the variables of that source -/
  | bound (src : Nat)
  deriving DecidableEq

/-- `struct InfoPerParam`, Parameterizable.h:33-41.  A target is an address. -/
structure Info (F : Type) where
  expr : F
  kind : Kind
  target : Nat
  compiled : Comp := .none
  isConst : Bool := false
  evaluated : Bool := false

/-- `class Parameterizable`, Parameterizable.h:115-171.  `gen` counts the reallocations of the vector `declParameters_`,
`cap` is its capacity (libstdc++ doubles it). -/
structure Obj (F : Type) where
  params : List (Info F) := []
  gen : Nat := 0
  cap : Nat := 0
  attachedTo : Option Nat := none

/-- an `InfoPerParam*`: element `idx` of the vector of `obj` as allocated at `gen` -/
structure Ptr where
  obj : Nat
  gen : Nat
  idx : Nat
  deriving DecidableEq

/-- `class ParameterSource`, Parameterizable.h:50-96 (the velocity buffer is in `Velocity.lean`) -/
structure Src (X K : Type) where
  vars : AMap X K := []
  attached : List Ptr := []

/-- objects, sources, and the variables the targets point to -/
structure St (F X K : Type) where
  objs : Nat → Obj F
  srcs : Nat → Src X K
  store : Nat → K

section
variable [LinearOrder X]

/-- `expr.compile(text, variables)` succeeds -/
def Lang.compiles (L : Lang F X K) (f : F) (vars : AMap X K) : Bool :=
  L.valid f && (L.free f).all fun x => (AMap.get vars x).isSome

/-- `declParameters_.emplace_back()` -/
def Obj.push (o : Obj F) (p : Info F) : Obj F :=
  if o.params.length < o.cap then { o with params := o.params ++ [p] }
  else { o with params := o.params ++ [p], gen := o.gen + 1, cap := max 1 (2 * o.cap) }

/-- `parseAndDeclareParameter`, Parameterizable.cpp:108-151 -/
def declare (L : Lang F X K) (st : St F X K) (o : Nat) (f : F) (k : Kind) (a : Nat) : Outcome (St F X K) :=
  if L.compiles f [] then
    (L.cast k (L.value f fun _ => none)).bind fun v => .ok { st with
      objs := Function.update st.objs o ((st.objs o).push
        { expr := f, kind := k, target := a, compiled := .closed, isConst := true, evaluated := true })
      store := Function.update st.store a v }
  else .ok { st with
    objs := Function.update st.objs o ((st.objs o).push { expr := f, kind := k, target := a }) }

/-- `attach`, Parameterizable.cpp:23-31: `std::set::insert` of each address -/
def attach (st : St F X K) (s o : Nat) : St F X K :=
  let ob := st.objs o
  let ptrs := (List.range ob.params.length).map fun i => (⟨o, ob.gen, i⟩ : Ptr)
  let sr := st.srcs s
  let l := ptrs.foldl (fun l p => if p ∈ l then l else l ++ [p]) sr.attached
  { st with
    srcs := Function.update st.srcs s ({ sr with attached := l })
    objs := Function.update st.objs o ({ ob with attachedTo := some s }) }

/-- `updateVariable`, Parameterizable.h:63 -/
def updateVar (st : St F X K) (s : Nat) (x : X) (v : K) : St F X K :=
  { st with srcs := Function.update st.srcs s ({ st.srcs s with vars := AMap.set (st.srcs s).vars x v }) }

/-- `*p` of a stored address: nothing if the vector has been reallocated since -/
def deref (st : St F X K) (p : Ptr) : Option (Info F) :=
  if (st.objs p.obj).gen = p.gen then (st.objs p.obj).params[p.idx]? else none

/-- write through a stored address -/
def poke (st : St F X K) (p : Ptr) (i : Info F) : St F X K :=
  { st with objs := Function.update st.objs p.obj ({ st.objs p.obj with params := (st.objs p.obj).params.set p.idx i }) }

/-- Parameterizable.cpp:54-67, one parameter.  The flag tells that an exception was thrown. -/
def compile1 (L : Lang F X K) (s : Nat) (st : St F X K) (p : Ptr) : Outcome (St F X K × Bool) :=
  match deref st p with
  | none => .ub
  | some i =>
    if i.isConst then .ok (st, false)
    else if i.compiled ≠ .none then .ok (st, false)
    else if L.compiles i.expr (st.srcs s).vars then .ok (poke st p { i with compiled := .bound s }, false)
    else .ok (poke st p { i with compiled := .failed }, true)

/-- the value of `p->compiled->eval()` -/
def evalComp (L : Lang F X K) (st : St F X K) (i : Info F) : Outcome K :=
  match i.compiled with
  | .none => .ub
  | .failed => L.uncompiled
  | .closed => .ok (L.value i.expr fun _ => none)
  | .bound s => .ok (L.value i.expr fun x => AMap.get (st.srcs s).vars x)

/-- Parameterizable.cpp:70-105, one parameter -/
def eval1 (L : Lang F X K) (st : St F X K) (p : Ptr) : Outcome (St F X K × Bool) :=
  match deref st p with
  | none => .ub
  | some i =>
    if i.isConst then .ok (st, false)
    else
      match (evalComp L st i).bind (L.cast i.kind) with
      | .ub => .ub
      | .throw => .ok (st, true)
      | .ok v => .ok ({ poke st p { i with evaluated := true } with store := Function.update st.store i.target v }, false)

/-- a loop over stored addresses; an exception leaves it, keeping what was done -/
def loop (body : St F X K → Ptr → Outcome (St F X K × Bool)) : List Ptr → St F X K → Outcome (St F X K × Bool)
  | [], st => .ok (st, false)
  | p :: l, st => (body st p).bind fun r => if r.2 then .ok r else loop body l r.1

/-- `realize`, Parameterizable.cpp:47-106.  `ord` is the order of iteration of the set (by address). -/
def realize (L : Lang F X K) (st : St F X K) (s : Nat) (ord : List Ptr → List Ptr) : Outcome (St F X K × Bool) :=
  let l := ord (st.srcs s).attached
  (loop (compile1 L s) l st).bind fun r => if r.2 then .ok r else loop (eval1 L) l r.1

/-- `unrealizeParameters`, Parameterizable.cpp:178-188 -/
def unrealize (st : St F X K) (o : Nat) : St F X K :=
  let l := (st.objs o).params.map fun i => if i.isConst then i else { i with evaluated := false }
  { st with objs := Function.update st.objs o ({ st.objs o with params := l }) }

/-- `checkAllParametersAreRealized`, Parameterizable.cpp:153-176 -/
def check (st : St F X K) (o : Nat) : Outcome Unit :=
  Outcome.assert ((st.objs o).params.all fun i => i.evaluated)

/-- The calls of a user. -/
inductive Op (F X K : Type) where
  | declare (o : Nat) (f : F) (k : Kind) (a : Nat)
  | attach (s o : Nat)
  | update (s : Nat) (x : X) (v : K)
  | realize (s : Nat) (ord : List Ptr → List Ptr)
  | unrealize (o : Nat)

/-- one call; the flag tells that it threw -/
def step (L : Lang F X K) (st : St F X K) : Op F X K → Outcome (St F X K × Bool)
  | .declare o f k a => (declare L st o f k a).bind fun st => .ok (st, false)
  | .attach s o => .ok (attach st s o, false)
  | .update s x v => .ok (updateVar st s x v, false)
  | .realize s ord => realize L st s ord
  | .unrealize o => .ok (unrealize st o, false)

/-- A history of calls; the second component tells whether any of them threw (the caller goes on in any case). -/
def run (L : Lang F X K) : List (Op F X K) → St F X K → Outcome (St F X K × Bool)
  | [], st => .ok (st, false)
  | o :: l, st => (step L st o).bind fun r => (run L l r.1).bind fun q => .ok (q.1, r.2 || q.2)

/-- nothing declared, attached or defined yet -/
def St.init (store : Nat → K) : St F X K where
  objs := fun _ => {}
  srcs := fun _ => {}
  store := store
end

end Param
end Verif
