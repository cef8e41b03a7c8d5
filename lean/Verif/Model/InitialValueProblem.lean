import Verif.Model.Integrator

set_option autoImplicit false

/-!
Model of `InitialValueProblem`, src/maliput/drake/systems/analysis/initial_value_problem.cc, for states and parameters that are
vectors of any size, with its Runge-Kutta 3 integrator.  Verif/Model/Integrator.lean models what its users in the repository use of it:
states of one number, the default initial time and state, and right hand sides that always have a value.

A right hand side is a function that may throw and may give a vector of any size.  Numbers are those of an ordered field, so there is no
rounding, no NaN and no infinity.  The cube root of the step size control is a parameter.  Other integrators than that of the constructor,
other settings than the initial and maximum step size and the target accuracy, and changes of these between calls are left out.  An object
keeps its state when an exception leaves one of its functions, so the functions here give the new state in every case.  The cache of the
derivatives is left out: C110 is that it is transparent.
-/
namespace Maliput.Ivp

open Maliput Piecewise
open Maliput.RouteGraph (Stop)
open Maliput.Ode (calcAdjusted limited stepSize)

variable {R : Type} [Field R] [LinearOrder R]

/-! ### Values -/

/-- `OdeContext`, src/maliput/drake/systems/analysis/initial_value_problem.h:82-102. -/
structure Values (R : Type) where
  t0 : Option R
  x0 : Option (List R)
  k : Option (List R)

/-- An `OdeContext` with all its values. -/
structure Problem (R : Type) where
  t0 : R
  x0 : List R
  k : List R
  deriving DecidableEq

/-- The checks of the constructor of `InitialValueProblem`, src/maliput/drake/systems/analysis/initial_value_problem.cc:96-104. -/
def Values.complete (v : Values R) : Except Err (Problem R) :=
  match v.t0 with
  | none => .error .throws
  | some t0 =>
    match v.x0 with
    | none => .error .throws
    | some x0 =>
      match v.k with
      | none => .error .throws
      | some k => .ok ⟨t0, x0, k⟩

/-- `SanitizeValuesOrThrow`, src/maliput/drake/systems/analysis/initial_value_problem.cc:195-218. -/
def sanitize (defaults : Problem R) (tf : R) (v : Values R) : Except Err (Problem R) :=
  let t0 := v.t0.getD defaults.t0
  if tf < t0 then .error .throws
  else
    let x0 := v.x0.getD defaults.x0
    if x0.length ≠ defaults.x0.length then .error .throws
    else
      let k := v.k.getD defaults.k
      if k.length ≠ defaults.k.length then .error .throws else .ok ⟨t0, x0, k⟩

/-! ### The integrator -/

/-- What an initial value problem is made with and keeps: the right hand side, the default values and the settings of the integrator.
`root` is `pow(·, 1.0 / 3)`. -/
structure Setup (R : Type) where
  f : R → List R → List R → Except Err (List R)
  root : R → R
  defaults : Problem R
  initialStep : R
  maxStep : R
  accuracy : R

/-- A piece of a dense output: the cubic polynomials between two times with these states and slopes. -/
structure Piece (R : Type) where
  t0 : R
  x0 : List R
  d0 : List R
  t1 : R
  x1 : List R
  d1 : List R
  deriving DecidableEq

/-- The mutable state: the time, the continuous state and the numeric parameter of the context, `current_values_`, and of the integrator
`initialization_done_`, `accuracy_in_use_`, `ideal_next_step_size_` (NaN is `none`) and `dense_output_`,
src/maliput/drake/systems/analysis/integrator_base.h:833-865. -/
structure State (R : Type) where
  time : R
  state : List R
  k : List R
  current : Problem R
  initialized : Bool
  accuracy : R
  ideal : Option R
  dense : Option (List (Piece R))

/-- `DoCalcTimeDerivatives` of `OdeSystem`, src/maliput/drake/systems/analysis/initial_value_problem.cc:61-79: `set_value` throws if the
size is wrong, basic_vector.h:67-73. -/
def slope (f : R → List R → List R → Except Err (List R)) (s : State R) : Except Err (List R) := do
  let d ← f s.time s.state s.k
  throwUnless (d.length = s.state.length)
  return d

/-- `PlusEqScaled` with one operand of the same size, src/maliput/drake/systems/framework/vector_base.h:169-184, and `DoPlusEqScaled`,
basic_vector.h:170-172, which adds operands one after the other. -/
def plus (x : List R) (scale : R) (d : List R) : List R := List.zipWith (fun a b => a + scale * b) x d

/-- `DoStep` of `RungeKutta3Integrator`, src/maliput/drake/systems/analysis/runge_kutta3_integrator.cc:43-145: the error estimate.  The context
has the time and the state of the stage that throws. -/
def doStep (f : R → List R → List R → Except Err (List R)) (s : State R) (h : R) : State R × Except Err (List R) :=
  match slope f s with
  | .error e => (s, .error e)
  | .ok d0 =>
    let a := { s with time := s.time + h / 2, state := plus s.state (h / 2) d0 }
    match slope f a with
    | .error e => (a, .error e)
    | .ok da =>
      let b := { s with time := s.time + h, state := plus (plus s.state (-h) d0) (2 * h) da }
      match slope f b with
      | .error e => (b, .error e)
      | .ok db =>
        let h6 := h / 6
        let x1 := plus (plus (plus s.state h6 d0) (4 * h6) da) h6 db
        ({ s with time := s.time + h, state := x1 }, .ok ((plus (plus s.state h da) (-1) x1).map fun e => |e|))

/-- The replacement of the final segment in `DoDenseStep`, src/maliput/drake/systems/analysis/integrator_base.h:1464-1467. -/
def dropReplaced (d : List (Piece R)) (start : R) : List (Piece R) :=
  match d.getLast? with
  | some p => if start < p.t1 ∧ start = p.t0 then d.dropLast else d
  | none => d

/-- `CubicHermite` of two samples, src/maliput/drake/common/trajectories/piecewise_polynomial.cc:682-719, with the check of the times,
lines 501-512. -/
def hermite (p : Piece R) : Except Err (Piece R) := do
  throwUnless (p.t0 < p.t1 ∧ ¬ p.t1 - p.t0 < epsilonTime)
  return p

/-- `ConcatenateInTime` of a dense output and one piece, src/maliput/drake/common/trajectories/piecewise_polynomial.cc:240-266. -/
def concatenate (d : List (Piece R)) (p : Piece R) : Except Err (List (Piece R)) :=
  match d.getLast? with
  | none => .ok [p]
  | some l => do
    let offset := p.t0 - l.t1
    throwUnless (|offset| < max |l.t1| 1 * epsilonTime)
    return d ++ [{ p with t0 := p.t0 - offset, t1 := p.t1 - offset }]

/-- `Step` with `DoDenseStep`, src/maliput/drake/systems/analysis/integrator_base.h:1441-1474, 1543-1548. -/
def step (f : R → List R → List R → Except Err (List R)) (s : State R) (h : R) : State R × Except Err (List R) :=
  match s.dense with
  | none => doStep f s h
  | some d =>
    match slope f s with
    | .error e => (s, .error e)
    | .ok d0 =>
      match doStep f s h with
      | (s', .error e) => (s', .error e)
      | (s', .ok err) =>
        let d := dropReplaced d s.time
        match slope f s' with
        | .error e => ({ s' with dense := some d }, .error e)
        | .ok d1 =>
          match hermite ⟨s.time, s.state, d0, s'.time, s'.state, d1⟩ >>= concatenate d with
          | .error e => ({ s' with dense := some d }, .error e)
          | .ok d => ({ s' with dense := some d }, .ok err)

/-- `CalcStateChangeNorm`, src/maliput/drake/systems/analysis/integrator_base.cc:138-195, for miscellaneous variables with weights of one; of
no variables it is zero. -/
def norm (v : List R) : R := v.foldr (fun x m => max |x| m) 0

/-- The removal of the segment of a rejected step, src/maliput/drake/systems/analysis/integrator_base.cc:128-132. -/
def dropSegment : Option (List (Piece R)) → Except Err (Option (List (Piece R)))
  | none => .ok none
  | some d => if d = [] then .error .aborts else .ok (some d.dropLast)

/-- The loop of `StepOnceErrorControlledAtMost`, src/maliput/drake/systems/analysis/integrator_base.cc:42-134.  The first
number bounds the number of attempts.  The result is whether the step was one of `hmax`. -/
def attempts (c : Setup R) (hmax : R) : Nat → State R → R → Bool → State R × Except Stop Bool
  | 0, s, _, _ => (s, .error .depth)
  | n + 1, s, attempt, atMin =>
    let h := stepSize c.maxStep hmax attempt
    match step c.f s h with
    | (s', .error e) => (s', .error (.err e))
    | (s', .ok err) =>
      match calcAdjusted c.root s'.accuracy c.maxStep s'.time (norm err) h atMin with
      | .error e => (s', .error (.err e))
      | .ok (true, next, _) =>
        ({ s' with ideal := if limited hmax attempt then s'.ideal else some next }, .ok (decide (h = hmax)))
      | .ok (false, next, atMin') =>
        match dropSegment s'.dense with
        | .error e => ({ s' with time := s.time, state := s.state }, .error (.err e))
        | .ok d => attempts c hmax n { s' with time := s.time, state := s.state, dense := d } next atMin'

/-- `IntegrateNoFurtherThanTime` without publish and update times,
src/maliput/drake/systems/analysis/integrator_base.cc:297-440, with `StepOnceErrorControlledAtMost`, lines 6-136, whose first attempt is
the ideal step size or the initial one. -/
def integrateNoFurther (c : Setup R) (n : Nat) (s : State R) (boundary : R) : State R × Except Stop Unit :=
  if s.initialized = false then (s, .error (.err .throws))
  else if boundary - s.time < 0 then (s, .error (.err .throws))
  else if s.state.length = 0 then ({ s with time := boundary }, .ok ())
  else
    let target := if s.time + c.maxStep < boundary then s.time + c.maxStep else boundary
    let h := target - s.time
    if h < 0 then (s, .error (.err .throws))
    else
      match attempts c h n s (s.ideal.getD c.initialStep) false with
      | (s', .error e) => (s', .error e)
      | (s', .ok full) => (if full = true ∨ s'.time ≥ target then { s' with time := target } else s', .ok ())

/-- `IntegrateWithMultipleStepsToTime`, src/maliput/drake/systems/analysis/integrator_base.h:989-999.  The second number
bounds the number of steps. -/
def integrateTo (c : Setup R) (n : Nat) (tf : R) : Nat → State R → State R × Except Stop Unit
  | 0, s => (s, .error .depth)
  | m + 1, s =>
    match integrateNoFurther c n s (min tf (s.time + c.maxStep)) with
    | (s', .error e) => (s', .error e)
    | (s', .ok ()) => if s'.time < tf then integrateTo c n tf m s' else (s', .ok ())

/-! ### Initial value problems -/

/-- The state after the constructor, src/maliput/drake/systems/analysis/initial_value_problem.cc:92-120. -/
def fresh (c : Setup R) : State R := ⟨c.defaults.t0, c.defaults.x0, c.defaults.k, c.defaults, false, c.accuracy, none, none⟩

/-- `ResetCachedState`, src/maliput/drake/systems/analysis/initial_value_problem.cc:147-182, with `Reset`,
src/maliput/drake/systems/analysis/integrator_base.h:833-865. -/
def reset (c : Setup R) (p : Problem R) (s : State R) : State R :=
  { s with time := p.t0, state := p.x0, k := p.k, dense := none, ideal := none, initialized := false,
           accuracy := c.accuracy, current := p }

/-- `ResetCachedStateIfNecessary`, src/maliput/drake/systems/analysis/initial_value_problem.cc:184-193, with `operator!=` of `OdeContext`,
initial_value_problem.h:95-97. -/
def resetIfNecessary (c : Setup R) (tf : R) (p : Problem R) (s : State R) : State R :=
  if p ≠ s.current ∨ tf < s.time then reset c p s else s

/-- `Initialize`, src/maliput/drake/systems/analysis/integrator_base.h:882-928, with `DoInitialize` of Runge-Kutta 3,
src/maliput/drake/systems/analysis/runge_kutta3_integrator.cc:11-41. -/
def setUp (c : Setup R) (s : State R) : State R × Except Stop Unit :=
  if c.maxStep < 0 then (s, .error (.err .throws))
  else if c.initialStep > c.maxStep then (s, .error (.err .throws))
  else if c.initialStep < 0 then (s, .error (.err .throws))
  else ({ s with accuracy := if c.accuracy > 1 / 10 then 1 / 10 else c.accuracy, initialized := true }, .ok ())

/-- `Solve`, src/maliput/drake/systems/analysis/initial_value_problem.cc:122-145. -/
def solve (c : Setup R) (n m : Nat) (tf : R) (v : Values R) (s : State R) : State R × Except Stop (List R) :=
  match sanitize c.defaults tf v with
  | .error e => (s, .error (.err e))
  | .ok p =>
    let s := resetIfNecessary c tf p s
    match (if s.initialized = false then setUp c s else (s, .ok ())) with
    | (s', .error e) => (s', .error e)
    | (s', .ok ()) =>
      match integrateTo c n tf m s' with
      | (s'', .error e) => (s'', .error e)
      | (s'', .ok ()) => (s'', .ok s''.state)

/-- `DenseSolve`, src/maliput/drake/systems/analysis/initial_value_problem.cc:220-245, with `StartDenseIntegration` and
`StopDenseIntegration`, src/maliput/drake/systems/analysis/integrator_base.h:1211-1224, 1251-1256.  The dense output is
dropped by the reset, so none has been started.  `start_time` of a trajectory without segments throws. -/
def denseSolve (c : Setup R) (n m : Nat) (tf : R) (v : Values R) (s : State R) : State R × Except Stop (List (Piece R)) :=
  match sanitize c.defaults tf v with
  | .error e => (s, .error (.err e))
  | .ok p =>
    match setUp c (reset c p s) with
    | (s', .error e) => (s', .error e)
    | (s', .ok ()) =>
      if s'.state.length = 0 then (s', .error (.err .throws))
      else
        match integrateTo c n tf m { s' with dense := some [] } with
        | (s'', .error e) => (s'', .error e)
        | (s'', .ok ()) =>
          match s''.dense with
          | none => (s'', .error (.err .throws))
          | some d => ({ s'' with dense := none }, if d = [] then .error (.err .throws) else .ok d)

/-- A call of a member function. -/
inductive Call (R : Type)
  | solve (tf : R) (v : Values R)
  | denseSolve (tf : R) (v : Values R)

/-- The state after a call, whether it returned or threw. -/
def call (c : Setup R) (n m : Nat) : Call R → State R → State R
  | .solve tf v, s => (solve c n m tf v s).1
  | .denseSolve tf v, s => (denseSolve c n m tf v s).1

/-- The state after any calls on a new initial value problem. -/
def after (c : Setup R) (n m : Nat) (calls : List (Call R)) : State R := calls.foldl (fun s a => call c n m a s) (fresh c)

/-- The call returned normally. -/
def Returned (c : Setup R) (n m : Nat) (s : State R) : Call R → Prop
  | .solve tf v => ∃ x, (solve c n m tf v s).2 = .ok x
  | .denseSolve tf v => ∃ d, (denseSolve c n m tf v s).2 = .ok d

end Maliput.Ivp
