import Verif.Model.PiecewisePolynomial
import Verif.Model.Graph

set_option autoImplicit false
/-!
Model of the numerical integration of src/maliput/drake/systems/analysis and of the two users of it,
src/maliput/drake/arc_length_integrator.cc and src/maliput/drake/inverse_arc_length_integrator.cc.

The state of the differential equation is one number, as in both users.  Numbers are those of an ordered field, so there
is no rounding, no NaN and no infinity.  The cube root of the step size control is a parameter.  Statistics, and the
modes that no user in the repository selects (fixed steps, other integrators than Runge-Kutta 3, a requested minimum
step size, no exceptions for too small steps, publish and update times), are left out.  An object keeps its state when an
exception leaves one of its functions, so the functions here give the new state in every case.
-/
namespace Maliput.Ode

open Maliput Piecewise
open Maliput.RouteGraph (Stop)

variable {R κ : Type} [Field R] [LinearOrder R] [DecidableEq κ]

/-- What an integrator is made with and keeps: the right hand side, the initial time, state and parameters
(`default_values_`, src/maliput/drake/systems/analysis/initial_value_problem.cc:92-120) and the settings (the
initial step size, maximum step size and target accuracy, which `ResetCachedState` saves and sets again,
src/maliput/drake/systems/analysis/initial_value_problem.cc:163-178).  `root` is `pow(·, 1.0 / 3)`. -/
structure Setup (R κ : Type) where
  f : R → R → κ → R
  root : R → R
  t0 : R
  x0 : R
  k0 : κ
  initialStep : R
  maxStep : R
  accuracy : R

/-- The mutable state: the time, the continuous state and the numeric parameter of the context, `current_values_.k`
(its time and state are always the default ones), and of the integrator `initialization_done_`, `accuracy_in_use_`,
`ideal_next_step_size_` (NaN is `none`) and `dense_output_`,
src/maliput/drake/systems/analysis/integrator_base.h:833-865. -/
structure State (R κ : Type) where
  time : R
  state : R
  k : κ
  current : κ
  initialized : Bool
  accuracy : R
  ideal : Option R
  dense : Option (PP R)

/-- The step of the Runge-Kutta 3 integrator from the time `t` and the state `x`: the new state and the error
estimate, src/maliput/drake/systems/analysis/runge_kutta3_integrator.cc:43-144. -/
def rk3 (f : R → R → R) (t x h : R) : R × R :=
  let xdot0 := f t x
  let xdotA := f (t + h / 2) (x + h / 2 * xdot0)
  let xdotB := f (t + h) (x + -h * xdot0 + 2 * h * xdotA)
  let h6 := h / 6
  let x1 := x + h6 * xdot0 + 4 * h6 * xdotA + h6 * xdotB
  (x1, |x + h * xdotA - x1|)

/-- `DoStep`. -/
def doStep (f : R → R → κ → R) (s : State R κ) (h : R) : State R κ × R :=
  let r := rk3 (fun t x => f t x s.k) s.time s.state h
  ({ s with time := s.time + h, state := r.1 }, r.2)

/-- The replacement of the final segment in `DoDenseStep`,
src/maliput/drake/systems/analysis/integrator_base.h:1464-1467. -/
def dropReplaced (d : PP R) (start : R) : Except Err (PP R) := do
  if 1 < d.breaks.length then
    let e ← d.endTime
    let b ← nth d.breaks (d.breaks.length - 2)
    if start < e ∧ start = b then d.removeFinal else return d
  else return d

/-- The end of `DoDenseStep`, src/maliput/drake/systems/analysis/integrator_base.h:1469-1472: the segment between the
states before and after the step is appended. -/
def appendStep (f : R → R → κ → R) (d : PP R) (s s' : State R κ) : Except Err (PP R) := do
  let piece ← cubicHermite [s.time, s'.time] [s.state, s'.state] [f s.time s.state s.k, f s'.time s'.state s'.k]
  d.concatenate piece

/-- `Step` with `DoDenseStep`, src/maliput/drake/systems/analysis/integrator_base.h:1441-1474, 1543-1548.  When it
throws, the context has made the step. -/
def step (f : R → R → κ → R) (s : State R κ) (h : R) : State R κ × Except Err R :=
  let r := doStep f s h
  match s.dense with
  | none => (r.1, .ok r.2)
  | some d =>
    match dropReplaced d s.time with
    | .error e => (r.1, .error e)
    | .ok d' =>
      match appendStep f d' s r.1 with
      | .error e => ({ r.1 with dense := some d' }, .error e)
      | .ok d'' => ({ r.1 with dense := some d'' }, .ok r.2)

/-- `get_working_minimum_step_size` at a time, with no requested minimum,
src/maliput/drake/systems/analysis/integrator_base.h:818-826. -/
def workingMinimum (t : R) : R := max (max (1 / 100000000000000) (|t| * (1 / 100000000000000))) 0

/-- `CalcAdjustedStepSize`, src/maliput/drake/systems/analysis/integrator_base.cc:197-295, with `ValidateSmallerStepSize`,
src/maliput/drake/systems/analysis/integrator_base.h:1501-1514: whether the step succeeded, the next step size, and the
new value of `at_minimum_step_size`.  `t` is the time of the context, after the step. -/
def calcAdjusted (root : R → R) (accuracy maxStep t err taken : R) (atMin : Bool) : Except Err (Bool × R × Bool) := do
  let guess := if err = 0 then 5 * taken else 9 / 10 * taken * root (accuracy / err)
  let atMin := if guess > taken then false else atMin
  let new := if guess > taken ∧ guess < 6 / 5 * taken then taken else guess
  if new < taken ∧ atMin = true then return (true, taken, atMin)
  else
    let new := if new < taken then (if err ≤ accuracy then taken else min new (9 / 10 * taken)) else new
    let new := max (min new (5 * taken)) (1 / 10 * taken)
    let new := min new maxStep
    if new < workingMinimum t ∧ new < taken then .error .throws
    else
      let new := max new (workingMinimum t)
      let atMin := if new = workingMinimum t then true else atMin
      if new = workingMinimum t ∧ new < taken then return (false, new, atMin)
      else return (decide (new ≥ taken), new, atMin)

/-- Whether the step size is limited by `h_max`, src/maliput/drake/systems/analysis/integrator_base.cc:56. -/
def limited (hmax attempt : R) : Bool := decide (hmax < 95 / 100 * attempt)

/-- The step size of an attempt, src/maliput/drake/systems/analysis/integrator_base.cc:55-69. -/
def stepSize (maxStep hmax attempt : R) : R :=
  min (if limited hmax attempt then hmax else if hmax < 1001 / 1000 * attempt then hmax else attempt) maxStep

/-- The removal of the segment of a rejected step, src/maliput/drake/systems/analysis/integrator_base.cc:128-132. -/
def dropSegment : Option (PP R) → Except Err (Option (PP R))
  | none => .ok none
  | some d => return some (← d.removeFinal)

/-- The loop of `StepOnceErrorControlledAtMost`, src/maliput/drake/systems/analysis/integrator_base.cc:42-134.  The first
number bounds the number of attempts.  The result is whether the step was one of `hmax`. -/
def attempts (c : Setup R κ) (hmax : R) : Nat → State R κ → R → Bool → State R κ × Except Stop Bool
  | 0, s, _, _ => (s, .error .depth)
  | n + 1, s, attempt, atMin =>
    let h := stepSize c.maxStep hmax attempt
    match step c.f s h with
    | (s', .error e) => (s', .error (.err e))
    | (s', .ok err) =>
      match calcAdjusted c.root s'.accuracy c.maxStep s'.time err h atMin with
      | .error e => (s', .error (.err e))
      | .ok (true, next, _) =>
        ({ s' with ideal := if limited hmax attempt then s'.ideal else some next }, .ok (decide (h = hmax)))
      | .ok (false, next, atMin') =>
        match dropSegment s'.dense with
        | .error e => ({ s' with time := s.time, state := s.state }, .error (.err e))
        | .ok d => attempts c hmax n { s' with time := s.time, state := s.state, dense := d } next atMin'

/-- `StepOnceErrorControlledAtMost`, src/maliput/drake/systems/analysis/integrator_base.cc:6-136: the first attempt is
the ideal step size or the initial one. -/
def stepOnce (c : Setup R κ) (n : Nat) (s : State R κ) (hmax : R) : State R κ × Except Stop Bool :=
  attempts c hmax n s (s.ideal.getD c.initialStep) false

/-- `IntegrateNoFurtherThanTime` without publish and update times,
src/maliput/drake/systems/analysis/integrator_base.cc:297-440. -/
def integrateNoFurther (c : Setup R κ) (n : Nat) (s : State R κ) (boundary : R) : State R κ × Except Stop Unit :=
  if s.initialized = false then (s, .error (.err .throws))
  else if boundary - s.time < 0 then (s, .error (.err .throws))
  else
    let target := if s.time + c.maxStep < boundary then s.time + c.maxStep else boundary
    let h := target - s.time
    if h < 0 then (s, .error (.err .throws))
    else
      match stepOnce c n s h with
      | (s', .error e) => (s', .error e)
      | (s', .ok full) => (if full = true ∨ s'.time ≥ target then { s' with time := target } else s', .ok ())

/-- `IntegrateWithMultipleStepsToTime`, src/maliput/drake/systems/analysis/integrator_base.h:989-999.  The second number
bounds the number of steps. -/
def integrateTo (c : Setup R κ) (n : Nat) (tf : R) : Nat → State R κ → State R κ × Except Stop Unit
  | 0, s => (s, .error .depth)
  | m + 1, s =>
    match integrateNoFurther c n s (min tf (s.time + c.maxStep)) with
    | (s', .error e) => (s', .error e)
    | (s', .ok ()) => if s'.time < tf then integrateTo c n tf m s' else (s', .ok ())

/-- The state after the constructor and the settings,
src/maliput/drake/systems/analysis/initial_value_problem.cc:92-120 and
src/maliput/drake/systems/analysis/integrator_base.h:218-225. -/
def fresh (c : Setup R κ) : State R κ := ⟨c.t0, c.x0, c.k0, c.k0, false, c.accuracy, none, none⟩

/-- `ResetCachedState`, src/maliput/drake/systems/analysis/initial_value_problem.cc:147-182, with `Reset`,
src/maliput/drake/systems/analysis/integrator_base.h:833-865. -/
def reset (c : Setup R κ) (k : κ) (s : State R κ) : State R κ :=
  { s with time := c.t0, state := c.x0, k := k, dense := none, ideal := none, initialized := false,
           accuracy := c.accuracy, current := k }

/-- `Initialize`, src/maliput/drake/systems/analysis/integrator_base.h:882-928, with `DoInitialize` of Runge-Kutta 3,
src/maliput/drake/systems/analysis/runge_kutta3_integrator.cc:11-41. -/
def setUp (c : Setup R κ) (s : State R κ) : State R κ × Except Stop Unit :=
  if c.maxStep < 0 then (s, .error (.err .throws))
  else if c.initialStep > c.maxStep then (s, .error (.err .throws))
  else if c.initialStep < 0 then (s, .error (.err .throws))
  else ({ s with accuracy := if c.accuracy > 1 / 10 then 1 / 10 else c.accuracy, initialized := true }, .ok ())

/-- `Solve`, src/maliput/drake/systems/analysis/initial_value_problem.cc:122-145, with `ResetCachedStateIfNecessary`,
184-193, and `SanitizeValuesOrThrow`, 195-218, for values that only set the parameters. -/
def solve (c : Setup R κ) (n m : Nat) (tf : R) (k : κ) (s : State R κ) : State R κ × Except Stop R :=
  if tf < c.t0 then (s, .error (.err .throws))
  else
    let s := if k ≠ s.current ∨ tf < s.time then reset c k s else s
    match (if s.initialized = false then setUp c s else (s, .ok ())) with
    | (s', .error e) => (s', .error e)
    | (s', .ok ()) =>
      match integrateTo c n tf m s' with
      | (s'', .error e) => (s'', .error e)
      | (s'', .ok ()) => (s'', .ok s''.state)

/-- `DenseSolve`, src/maliput/drake/systems/analysis/initial_value_problem.cc:220-245, with `StartDenseIntegration` and
`StopDenseIntegration`, src/maliput/drake/systems/analysis/integrator_base.h:1211-1224, 1251-1256.  The dense output is
dropped by the reset, so none has been started. -/
def denseSolve (c : Setup R κ) (n m : Nat) (tf : R) (k : κ) (s : State R κ) : State R κ × Except Stop (PP R) :=
  if tf < c.t0 then (s, .error (.err .throws))
  else
    match setUp c (reset c k s) with
    | (s', .error e) => (s', .error e)
    | (s', .ok ()) =>
      match integrateTo c n tf m { s' with dense := some empty } with
      | (s'', .error e) => (s'', .error e)
      | (s'', .ok ()) =>
        match s''.dense with
        | none => (s'', .error (.err .throws))
        | some d => ({ s'' with dense := none }, .ok d)

/-- `saturate`, src/maliput/math/saturate.cc:37-42. -/
def saturate (x lo hi : R) : Except Err R := do
  throwUnless (lo ≤ hi)
  return if x < lo then lo else if x > hi then hi else x

/-- The times and the emptiness of a dense output: `start_time` and `end_time` of `HermitianDenseOutput` and
`ScalarViewDenseOutput`, src/maliput/drake/systems/analysis/dense_output.h:101-113 and
src/maliput/drake/systems/analysis/hermitian_dense_output.h:223-240. -/
def denseTimes (d : PP R) : Except Err (R × R) := do
  let s ← d.startTime
  let e ← d.endTime
  throwUnless (decide (d.polynomials ≠ []))
  return (s, e)

/-- `EvaluateScalar`, src/maliput/drake/systems/analysis/scalar_dense_output.h:31-35,
src/maliput/drake/systems/analysis/scalar_view_dense_output.h:47, src/maliput/drake/systems/analysis/dense_output.h:78-83
and src/maliput/drake/systems/analysis/hermitian_dense_output.h:288-290. -/
def denseEvaluate (d : PP R) (t : R) : Except Err R := do
  let (s, e) ← denseTimes d
  throwUnless (¬ (t < s ∨ t > e))
  d.scalarValue t

/-- The function that `IntegralFunction` and `InverseFunction` return,
src/maliput/drake/arc_length_integrator.cc:99-104 and src/maliput/drake/inverse_arc_length_integrator.cc:101-106. -/
def denseFunction (d : PP R) (p0 p1 tolerance p : R) : Except Err R := do
  let q ← saturate p p0 p1
  throwUnless (|q - p| < tolerance)
  denseEvaluate d q

/-- The checks of `IntegralFunction` and `InverseFunction`; `epsilon` is zero in the first one,
src/maliput/drake/arc_length_integrator.cc:97-98 and src/maliput/drake/inverse_arc_length_integrator.cc:99-100. -/
def checkTimes (d : PP R) (p0 p1 epsilon : R) : Except Err Unit := do
  let (s, e) ← denseTimes d
  throwUnless (s ≤ p0)
  throwUnless (e ≥ p1 - epsilon)

/-- `IntegralFunction` and `InverseFunction`, src/maliput/drake/arc_length_integrator.cc:88-105 and
src/maliput/drake/inverse_arc_length_integrator.cc:90-107. -/
def intervalFunction (c : Setup R κ) (n m : Nat) (p0 p1 : R) (k : κ) (tolerance epsilon : R) (s : State R κ) :
    State R κ × Except Stop (R → Except Err R) :=
  match denseSolve c n m p1 k s with
  | (s', .error e) => (s', .error e)
  | (s', .ok d) =>
    match checkTimes d p0 p1 epsilon with
    | .error e => (s', .error (.err e))
    | .ok () => (s', .ok (denseFunction d p0 p1 tolerance))

/-- `IntegratorConfiguration`, include/maliput/drake/integrator_configuration.h:38-51. -/
structure Configuration (R κ : Type) where
  parameterLowerBound : R
  imageLowerBound : R
  k : κ
  initialStep : R
  maxStep : R
  accuracy : R

/-- The constructor of `ArcLengthIntegrator`, src/maliput/drake/arc_length_integrator.cc:62-77, with that of
`AntiderivativeFunction`, src/maliput/drake/systems/analysis/antiderivative_function.h:88-109. -/
def arcLength (root : R → R) (f : R → κ → R) (g : Configuration R κ) : Setup R κ :=
  ⟨fun t _ k => f t k, root, g.parameterLowerBound, 0, g.k, g.initialStep, g.maxStep, g.accuracy⟩

/-- The constructor of `InverseArcLengthIntegrator`, src/maliput/drake/inverse_arc_length_integrator.cc:64-79. -/
def inverseArcLength (root : R → R) (f : R → R → κ → R) (g : Configuration R κ) : Setup R κ :=
  ⟨f, root, g.imageLowerBound, g.parameterLowerBound, g.k, g.initialStep, g.maxStep, g.accuracy⟩

/-- A call of a member function: `Evaluate`, src/maliput/drake/arc_length_integrator.cc:81-86, or the making of a function
with dense output. -/
inductive Call (R κ : Type)
  | evaluate (p : R) (k : κ)
  | function (p0 p1 : R) (k : κ) (tolerance epsilon : R)

/-- The state after a call; the results of earlier calls do not matter for later ones. -/
def call (c : Setup R κ) (n m : Nat) : Call R κ → State R κ → State R κ
  | .evaluate p k, s => (solve c n m p k s).1
  | .function p0 p1 k tolerance epsilon, s => (intervalFunction c n m p0 p1 k tolerance epsilon s).1

/-- The state after any calls on a new integrator, whether they returned or threw. -/
def after (c : Setup R κ) (n m : Nat) (calls : List (Call R κ)) : State R κ :=
  calls.foldl (fun s a => call c n m a s) (fresh c)

/-- The call returned normally. -/
def Returned (c : Setup R κ) (n m : Nat) (s : State R κ) : Call R κ → Prop
  | .evaluate p k => ∃ v, (solve c n m p k s).2 = .ok v
  | .function p0 p1 k tolerance epsilon => ∃ g, (intervalFunction c n m p0 p1 k tolerance epsilon s).2 = .ok g

end Maliput.Ode
