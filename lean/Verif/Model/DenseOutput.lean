import Verif.Model.PiecewisePolynomial

set_option autoImplicit false

/-!
Model of the stepwise dense output of an integrator, src/maliput/drake/systems/analysis/hermitian_dense_output.h and
src/maliput/drake/systems/analysis/dense_output.h, for states with one component: the checks of the dimensions always succeed.
-/
namespace Maliput.DenseOut
open Maliput Piecewise Poly

variable {R : Type} [Field R] [LinearOrder R]

/-- A time, the state and its derivative. -/
abbrev Sample (R : Type) := R × R × R

/-- The members of `IntegrationStep`, src/maliput/drake/systems/analysis/hermitian_dense_output.h:212-217.  The three vectors are
extended together, so that they are one list here; the default constructed step is empty. -/
abbrev Step (R : Type) := List (Sample R)

/-- `front()` of a vector; undefined if it is empty. -/
def front {α : Type} (l : List α) : Except Err α := match l.head? with | some a => .ok a | none => .error .ub

/-- `back()` of a vector; undefined if it is empty. -/
def back {α : Type} (l : List α) : Except Err α := match l.getLast? with | some a => .ok a | none => .error .ub

/-- `ValidateStepExtendTripletOrThrow`, src/maliput/drake/systems/analysis/hermitian_dense_output.h:177-210. -/
def validateExtend (s : Step R) (time : R) : Except Err Unit := do
  if s ≠ [] then
    let first ← front s
    throwUnless (¬ time < first.1)
    let last ← back s
    throwUnless (¬ time ≤ last.1)

/-- `Extend`, src/maliput/drake/systems/analysis/hermitian_dense_output.h:140-145. -/
def Step.extend (s : Step R) (x : Sample R) : Except Err (Step R) := do
  validateExtend s x.1
  return s ++ [x]

/-- `IntegrationStep`, the constructor with a sample, src/maliput/drake/systems/analysis/hermitian_dense_output.h:115-120. -/
def Step.make (x : Sample R) : Except Err (Step R) := do
  validateExtend [] x.1
  return [x]

/-- The members of `HermitianDenseOutput`, src/maliput/drake/systems/analysis/hermitian_dense_output.h:367-391. -/
structure Output (R : Type) where
  startTime : R
  endTime : R
  lastConsolidated : Step R
  rawSteps : List (Step R)
  trajectory : PP R

/-- `HermitianDenseOutput`, the default constructor. -/
def Output.new : Output R := ⟨0, 0, [], [], Piecewise.empty⟩

/-- `HermitianDenseOutput`, the constructor with a trajectory,
src/maliput/drake/systems/analysis/hermitian_dense_output.h:223-240, for `T` = `double`. -/
def Output.ofTrajectory (p : PP R) : Except Err (Output R) := do
  return ⟨← p.startTime, ← p.endTime, [], [], p⟩

/-- `isApprox` of Eigen for vectors with one element, with its default precision. -/
def isApprox (a b : R) : Bool := decide ((a - b) * (a - b) ≤ (1 / 10 ^ 12) * (1 / 10 ^ 12) * min (a * a) (b * b))

/-- `EnsureOutputConsistencyOrThrow`, src/maliput/drake/systems/analysis/hermitian_dense_output.h:328-365. -/
def ensureConsistent (next prev : Step R) : Except Err Unit := do
  let prevEnd ← back prev
  let nextStart ← front next
  let allowed := max |prevEnd.1| 1 * epsilonTime
  throwUnless (¬ |prevEnd.1 - nextStart.1| > allowed)
  throwUnless (isApprox prevEnd.2.1 nextStart.2.1)
  throwUnless (isApprox prevEnd.2.2 nextStart.2.2)

/-- `ValidateStepCanBeConsolidatedOrThrow`, src/maliput/drake/systems/analysis/hermitian_dense_output.h:304-316. -/
def Output.validateStep (o : Output R) (step : Step R) : Except Err Unit := do
  let first ← front step
  let last ← back step
  throwUnless (first.1 ≠ last.1)
  if o.rawSteps ≠ [] then
    ensureConsistent step (← back o.rawSteps)
  else if o.trajectory.polynomials ≠ [] then
    ensureConsistent step o.lastConsolidated

/-- `Update`, src/maliput/drake/systems/analysis/hermitian_dense_output.h:255-258. -/
def Output.update (o : Output R) (step : Step R) : Output R × Except Err Unit :=
  match o.validateStep step with
  | .error e => (o, .error e)
  | .ok () => ({ o with rawSteps := o.rawSteps ++ [step] }, .ok ())

/-- `Rollback`, src/maliput/drake/systems/analysis/hermitian_dense_output.h:260-265. -/
def Output.rollback (o : Output R) : Output R × Except Err Unit :=
  if o.rawSteps = [] then (o, .error .throws)
  else ({ o with rawSteps := o.rawSteps.dropLast }, .ok ())

/-- `CubicHermite` of the samples of a step. -/
def Step.hermite (s : Step R) : Except Err (PP R) :=
  cubicHermite (s.map fun x => x.1) (s.map fun x => x.2.1) (s.map fun x => x.2.2)

/-- The loop of `Consolidate`, src/maliput/drake/systems/analysis/hermitian_dense_output.h:271-275.  The trajectory is changed
by the steps before the one that throws. -/
def consolidateLoop : List (Step R) → PP R → PP R × Except Err Unit
  | [], p => (p, .ok ())
  | s :: rest, p =>
    match s.hermite with
    | .error e => (p, .error e)
    | .ok q =>
      match p.concatenate q with
      | .error e => (p, .error e)
      | .ok p' => consolidateLoop rest p'

/-- `Consolidate`, src/maliput/drake/systems/analysis/hermitian_dense_output.h:267-280. -/
def Output.consolidate (o : Output R) : Output R × Except Err Unit :=
  if o.rawSteps = [] then (o, .error .throws)
  else
    match consolidateLoop o.rawSteps o.trajectory with
    | (p, .error e) => ({ o with trajectory := p }, .error e)
    | (p, .ok ()) =>
      match p.startTime, p.endTime, back o.rawSteps with
      | .ok s, .ok e, .ok last => (⟨s, e, last, [], p⟩, .ok ())
      | .error e, _, _ => ({ o with trajectory := p }, .error e)
      | .ok s, .error e, _ => ({ o with trajectory := p, startTime := s }, .error e)
      | .ok s, .ok e, .error err => ({ o with trajectory := p, startTime := s, endTime := e }, .error err)

/-- `is_empty`, src/maliput/drake/systems/analysis/hermitian_dense_output.h:292. -/
def Output.isEmpty (o : Output R) : Bool := decide (o.trajectory.polynomials = [])

/-- `start_time`, src/maliput/drake/systems/analysis/dense_output.h:101-104 and
src/maliput/drake/systems/analysis/hermitian_dense_output.h:298. -/
def Output.getStartTime (o : Output R) : Except Err R := do
  throwUnless (!o.isEmpty)
  return o.startTime

/-- `end_time`, src/maliput/drake/systems/analysis/dense_output.h:110-113 and
src/maliput/drake/systems/analysis/hermitian_dense_output.h:296. -/
def Output.getEndTime (o : Output R) : Except Err R := do
  throwUnless (!o.isEmpty)
  return o.endTime

/-- `Evaluate`, src/maliput/drake/systems/analysis/dense_output.h:56-60, 169-177 and
src/maliput/drake/systems/analysis/hermitian_dense_output.h:283-286. -/
def Output.evaluate (o : Output R) (t : R) : Except Err R := do
  throwUnless (!o.isEmpty)
  throwUnless (¬ (t < o.startTime ∨ t > o.endTime))
  o.trajectory.evalDerivative t 0

/-- `EvaluateNth`, src/maliput/drake/systems/analysis/dense_output.h:78-83, 155-162 and
src/maliput/drake/systems/analysis/hermitian_dense_output.h:288-290. -/
def Output.evaluateNth (o : Output R) (t : R) (n : Int) : Except Err R := do
  throwUnless (!o.isEmpty)
  throwUnless (¬ (n < 0 ∨ 1 ≤ n))
  throwUnless (¬ (t < o.startTime ∨ t > o.endTime))
  o.trajectory.scalarValue t

/-- The operations that change the output. -/
inductive Op (R : Type)
  | update (step : Step R)
  | rollback
  | consolidate

/-- A call. -/
def Output.exec (o : Output R) : Op R → Output R × Except Err Unit
  | .update s => o.update s
  | .rollback => o.rollback
  | .consolidate => o.consolidate

/-- Calls one after the other; an exception ends them. -/
def Output.run (o : Output R) : List (Op R) → Except Err (Output R)
  | [] => .ok o
  | op :: rest =>
    match o.exec op with
    | (o', .ok ()) => o'.run rest
    | (_, .error e) => .error e

/-- Calls one after the other; exceptions are caught. -/
def Output.runAll (o : Output R) : List (Op R) → Output R
  | [] => o
  | op :: rest => (o.exec op).1.runAll rest

end Maliput.DenseOut
