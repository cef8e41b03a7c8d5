import Verif.Model.DenseOutput
import Verif.Model.MatrixSplines

set_option autoImplicit false

/-!
Model of the stepwise dense output of an integrator, src/maliput/drake/systems/analysis/hermitian_dense_output.h and
src/maliput/drake/systems/analysis/dense_output.h, for states with any number of components.  `T` is `double`.
-/
namespace Maliput.VectorDenseOut
open Maliput Piecewise DenseOut

variable {R : Type} [Field R] [LinearOrder R]

/-- A time, the state and its derivative; both are matrices, as in the interface. -/
abbrev VSample (R : Type) := R × Mat R × Mat R

/-- The members of `IntegrationStep`, src/maliput/drake/systems/analysis/hermitian_dense_output.h:212-217.  The three vectors are
extended together, so that they are one list here; the default constructed step is empty. -/
abbrev VStep (R : Type) := List (VSample R)

/-- `ValidateStepExtendTripletOrThrow`, src/maliput/drake/systems/analysis/hermitian_dense_output.h:177-210. -/
def validateTriplet (s : VStep R) (x : VSample R) : Except Err Unit := do
  throwUnless (x.2.1.cols = 1)
  throwUnless (x.2.2.cols = 1)
  if s ≠ [] then
    throwUnless (¬ x.1 < (← front s).1)
    throwUnless (¬ x.1 ≤ (← back s).1)
  if s ≠ [] then
    throwUnless ((← back s).2.1.rows = x.2.1.rows)
  throwUnless (x.2.1.rows = x.2.2.rows)

/-- `Extend`, src/maliput/drake/systems/analysis/hermitian_dense_output.h:140-145. -/
def VStep.extend (s : VStep R) (x : VSample R) : Except Err (VStep R) := do
  validateTriplet s x
  return s ++ [x]

/-- `IntegrationStep`, the constructor with a sample, src/maliput/drake/systems/analysis/hermitian_dense_output.h:115-120. -/
def VStep.make (x : VSample R) : Except Err (VStep R) := do
  validateTriplet [] x
  return [x]

/-- `size`, src/maliput/drake/systems/analysis/hermitian_dense_output.h:160. -/
def VStep.size (s : VStep R) : Except Err Nat := return (← back s).2.1.rows

/-- The members of `HermitianDenseOutput`, src/maliput/drake/systems/analysis/hermitian_dense_output.h:367-391. -/
structure VOutput (R : Type) where
  startTime : R
  endTime : R
  lastConsolidated : VStep R
  rawSteps : List (VStep R)
  trajectory : MP R

/-- `HermitianDenseOutput`, the default constructor. -/
def VOutput.new : VOutput R := ⟨0, 0, [], [], ⟨[], []⟩⟩

/-- The sum of the squares of the entries, `cwiseAbs2().sum()` of Eigen. -/
def squares (l : List R) : R := (l.map fun a => a * a).sum

/-- `isApprox` of Eigen for matrices, with its default precision; undefined for matrices of different sizes. -/
def approxMatrices (a b : Mat R) : Except Err Bool :=
  if a.rows = b.rows ∧ a.cols = b.cols then
    .ok (decide (squares (List.zipWith (· - ·) a.data b.data) ≤ (1 / 10 ^ 12) * (1 / 10 ^ 12) * min (squares a.data) (squares b.data)))
  else .error .ub

/-- `EnsureOutputConsistencyOrThrow`, src/maliput/drake/systems/analysis/hermitian_dense_output.h:328-365. -/
def ensureContinuity (next prev : VStep R) : Except Err Unit := do
  throwUnless ((← VStep.size prev) = (← VStep.size next))
  let prevEnd ← back prev
  let nextStart ← front next
  let allowed := max |prevEnd.1| 1 * epsilonTime
  throwUnless (¬ |prevEnd.1 - nextStart.1| > allowed)
  throwUnless (← approxMatrices prevEnd.2.1 nextStart.2.1)
  throwUnless (← approxMatrices prevEnd.2.2 nextStart.2.2)

/-- `ValidateStepCanBeConsolidatedOrThrow`, src/maliput/drake/systems/analysis/hermitian_dense_output.h:304-316. -/
def VOutput.validateStep (o : VOutput R) (step : VStep R) : Except Err Unit := do
  let first ← front step
  let last ← back step
  throwUnless (first.1 ≠ last.1)
  if o.rawSteps ≠ [] then
    ensureContinuity step (← back o.rawSteps)
  else if o.trajectory.matrices ≠ [] then
    ensureContinuity step o.lastConsolidated

/-- `Update`, src/maliput/drake/systems/analysis/hermitian_dense_output.h:255-258. -/
def VOutput.update (o : VOutput R) (step : VStep R) : VOutput R × Except Err Unit :=
  match o.validateStep step with
  | .error e => (o, .error e)
  | .ok () => ({ o with rawSteps := o.rawSteps ++ [step] }, .ok ())

/-- `Rollback`, src/maliput/drake/systems/analysis/hermitian_dense_output.h:260-265. -/
def VOutput.rollback (o : VOutput R) : VOutput R × Except Err Unit :=
  if o.rawSteps = [] then (o, .error .throws)
  else ({ o with rawSteps := o.rawSteps.dropLast }, .ok ())

/-- `CubicHermite` of the samples of a step. -/
def VStep.hermite (s : VStep R) : Except Err (MP R) :=
  MP.cubicHermite (s.map fun x => x.1) (s.map fun x => x.2.1) (s.map fun x => x.2.2)

/-- The loop of `Consolidate`, src/maliput/drake/systems/analysis/hermitian_dense_output.h:271-275.  The trajectory is changed
by the steps before the one that throws. -/
def consolidateSteps : List (VStep R) → MP R → MP R × Except Err Unit
  | [], p => (p, .ok ())
  | s :: rest, p =>
    match VStep.hermite s with
    | .error e => (p, .error e)
    | .ok q =>
      match p.concatenate q with
      | .error e => (p, .error e)
      | .ok p' => consolidateSteps rest p'

/-- `Consolidate`, src/maliput/drake/systems/analysis/hermitian_dense_output.h:267-280. -/
def VOutput.consolidate (o : VOutput R) : VOutput R × Except Err Unit :=
  if o.rawSteps = [] then (o, .error .throws)
  else
    match consolidateSteps o.rawSteps o.trajectory with
    | (p, .error e) => ({ o with trajectory := p }, .error e)
    | (p, .ok ()) =>
      match p.times.startTime, p.times.endTime, back o.rawSteps with
      | .ok s, .ok e, .ok last => (⟨s, e, last, [], p⟩, .ok ())
      | .error e, _, _ => ({ o with trajectory := p }, .error e)
      | .ok s, .error e, _ => ({ o with trajectory := p, startTime := s }, .error e)
      | .ok s, .ok e, .error err => ({ o with trajectory := p, startTime := s, endTime := e }, .error err)

/-- `is_empty`, src/maliput/drake/systems/analysis/hermitian_dense_output.h:292. -/
def VOutput.isEmpty (o : VOutput R) : Bool := decide (o.trajectory.matrices = [])

/-- `size`, src/maliput/drake/systems/analysis/dense_output.h:89-92 and
src/maliput/drake/systems/analysis/hermitian_dense_output.h:294. -/
def VOutput.size (o : VOutput R) : Except Err Nat := do
  throwUnless (!o.isEmpty)
  o.trajectory.rows

/-- `start_time`, src/maliput/drake/systems/analysis/dense_output.h:101-104 and
src/maliput/drake/systems/analysis/hermitian_dense_output.h:298. -/
def VOutput.getStartTime (o : VOutput R) : Except Err R := do
  throwUnless (!o.isEmpty)
  return o.startTime

/-- `end_time`, src/maliput/drake/systems/analysis/dense_output.h:110-113 and
src/maliput/drake/systems/analysis/hermitian_dense_output.h:296. -/
def VOutput.getEndTime (o : VOutput R) : Except Err R := do
  throwUnless (!o.isEmpty)
  return o.endTime

/-- `Evaluate`, src/maliput/drake/systems/analysis/dense_output.h:56-60, 169-177 and
src/maliput/drake/systems/analysis/hermitian_dense_output.h:283-286. -/
def VOutput.evaluate (o : VOutput R) (t : R) : Except Err (List R) := do
  throwUnless (!o.isEmpty)
  throwUnless (¬ (t < o.startTime ∨ t > o.endTime))
  let m ← o.trajectory.evalDerivative t 0
  (List.range m.rows).mapM fun r => m.get r 0

/-- `EvaluateNth`, src/maliput/drake/systems/analysis/dense_output.h:78-83, 155-162 and
src/maliput/drake/systems/analysis/hermitian_dense_output.h:288-290. -/
def VOutput.evaluateNth (o : VOutput R) (t : R) (n : Int) : Except Err R := do
  throwUnless (!o.isEmpty)
  throwUnless (¬ (n < 0 ∨ ((← o.trajectory.rows) : Int) ≤ n))
  throwUnless (¬ (t < o.startTime ∨ t > o.endTime))
  o.trajectory.scalarValue t n.toNat 0

/-- The operations that change the output. -/
inductive VOp (R : Type)
  | update (step : VStep R)
  | rollback
  | consolidate

/-- A call. -/
def VOutput.exec (o : VOutput R) : VOp R → VOutput R × Except Err Unit
  | .update s => o.update s
  | .rollback => o.rollback
  | .consolidate => o.consolidate

/-- Calls one after the other; an exception ends them. -/
def VOutput.run (o : VOutput R) : List (VOp R) → Except Err (VOutput R)
  | [] => .ok o
  | op :: rest =>
    match o.exec op with
    | (o', .ok ()) => o'.run rest
    | (_, .error e) => .error e

end Maliput.VectorDenseOut
