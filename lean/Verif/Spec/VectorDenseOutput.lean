import Verif.Model.VectorDenseOutput
import Verif.Spec.DenseOutput
import Verif.Spec.MatrixTrajectory

set_option autoImplicit false
set_option linter.unusedSectionVars false

/-! Specification of the stepwise dense output of states with any number of components: each component on its own. -/
namespace Maliput.Spec
open Maliput Piecewise DenseOut VectorDenseOut Piecewise.Spec

variable {R : Type} [Field R] [LinearOrder R]

/-- The state and the derivative are columns with `n` elements. -/
def ColumnSample (n : Nat) (x : VSample R) : Prop := Shape n 1 x.2.1 ∧ Shape n 1 x.2.2

/-- All samples of a step are columns with `n` elements. -/
def ColumnStep (n : Nat) (s : VStep R) : Prop := ∀ x ∈ s, ColumnSample n x

/-- The sample of component `k`. -/
def sampleOf (k : Nat) (x : VSample R) : Sample R := (x.1, x.2.1.data.getD k 0, x.2.2.data.getD k 0)

/-- The step of component `k`. -/
def stepOf (k : Nat) (s : VStep R) : Step R := s.map (sampleOf k)

/-- The call as component `k` sees it. -/
def opOf (k : Nat) : VOp R → Op R
  | .update s => .update (stepOf k s)
  | .rollback => .rollback
  | .consolidate => .consolidate

/-- All steps given to a call have states with `n` components. -/
def ColumnOp (n : Nat) : VOp R → Prop
  | .update s => ColumnStep n s
  | _ => True

/-- Steps that a caller can make: one sample, extended any number of times. -/
inductive ReachableVStep : VStep R → Prop
  | make {x s} : VStep.make x = .ok s → ReachableVStep s
  | extend {s x s'} : ReachableVStep s → VStep.extend s x = .ok s' → ReachableVStep s'

/-- The steps that were consolidated and those that wait for it, after calls that all succeeded. -/
def keptVFrom : List (VStep R) × List (VStep R) → List (VOp R) → List (VStep R) × List (VStep R)
  | k, [] => k
  | (done, pending), .update s :: rest => keptVFrom (done, pending ++ [s]) rest
  | (done, pending), .rollback :: rest => keptVFrom (done, pending.dropLast) rest
  | (done, pending), .consolidate :: rest => keptVFrom (done ++ pending, []) rest

/-- The samples of steps that continue each other, each shared one once. -/
def mergedV : List (VStep R) → List (VSample R)
  | [] => []
  | s :: rest => s ++ rest.flatMap List.tail

end Maliput.Spec
