import Verif.Model.DenseOutput
import Verif.Spec.PiecewisePolynomial

set_option autoImplicit false

/-! What the stepwise dense output means. -/
namespace Maliput.Spec
open Maliput Piecewise DenseOut Piecewise.Spec

variable {R : Type} [Field R] [LinearOrder R]

/-- Steps that a caller can make: one sample, extended any number of times. -/
inductive ReachableStep : Step R → Prop
  | make {x s} : Step.make x = .ok s → ReachableStep s
  | extend {s x s'} : ReachableStep s → Step.extend s x = .ok s' → ReachableStep s'

/-- The steps that were consolidated and those that wait for it, after calls that all succeeded. -/
def keptFrom : List (Step R) × List (Step R) → List (Op R) → List (Step R) × List (Step R)
  | k, [] => k
  | (done, pending), .update s :: rest => keptFrom (done, pending ++ [s]) rest
  | (done, pending), .rollback :: rest => keptFrom (done, pending.dropLast) rest
  | (done, pending), .consolidate :: rest => keptFrom (done ++ pending, []) rest

/-- A step with at least two samples, far enough apart for a spline. -/
def SplineStep (s : Step R) : Prop := 2 ≤ s.length ∧ Apart (s.map fun x => x.1)

/-- A step that starts with the last sample of the one before it. -/
def Continues (prev next : Step R) : Prop := prev.getLast? = next.head?

/-- Calls that respect the protocol: every update continues the last step that is kept, and there is an update to roll back or to
consolidate. -/
def ProperFrom : List (Step R) × List (Step R) → List (Op R) → Prop
  | _, [] => True
  | (done, pending), .update s :: rest =>
    SplineStep s ∧ (∀ prev ∈ (done ++ pending).getLast?, Continues prev s) ∧ ProperFrom (done, pending ++ [s]) rest
  | (done, pending), .rollback :: rest => pending ≠ [] ∧ ProperFrom (done, pending.dropLast) rest
  | (done, pending), .consolidate :: rest => pending ≠ [] ∧ ProperFrom (done ++ pending, []) rest

/-- The samples of steps that continue each other, each shared one once. -/
def merged : List (Step R) → List (Sample R)
  | [] => []
  | s :: rest => s ++ rest.flatMap List.tail

/-- The cubic spline through the samples. -/
def splineOf (l : List (Sample R)) : Except Err (PP R) :=
  cubicHermite (l.map fun x => x.1) (l.map fun x => x.2.1) (l.map fun x => x.2.2)

end Maliput.Spec
