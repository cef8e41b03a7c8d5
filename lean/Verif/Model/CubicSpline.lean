import Verif.Model.PiecewisePolynomial

set_option autoImplicit false
/-!
Model of the cubic splines with continuous second derivatives and of the interpolating polynomial of
src/maliput/drake/common/trajectories/piecewise_polynomial.cc: the systems of equations that the functions set up and
what they make of the solution.  Eigen's solvers are a parameter.  As in `Model.PiecewisePolynomial` the samples are
scalars; the source handles each entry of its matrices alone.
-/
namespace Maliput.Piecewise

open Maliput Poly

variable {R : Type} [Field R] [LinearOrder R]

/-- A row of a system of equations: the entries of the matrix that are not zero, with their columns, and the right hand
side, src/maliput/drake/common/trajectories/piecewise_polynomial.cc:738-740.  The source numbers the rows with a counter
that it increases after each row, so that a row is here an element of a list; entries that it does not set in `b` are
zero, src/maliput/drake/common/trajectories/piecewise_polynomial.cc:812. -/
structure Row (R : Type) where
  entries : List (Nat × R)
  rhs : R
  deriving DecidableEq, Repr

/-- What solves a system: the number of unknowns and the rows give the value of each unknown.  It stands for
`Eigen::SparseLU`, src/maliput/drake/common/trajectories/piecewise_polynomial.cc:836-841, and for
`Eigen::ColPivHouseholderQR`, src/maliput/drake/common/trajectories/piecewise_polynomial.cc:997. -/
abbrev Solver (R : Type) := Nat → List (Row R) → Nat → R

/-- The time between a break and the next one, src/maliput/drake/common/trajectories/piecewise_polynomial.cc:743. -/
def stepAt (times : List R) (i : Nat) : R := times.getD (i + 1) 0 - times.getD i 0

/-- `SetupCubicSplineInteriorCoeffsLinearSystem`,
src/maliput/drake/common/trajectories/piecewise_polynomial.cc:724-772. -/
def interiorRows (times ys : List R) : List (Row R) :=
  (List.range (times.length - 1)).flatMap fun i =>
    let dt := stepAt times i
    ⟨[(3 * i + 0, dt), (3 * i + 1, dt * dt), (3 * i + 2, dt * dt * dt)], ys.getD (i + 1) 0 - ys.getD i 0⟩ ::
      if i ≠ times.length - 2 then
        [⟨[(3 * i + 0, 1), (3 * i + 1, 2 * dt), (3 * i + 2, 3 * dt * dt), (3 * (i + 1), -1)], 0⟩,
          ⟨[(3 * i + 1, 2), (3 * i + 2, 6 * dt), (3 * (i + 1) + 1, -2)], 0⟩]
      else []

/-- The pieces made of the solution, src/maliput/drake/common/trajectories/piecewise_polynomial.cc:843-847. -/
def splinePieces (ys : List R) (segments : Nat) (solution : Nat → R) : List (Polynomial R) :=
  (List.range segments).map fun i =>
    ofCoefficients tVar [ys.getD i 0, solution (3 * i), solution (3 * i + 1), solution (3 * i + 2)]

/-- The rows of the slopes at the ends, src/maliput/drake/common/trajectories/piecewise_polynomial.cc:826-834. -/
def clampedRows (times : List R) (d0 d1 : R) : List (Row R) :=
  let n := times.length
  [⟨[(0, 1)], d0⟩,
    ⟨[(3 * (n - 2) + 0, 1), (3 * (n - 2) + 1, 2 * stepAt times (n - 2)),
      (3 * (n - 2) + 2, 3 * stepAt times (n - 2) * stepAt times (n - 2))], d1⟩]

/-- `CubicWithContinuousSecondDerivatives` with the slopes at the ends,
src/maliput/drake/common/trajectories/piecewise_polynomial.cc:778-852. -/
def cubicClamped (solve : Solver R) (times ys : List R) (d0 d1 : R) : Except Err (PP R) := do
  checkInput times ys 2
  let n := times.length
  let solution := solve (3 * (n - 1)) (interiorRows times ys ++ clampedRows times d0 d1)
  make (splinePieces ys (n - 1) solution) times

/-- The rows of the ends, src/maliput/drake/common/trajectories/piecewise_polynomial.cc:898-943. -/
def endRows (times : List R) (periodic : Bool) : List (Row R) :=
  let n := times.length
  if periodic then
    let dt := stepAt times (n - 2)
    [⟨[(0, -1), (3 * (n - 2) + 0, 1), (3 * (n - 2) + 1, 2 * dt), (3 * (n - 2) + 2, 3 * dt * dt)], 0⟩,
      ⟨[(1, -2), (3 * (n - 2) + 1, 2), (3 * (n - 2) + 2, 6 * dt)], 0⟩]
  else if n > 3 then
    [⟨[(2, 1), (3 + 2, -1)], 0⟩, ⟨[(3 * (n - 3) + 2, 1), (3 * (n - 2) + 2, -1)], 0⟩]
  else [⟨[(2, 1)], 0⟩, ⟨[(3 + 2, 1)], 0⟩]

/-- `CubicWithContinuousSecondDerivatives` with a flag for periodic ends,
src/maliput/drake/common/trajectories/piecewise_polynomial.cc:861-961. -/
def cubicEnds (solve : Solver R) (times ys : List R) (periodic : Bool) : Except Err (PP R) := do
  checkInput times ys 3
  let n := times.length
  let solution := solve (3 * (n - 1)) (interiorRows times ys ++ endRows times periodic)
  make (splinePieces ys (n - 1) solution) times

/-- The check of the times in `LagrangeInterpolatingPolynomial`,
src/maliput/drake/common/trajectories/piecewise_polynomial.cc:973-977. -/
def timesFurther : List R → Bool
  | a :: b :: rest => decide (b - a > epsilonTime) && timesFurther (b :: rest)
  | _ => true

/-- The system of `LagrangeInterpolatingPolynomial`,
src/maliput/drake/common/trajectories/piecewise_polynomial.cc:989-1008. -/
def vandermondeRows (times ys : List R) : List (Row R) :=
  (List.range times.length).map fun i =>
    let relative := times.getD i 0 - times.getD 0 0
    ⟨(List.range times.length).map fun j => (j, relative ^ j), ys.getD i 0⟩

/-- `LagrangeInterpolatingPolynomial`,
src/maliput/drake/common/trajectories/piecewise_polynomial.cc:963-1011. -/
def lagrange (solve : Solver R) (times ys : List R) : Except Err (PP R) :=
  if ¬ times.length > 1 then .error .aborts
  else if ys.length ≠ times.length then .error .aborts
  else if ¬ timesFurther times then .error .aborts
  else
    let solution := solve times.length (vandermondeRows times ys)
    make [ofCoefficients tVar ((List.range times.length).map solution)]
      [times.getD 0 0, times.getD (times.length - 1) 0]

end Maliput.Piecewise
