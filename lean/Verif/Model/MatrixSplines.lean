import Verif.Model.MatrixTrajectory
import Verif.Model.CubicSpline

set_option autoImplicit false
set_option linter.unusedSectionVars false

/-!
Model of the functions of src/maliput/drake/common/trajectories/piecewise_polynomial.cc that make trajectories of matrices from
samples.  The entries of a segment are computed together: where the source loops over the entries outside and the segments inside,
the model loops over the segments outside.
-/
namespace Maliput.Piecewise

open Maliput Poly

variable {R : Type} [Field R] [LinearOrder R]

/-- `CheckSplineGenerationInputValidityOrThrow`,
src/maliput/drake/common/trajectories/piecewise_polynomial.cc:479-513, for matrices. -/
def checkMatrices (times : List R) (ys : List (Mat R)) (minLength : Nat) : Except Err Unit := do
  throwUnless (times.length = ys.length)
  throwUnless (minLength ≤ times.length)
  match ys with
  | [] => .error .ub
  | y :: _ =>
    throwUnless (1 ≤ y.rows ∧ 1 ≤ y.cols)
    throwUnless (ys.all fun z => z.rows == y.rows && z.cols == y.cols)
    throwUnless (timesIncrease times)

/-- The matrices of `ZeroOrderHold`, src/maliput/drake/common/trajectories/piecewise_polynomial.cc:527-536. -/
def zeroOrderMatrices : List (Mat R) → Except Err (List (Mat (Polynomial R)))
  | a :: b :: rest => do
    let m ← generate a.rows a.cols fun r c => do return ofCoefficients tVar [← a.get r c]
    return m :: (← zeroOrderMatrices (b :: rest))
  | _ => return []

/-- `ZeroOrderHold`, src/maliput/drake/common/trajectories/piecewise_polynomial.cc:518-538, for matrices. -/
def MP.zeroOrderHold (times : List R) (ys : List (Mat R)) : Except Err (MP R) := do
  checkMatrices times ys 2
  MP.make (← zeroOrderMatrices ys) times

/-- The matrices of `FirstOrderHold`, src/maliput/drake/common/trajectories/piecewise_polynomial.cc:550-560. -/
def firstOrderMatrices : List (R × Mat R) → Except Err (List (Mat (Polynomial R)))
  | a :: b :: rest => do
    let m ← generate a.2.rows a.2.cols fun r c => do
      return ofCoefficients tVar [← a.2.get r c, ((← b.2.get r c) - (← a.2.get r c)) / (b.1 - a.1)]
    return m :: (← firstOrderMatrices (b :: rest))
  | _ => return []

/-- `FirstOrderHold`, src/maliput/drake/common/trajectories/piecewise_polynomial.cc:541-562, for matrices. -/
def MP.firstOrderHold (times : List R) (ys : List (Mat R)) : Except Err (MP R) := do
  checkMatrices times ys 2
  MP.make (← firstOrderMatrices (times.zip ys)) times

/-- The matrices of `CubicHermite`, src/maliput/drake/common/trajectories/piecewise_polynomial.cc:706-716. -/
def hermiteMatrices : List (R × Mat R × Mat R) → Except Err (List (Mat (Polynomial R)))
  | a :: b :: rest => do
    let m ← generate a.2.1.rows a.2.1.cols fun r c => do
      return ofCoefficients tVar
        (← cubicCoefficients (b.1 - a.1) (← a.2.1.get r c) (← b.2.1.get r c) (← a.2.2.get r c) (← b.2.2.get r c))
    return m :: (← hermiteMatrices (b :: rest))
  | _ => return []

/-- `CubicHermite`, src/maliput/drake/common/trajectories/piecewise_polynomial.cc:682-719, for matrices. -/
def MP.cubicHermite (times : List R) (ys yds : List (Mat R)) : Except Err (MP R) := do
  checkMatrices times ys 2
  throwUnless (times.length = yds.length)
  throwUnless (yds.all fun z => ys.head?.any fun y => z.rows == y.rows && z.cols == y.cols)
  MP.make (← hermiteMatrices (times.zip (ys.zip yds))) times

/-- The slopes of a segment, src/maliput/drake/common/trajectories/piecewise_polynomial.cc:646. -/
def slopeMatrix (a b : R × Mat R) : Except Err (Mat R) := Mat.zipWith (fun y0 y1 => (y1 - y0) / (b.1 - a.1)) a.2 b.2

/-- `ComputePchipEndSlope`, src/maliput/drake/common/trajectories/piecewise_polynomial.cc:581-596, for matrices. -/
def endSlopeMatrix (dt0 dt1 : R) (slope0 slope1 : Mat R) : Except Err (Mat R) :=
  Mat.zipWith (endSlope dt0 dt1) slope0 slope1

/-- The derivatives at the inner samples, src/maliput/drake/common/trajectories/piecewise_polynomial.cc:653-663. -/
def innerSlopeMatrices : List (R × Mat R) → Except Err (List (Mat R))
  | a :: b :: c :: rest => do
    let m ← Mat.zipWith (innerSlope (b.1 - a.1) (c.1 - b.1)) (← slopeMatrix a b) (← slopeMatrix b c)
    return m :: (← innerSlopeMatrices (b :: c :: rest))
  | _ => return []

/-- The derivatives at the first sample, src/maliput/drake/common/trajectories/piecewise_polynomial.cc:637-638. -/
def startSlopeMatrix : List (R × Mat R) → Except Err (Mat R)
  | a :: b :: c :: _ => do endSlopeMatrix (b.1 - a.1) (c.1 - b.1) (← slopeMatrix a b) (← slopeMatrix b c)
  | _ => .error .ub

/-- The derivatives at the last sample, from the samples in reverse order,
src/maliput/drake/common/trajectories/piecewise_polynomial.cc:639-641. -/
def finalSlopeMatrix : List (R × Mat R) → Except Err (Mat R)
  | c :: b :: a :: _ => do endSlopeMatrix (c.1 - b.1) (b.1 - a.1) (← slopeMatrix b c) (← slopeMatrix a b)
  | _ => .error .ub

/-- `MatrixX<T>::Zero` of the size of the first sample, src/maliput/drake/common/trajectories/piecewise_polynomial.cc:633-634. -/
def zeroMatrix : List (R × Mat R) → Except Err (Mat R)
  | a :: _ => .ok ⟨a.2.rows, a.2.cols, List.replicate (a.2.rows * a.2.cols) 0⟩
  | _ => .error .ub

/-- `CubicShapePreserving`, src/maliput/drake/common/trajectories/piecewise_polynomial.cc:608-678, for matrices. -/
def MP.cubicShapePreserving (times : List R) (ys : List (Mat R)) (zeroEnds : Bool) : Except Err (MP R) := do
  checkMatrices times ys (if zeroEnds then 2 else 3)
  let samples := times.zip ys
  let first ← (if zeroEnds then zeroMatrix samples else startSlopeMatrix samples)
  let last ← (if zeroEnds then zeroMatrix samples else finalSlopeMatrix samples.reverse)
  let inner ← innerSlopeMatrices samples
  MP.make (← hermiteMatrices (times.zip (ys.zip (first :: inner ++ [last])))) times

/-- Which entries of `b` the rows of `SetupCubicSplineInteriorCoeffsLinearSystem` write,
src/maliput/drake/common/trajectories/piecewise_polynomial.cc:742-769, and then the two rows of the ends.  The others keep what they
have. -/
def writtenRows (n : Nat) : List Bool :=
  ((List.range (n - 1)).flatMap fun i => true :: if i ≠ n - 2 then [false, false] else []) ++ [true, true]

/-- `b` after the rows of a system have been set up; the source writes into the same `b` for all entries. -/
def fill : List R → List (Row R) → List Bool → List R
  | x :: b, row :: rows, w :: ws => (if w then row.rhs else x) :: fill b rows ws
  | b, _, _ => b

/-- The rows with `b` as the right hand sides. -/
def withRhs : List (Row R) → List R → List (Row R)
  | row :: rows, x :: b => { row with rhs := x } :: withRhs rows b
  | _, _ => []

/-- The rows and columns in the order of the loops, src/maliput/drake/common/trajectories/piecewise_polynomial.cc:815-816. -/
def rowByRow (rows cols : Nat) : List (Nat × Nat) := (List.range rows).flatMap fun j => (List.range cols).map fun k => (j, k)

/-- The loop over the entries, src/maliput/drake/common/trajectories/piecewise_polynomial.cc:814-841: the solution for each of them.
`b` goes from one entry to the next. -/
def solveEntries (solve : Solver R) (n : Nat) (rowsOf : Nat → Nat → Except Err (List (Row R))) :
    List (Nat × Nat) → List R → Except Err (List (Nat → R))
  | [], _ => return []
  | (r, c) :: rest, b => do
    let rows ← rowsOf r c
    let b' := fill b rows (writtenRows n)
    return solve (3 * (n - 1)) (withRhs rows b') :: (← solveEntries solve n rowsOf rest b')

/-- The matrices made of the solutions, src/maliput/drake/common/trajectories/piecewise_polynomial.cc:843-847. -/
def splineMatrices (rows cols : Nat) (ys : List (Mat R)) (segments : Nat) (solutions : List (Nat → R)) :
    Except Err (List (Mat (Polynomial R))) :=
  (List.range segments).mapM fun i => generate rows cols fun r c => do
    let s ← nth solutions (r * cols + c)
    return ofCoefficients tVar [← (← nth ys i).get r c, s (3 * i), s (3 * i + 1), s (3 * i + 2)]

/-- `CubicWithContinuousSecondDerivatives`, src/maliput/drake/common/trajectories/piecewise_polynomial.cc:778-852, with the slopes at the
ends, for matrices. -/
def MP.cubicClamped (solve : Solver R) (times : List R) (ys : List (Mat R)) (d0 d1 : Mat R) : Except Err (MP R) := do
  checkMatrices times ys 2
  let y ← nth ys 0
  throwUnless (d0.rows = y.rows ∧ d0.cols = y.cols)
  throwUnless (d1.rows = y.rows ∧ d1.cols = y.cols)
  let n := times.length
  let solutions ← solveEntries solve n
    (fun r c => do
      let column ← ys.mapM fun y => y.get r c
      return interiorRows times column ++ clampedRows times (← d0.get r c) (← d1.get r c))
    (rowByRow y.rows y.cols) (List.replicate (3 * (n - 1)) 0)
  MP.make (← splineMatrices y.rows y.cols ys (n - 1) solutions) times

/-- `CubicWithContinuousSecondDerivatives`, src/maliput/drake/common/trajectories/piecewise_polynomial.cc:861-961, with a flag for
periodic ends, for matrices. -/
def MP.cubicEnds (solve : Solver R) (times : List R) (ys : List (Mat R)) (periodic : Bool) : Except Err (MP R) := do
  checkMatrices times ys 3
  let y ← nth ys 0
  let n := times.length
  let solutions ← solveEntries solve n
    (fun r c => do
      let column ← ys.mapM fun y => y.get r c
      return interiorRows times column ++ endRows times periodic)
    (rowByRow y.rows y.cols) (List.replicate (3 * (n - 1)) 0)
  MP.make (← splineMatrices y.rows y.cols ys (n - 1) solutions) times

/-- `LagrangeInterpolatingPolynomial`, src/maliput/drake/common/trajectories/piecewise_polynomial.cc:963-1011, for matrices; all of `b`
is written for each entry. -/
def MP.lagrange (solve : Solver R) (times : List R) (ys : List (Mat R)) : Except Err (MP R) :=
  if ¬ times.length > 1 then .error .aborts
  else if ys.length ≠ times.length then .error .aborts
  else do
    let y ← nth ys 0
    if ¬ (timesFurther times ∧ ys.all fun z => z.rows == y.rows && z.cols == y.cols) then .error .aborts
    else
      let m ← generate y.rows y.cols fun r c => do
        let column ← ys.mapM fun y => y.get r c
        return ofCoefficients tVar ((List.range times.length).map (solve times.length (vandermondeRows times column)))
      MP.make [m] [times.getD 0 0, times.getD (times.length - 1) 0]

/-- `ColsToStdVector`, src/maliput/drake/common/trajectories/piecewise_polynomial.cc:1014-1024, with which the functions take the columns of
a matrix for samples, lines 1028-1090. -/
def colsToVector (m : Mat R) : Except Err (List (Mat R)) :=
  (List.range m.cols).mapM fun i => generate m.rows 1 fun r _ => m.get r i

end Maliput.Piecewise
