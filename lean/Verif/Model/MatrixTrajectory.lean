import Verif.Model.PiecewisePolynomial

set_option autoImplicit false
set_option linter.unusedSectionVars false

/-!
Model of src/maliput/drake/common/trajectories/piecewise_polynomial.cc for matrices of any size.  Matrices are stored column by
column, as Eigen stores them.  The loops over the rows and columns of the source visit the entries row by row, the model
column by column: the order matters only to which of two errors is seen.  What the assertions of Eigen refuse is undefined.
-/
namespace Maliput.Piecewise

open Maliput Poly

variable {R : Type} [Field R] [LinearOrder R]

/-- A matrix: its numbers of rows and columns and its entries, column by column. -/
structure Mat (α : Type) where
  rows : Nat
  cols : Nat
  data : List α
  deriving DecidableEq, Repr

/-- An entry of a matrix, `operator()`. -/
def Mat.get {α : Type} (m : Mat α) (r c : Nat) : Except Err α :=
  if r < m.rows ∧ c < m.cols then nth m.data (c * m.rows + r) else .error .ub

/-- A matrix whose entries are computed one by one. -/
def generate {α : Type} (rows cols : Nat) (f : Nat → Nat → Except Err α) : Except Err (Mat α) :=
  return ⟨rows, cols, ← (List.range (rows * cols)).mapM fun k => f (k % rows) (k / rows)⟩

/-- A piecewise polynomial: the breaks and one matrix of polynomials for each segment,
src/maliput/drake/common/trajectories/piecewise_polynomial.h:766. -/
structure MP (R : Type) where
  breaks : List R
  matrices : List (Mat (Polynomial R))
  deriving DecidableEq, Repr

/-- The times of the trajectory, on which the functions of `PiecewiseTrajectory` depend. -/
def MP.times (p : MP R) : PP R := ⟨p.breaks, []⟩

/-- The constructor `PiecewisePolynomial`, src/maliput/drake/common/trajectories/piecewise_polynomial.cc:22-37; there is one matrix for
each segment. -/
def MP.make (matrices : List (Mat (Polynomial R))) (breaks : List R) : Except Err (MP R) :=
  if ¬ breaksApart breaks then .error .aborts
  else match matrices with
    | [] => return ⟨breaks, matrices⟩
    | m :: ms => if ms.all fun n => n.rows == m.rows && n.cols == m.cols then return ⟨breaks, matrices⟩ else .error .throws

/-- The constructor `PiecewisePolynomial` from polynomials, src/maliput/drake/common/trajectories/piecewise_polynomial.cc:39-49. -/
def MP.ofScalar (p : PP R) : MP R := ⟨p.breaks, p.polynomials.map fun q => ⟨1, 1, [q]⟩⟩

/-- `rows`, src/maliput/drake/common/trajectories/piecewise_polynomial.cc:427-434. -/
def MP.rows (p : MP R) : Except Err Nat := match p.matrices with | m :: _ => .ok m.rows | [] => .error .throws

/-- `cols`, src/maliput/drake/common/trajectories/piecewise_polynomial.cc:436-443. -/
def MP.cols (p : MP R) : Except Err Nat := match p.matrices with | m :: _ => .ok m.cols | [] => .error .throws

/-- `getPolynomial`, src/maliput/drake/common/trajectories/piecewise_polynomial.cc:124-129. -/
def MP.getPolynomial (p : MP R) (i r c : Nat) : Except Err (Polynomial R) := do
  throwUnless (i < p.times.segments)
  (← nth p.matrices i).get r c

/-- `EvaluateSegmentAbsoluteTime`, src/maliput/drake/common/trajectories/piecewise_polynomial.cc:420-425. -/
def MP.evaluateSegment (p : MP R) (i : Nat) (t : R) (r c order : Nat) : Except Err R := do
  let q ← (← nth p.matrices i).get r c
  let b ← p.times.startOf i
  evaluateUnivariate q (t - b) order

/-- `scalarValue`, src/maliput/drake/common/trajectories/piecewise_polynomial.cc:99-103. -/
def MP.scalarValue (p : MP R) (t : R) (r c : Nat) : Except Err R := do
  p.evaluateSegment (← p.times.segmentIndex t) t r c 0

/-- `DoEvalDerivative`, src/maliput/drake/common/trajectories/piecewise_polynomial.cc:105-116. -/
def MP.evalDerivative (p : MP R) (t : R) (order : Nat) : Except Err (Mat R) := do
  let i ← p.times.segmentIndex t
  let time ← p.times.clip t
  generate (← p.rows) (← p.cols) fun r c => p.evaluateSegment i time r c order

/-- One matrix of which each entry is changed, as in `derivative`, `ReverseTime` and `ScaleTime`. -/
def MP.changed (p : MP R) (g : Polynomial R → Except Err (Polynomial R)) (m : Mat (Polynomial R)) :
    Except Err (Mat (Polynomial R)) := do
  generate (← p.rows) (← p.cols) fun r c => do g (← m.get r c)

/-- `derivative`, src/maliput/drake/common/trajectories/piecewise_polynomial.cc:56-72. -/
def MP.derivative (p : MP R) (order : Nat) : Except Err (MP R) :=
  if order = 0 then return p
  else return ⟨p.breaks, ← p.matrices.mapM (p.changed fun q => Poly.derivative q order)⟩

/-- The loop of `integral`, src/maliput/drake/common/trajectories/piecewise_polynomial.cc:83-95, with the values at the start of the next
segment. -/
def MP.integralMatrices (p : MP R) :
    List R → List (Mat (Polynomial R)) → (Nat → Nat → Except Err R) → Except Err (List (Mat (Polynomial R)))
  | b0 :: b1 :: bs, m :: ms, value => do
    let i ← generate (← p.rows) (← p.cols) fun r c => do Poly.integral (← m.get r c) (← value r c)
    return i :: (← p.integralMatrices (b1 :: bs) ms fun r c => do evaluateUnivariate (← i.get r c) (b1 - b0) 0)
  | _, _, _ => return []

/-- `integral`, src/maliput/drake/common/trajectories/piecewise_polynomial.cc:80-97, with a matrix of values. -/
def MP.integral (p : MP R) (value : Mat R) : Except Err (MP R) :=
  return ⟨p.breaks, ← p.integralMatrices p.breaks p.matrices value.get⟩

/-- `+=` and `-=` of matrices in Eigen. -/
def Mat.zipWith {α β γ : Type} (op : α → β → γ) (m : Mat α) (n : Mat β) : Except Err (Mat γ) :=
  if m.rows = n.rows ∧ m.cols = n.cols then generate m.rows m.cols fun r c => do return op (← m.get r c) (← n.get r c)
  else .error .ub

/-- The loop over the matrices of two trajectories; the second trajectory has at least as many as the first. -/
def zipM {α β γ : Type} (f : α → β → Except Err γ) : List α → List β → Except Err (List γ)
  | a :: as, b :: bs => do return (← f a b) :: (← zipM f as bs)
  | _ :: _, [] => .error .ub
  | [], _ => .ok []

/-- `operator+=` and `operator-=`, src/maliput/drake/common/trajectories/piecewise_polynomial.cc:137-151, with the operation on
polynomials. -/
def MP.zipWith (op : Polynomial R → Polynomial R → Polynomial R) (p q : MP R) : Except Err (MP R) := do
  throwUnless (p.times.timesEqual q.times)
  return ⟨p.breaks, ← zipM (Mat.zipWith op) p.matrices q.matrices⟩

/-- `operator+`, src/maliput/drake/common/trajectories/piecewise_polynomial.cc:175-180. -/
def MP.add (p q : MP R) : Except Err (MP R) := p.zipWith Poly.add q
/-- `operator-`, src/maliput/drake/common/trajectories/piecewise_polynomial.cc:182-187. -/
def MP.sub (p q : MP R) : Except Err (MP R) := p.zipWith Poly.sub q

/-- The sum of the entries of a vector in Eigen. -/
def sumPolynomials : List (Polynomial R) → Polynomial R
  | [] => Poly.const 0
  | q :: qs => qs.foldl Poly.add q

/-- `*=` of matrices in Eigen, an entry of which is the sum of the products of a row and a column.  Eigen may add the products of
large matrices in another order. -/
def Mat.mul (m n : Mat (Polynomial R)) : Except Err (Mat (Polynomial R)) :=
  if m.cols = n.rows then
    generate m.rows n.cols fun r c => do
      return sumPolynomials (← (List.range m.cols).mapM fun k => do return Poly.mul (← m.get r k) (← n.get k c))
  else .error .ub

/-- `operator*=`, src/maliput/drake/common/trajectories/piecewise_polynomial.cc:153-161, with `operator*`, lines 198-203. -/
def MP.mul (p q : MP R) : Except Err (MP R) := do
  throwUnless (p.times.timesEqual q.times)
  return ⟨p.breaks, ← zipM Mat.mul p.matrices q.matrices⟩

/-- `operator+=`, src/maliput/drake/common/trajectories/piecewise_polynomial.cc:163-167, with a matrix, and `operator+`, lines 205-210. -/
def MP.addOffset (p : MP R) (offset : Mat R) : Except Err (MP R) :=
  return ⟨p.breaks, ← p.matrices.mapM fun m => m.zipWith (fun q c => Poly.add q (Poly.const c)) offset⟩

/-- `operator-=`, src/maliput/drake/common/trajectories/piecewise_polynomial.cc:169-173, with a matrix, and `operator-`, lines 212-217. -/
def MP.subOffset (p : MP R) (offset : Mat R) : Except Err (MP R) :=
  return ⟨p.breaks, ← p.matrices.mapM fun m => m.zipWith (fun q c => Poly.sub q (Poly.const c)) offset⟩

/-- `operator-`, src/maliput/drake/common/trajectories/piecewise_polynomial.cc:189-196, of one trajectory. -/
def MP.negate (p : MP R) : MP R := ⟨p.breaks, p.matrices.map fun m => ⟨m.rows, m.cols, m.data.map Poly.neg⟩⟩

/-- `ConcatenateInTime`, src/maliput/drake/common/trajectories/piecewise_polynomial.cc:240-266. -/
def MP.concatenate (p other : MP R) : Except Err (MP R) := do
  if p.matrices ≠ [] then
    throwUnless ((← p.rows) = (← other.rows))
    throwUnless ((← p.cols) = (← other.cols))
    let offset := (← other.times.startTime) - (← p.times.endTime)
    let tolerance := max |← p.times.endTime| 1 * epsilonTime
    throwUnless (|offset| < tolerance)
    return ⟨p.breaks.dropLast ++ other.breaks.map (· - offset), p.matrices ++ other.matrices⟩
  else return other

/-- `AppendCubicHermiteSegment`, src/maliput/drake/common/trajectories/piecewise_polynomial.cc:268-294. -/
def MP.appendHermite (p : MP R) (time : R) (y yd : Mat R) : Except Err (MP R) := do
  if p.matrices = [] then .error .aborts
  else
    let e ← p.times.endTime
    if ¬ e < time then .error .aborts
    else if ¬ (y.rows = (← p.rows) ∧ y.cols = (← p.cols) ∧ yd.rows = (← p.rows) ∧ yd.cols = (← p.cols)) then .error .aborts
    else
      let m ← generate (← p.rows) (← p.cols) fun r c => do
        let start ← p.evaluateSegment (p.matrices.length - 1) e r c 0
        let startDot ← p.evaluateSegment (p.matrices.length - 1) e r c 1
        return ofCoefficients tVar (← cubicCoefficients (time - e) start (← y.get r c) startDot (← yd.get r c))
      return ⟨p.breaks ++ [time], p.matrices ++ [m]⟩

/-- `AppendFirstOrderSegment`, src/maliput/drake/common/trajectories/piecewise_polynomial.cc:296-316. -/
def MP.appendFirstOrder (p : MP R) (time : R) (y : Mat R) : Except Err (MP R) := do
  if p.matrices = [] then .error .aborts
  else
    let e ← p.times.endTime
    if ¬ e < time then .error .aborts
    else if ¬ (y.rows = (← p.rows) ∧ y.cols = (← p.cols)) then .error .aborts
    else
      let m ← generate (← p.rows) (← p.cols) fun r c => do
        let start ← p.evaluateSegment (p.matrices.length - 1) e r c 0
        return ofCoefficients tVar [start, ((← y.get r c) - start) / (time - e)]
      return ⟨p.breaks ++ [time], p.matrices ++ [m]⟩

/-- `RemoveFinalSegment`, src/maliput/drake/common/trajectories/piecewise_polynomial.cc:318-323. -/
def MP.removeFinal (p : MP R) : Except Err (MP R) :=
  if p.matrices = [] then .error .aborts
  else return ⟨p.breaks.dropLast, p.matrices.dropLast⟩

/-- The loop over the segments in `ReverseTime`, src/maliput/drake/common/trajectories/piecewise_polynomial.cc:331-348. -/
def MP.reverseMatrices (p : MP R) : List R → List (Mat (Polynomial R)) → Except Err (List (Mat (Polynomial R)))
  | b0 :: b1 :: bs, m :: ms => do
    let n ← p.changed (reversePiece (b1 - b0)) m
    return n :: (← p.reverseMatrices (b1 :: bs) ms)
  | _, _ => return []

/-- `ReverseTime`, src/maliput/drake/common/trajectories/piecewise_polynomial.cc:325-358. -/
def MP.reverseTime (p : MP R) : Except Err (MP R) := do
  let ms ← p.reverseMatrices p.breaks p.matrices
  return ⟨p.breaks.reverse.map (· * -1), ms.reverse⟩

/-- `ScaleTime`, src/maliput/drake/common/trajectories/piecewise_polynomial.cc:360-386. -/
def MP.scaleTime (p : MP R) (scale : R) : Except Err (MP R) :=
  if ¬ 0 < scale then .error .aborts
  else return ⟨p.breaks.map (· * scale), ← p.matrices.mapM (p.changed (scalePiece scale))⟩

/-- `shiftRight`, src/maliput/drake/common/trajectories/piecewise_polynomial.cc:388-394. -/
def MP.shiftRight (p : MP R) (offset : R) : MP R := ⟨p.breaks.map (· + offset), p.matrices⟩

/-- The assignment to a block of a matrix in Eigen. -/
def Mat.setBlock {α : Type} (m n : Mat α) (r0 c0 : Int) : Except Err (Mat α) :=
  if 0 ≤ r0 ∧ 0 ≤ c0 ∧ r0 + n.rows ≤ m.rows ∧ c0 + n.cols ≤ m.cols then
    generate m.rows m.cols fun r c =>
      if r0 ≤ r ∧ (r : Int) < r0 + n.rows ∧ c0 ≤ c ∧ (c : Int) < c0 + n.cols then n.get (r - r0.toNat) (c - c0.toNat)
      else m.get r c
  else .error .ub

/-- `setPolynomialMatrixBlock`, src/maliput/drake/common/trajectories/piecewise_polynomial.cc:396-402. -/
def MP.setBlock (p : MP R) (n : Mat (Polynomial R)) (i : Int) (r0 c0 : Int) : Except Err (MP R) := do
  throwUnless (0 ≤ i ∧ i < p.times.segments)
  let m ← nth p.matrices i.toNat
  return ⟨p.breaks, p.matrices.set i.toNat (← m.setBlock n r0 c0)⟩

/-- `slice`, src/maliput/drake/common/trajectories/piecewise_polynomial.cc:404-418; numbers of segments are not negative. -/
def MP.slice (p : MP R) (start count : Nat) : Except Err (MP R) := do
  throwUnless (start < p.times.segments)
  throwUnless (1 ≤ start + count ∧ start + count - 1 < p.times.segments)
  MP.make ((p.matrices.drop start).take count) ((p.breaks.drop start).take (count + 1))

/-- `Reshape`, src/maliput/drake/common/trajectories/piecewise_polynomial.cc:445-453.  `resize` leaves the entries where they are when
their number does not change; it must not be given negative numbers. -/
def MP.reshape (p : MP R) (rows cols : Int) : Except Err (MP R) := do
  if ¬ rows * cols = ((← p.rows) : Int) * (← p.cols) then .error .aborts
  else if rows < 0 ∨ cols < 0 then .error .ub
  else return ⟨p.breaks, p.matrices.map fun m => ⟨rows.toNat, cols.toNat, m.data⟩⟩

/-- A block of a matrix in Eigen. -/
def Mat.block {α : Type} (m : Mat α) (r0 c0 rows cols : Int) : Except Err (Mat α) :=
  generate rows.toNat cols.toNat fun r c => m.get (r0.toNat + r) (c0.toNat + c)

/-- `Block`, src/maliput/drake/common/trajectories/piecewise_polynomial.cc:455-469. -/
def MP.block (p : MP R) (r0 c0 rows cols : Int) : Except Err (MP R) := do
  if ¬ (0 ≤ r0 ∧ r0 < (← p.rows)) then .error .aborts
  else if ¬ (0 ≤ c0 ∧ c0 < (← p.cols)) then .error .aborts
  else if ¬ (0 ≤ rows ∧ r0 + rows ≤ (← p.rows)) then .error .aborts
  else if ¬ (0 ≤ cols ∧ c0 + cols ≤ (← p.cols)) then .error .aborts
  else MP.make (← p.matrices.mapM fun m => m.block r0 c0 rows cols) p.breaks

end Maliput.Piecewise
