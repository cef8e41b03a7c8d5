import Verif.Model.Polynomial
import Mathlib.Algebra.Order.Ring.Abs
import Mathlib.Algebra.Order.Field.Basic

set_option autoImplicit false
/-!
Model of src/maliput/drake/common/trajectories/piecewise_trajectory.cc and piecewise_polynomial.cc: scalar
piecewise polynomials (the matrices of the source have one row and one column) over an ordered field.
-/
namespace Maliput.Piecewise

open Maliput Poly

variable {R : Type} [Field R] [LinearOrder R]

/-- A piecewise polynomial: the breaks and one polynomial for each segment, in the time since its start,
src/maliput/drake/common/trajectories/piecewise_trajectory.h:73 and
src/maliput/drake/common/trajectories/piecewise_polynomial.h:766. -/
structure PP (R : Type) where
  breaks : List R
  polynomials : List (Polynomial R)
  deriving DecidableEq, Repr

/-- The trajectory without segments, `PiecewisePolynomial()`,
src/maliput/drake/common/trajectories/piecewise_polynomial.h:80. -/
def empty : PP R := ⟨[], []⟩

/-- `kEpsilonTime`, src/maliput/drake/common/trajectories/piecewise_trajectory.h:26: the distance from 1 to the next
double. -/
def epsilonTime : R := 1 / 4503599627370496

/-- `operator[]` of a vector; outside of it undefined behaviour. -/
def nth {α : Type} (l : List α) (i : Nat) : Except Err α := match l[i]? with | some a => .ok a | none => .error .ub

/-- `get_number_of_segments`, src/maliput/drake/common/trajectories/piecewise_trajectory.cc:27-30. -/
def PP.segments (p : PP R) : Nat := p.breaks.length - 1

/-- `start_time` of a segment with its range check,
src/maliput/drake/common/trajectories/piecewise_trajectory.cc:32-36, 94-102. -/
def PP.startOf (p : PP R) (i : Nat) : Except Err R := do
  throwUnless (i < p.segments)
  nth p.breaks i

/-- `end_time` of a segment, src/maliput/drake/common/trajectories/piecewise_trajectory.cc:38-42. -/
def PP.endOf (p : PP R) (i : Nat) : Except Err R := do
  throwUnless (i < p.segments)
  nth p.breaks (i + 1)

/-- `start_time`, src/maliput/drake/common/trajectories/piecewise_trajectory.cc:49-52. -/
def PP.startTime (p : PP R) : Except Err R := p.startOf 0

/-- `end_time`, src/maliput/drake/common/trajectories/piecewise_trajectory.cc:54-57.  Without segments the
number of the last one is negative and refused. -/
def PP.endTime (p : PP R) : Except Err R := do
  throwUnless (0 < p.segments)
  p.endOf (p.segments - 1)

/-- `GetSegmentIndexRecursive`, src/maliput/drake/common/trajectories/piecewise_trajectory.cc:59-77.  The first number
bounds the recursion; the theorems show that it is not reached. -/
def segmentIndexRec (breaks : List R) (time : R) : Nat → Nat → Nat → Except Err Nat
  | 0, _, _ => .error .aborts
  | n + 1, s, e => do
    if e < s ∨ breaks.length ≤ e then .error .aborts
    else
      let be ← nth breaks e
      let bs ← nth breaks s
      if ¬(time ≤ be ∧ time ≥ bs) then .error .aborts
      else if e - s ≤ 1 then return s
      else
        let mid := (s + e) / 2
        let bm ← nth breaks mid
        if time < bm then segmentIndexRec breaks time n s mid
        else if bm < time then segmentIndexRec breaks time n mid e
        else return mid

/-- The time clipped to the breaks, src/maliput/drake/common/trajectories/piecewise_trajectory.cc:85. -/
def PP.clip (p : PP R) (t : R) : Except Err R := return min (max t (← p.startTime)) (← p.endTime)

/-- `get_segment_index`, src/maliput/drake/common/trajectories/piecewise_trajectory.cc:79-87. -/
def PP.segmentIndex (p : PP R) (t : R) : Except Err Nat := do
  if p.breaks = [] then return 0
  let time ← p.clip t
  segmentIndexRec p.breaks time p.breaks.length 0 (p.breaks.length - 1)

/-- `EvaluateSegmentAbsoluteTime`, src/maliput/drake/common/trajectories/piecewise_polynomial.cc:420-425. -/
def PP.evaluateSegment (p : PP R) (i : Nat) (t : R) (order : Nat) : Except Err R := do
  let q ← nth p.polynomials i
  let b ← p.startOf i
  evaluateUnivariate q (t - b) order

/-- `scalarValue`, src/maliput/drake/common/trajectories/piecewise_polynomial.cc:99-103. -/
def PP.scalarValue (p : PP R) (t : R) : Except Err R := do
  p.evaluateSegment (← p.segmentIndex t) t 0

/-- `DoEvalDerivative`, src/maliput/drake/common/trajectories/piecewise_polynomial.cc:105-116; `value` is the order 0,
src/maliput/drake/common/trajectories/piecewise_polynomial.h:505-508. -/
def PP.evalDerivative (p : PP R) (t : R) (order : Nat) : Except Err R := do
  let i ← p.segmentIndex t
  let time ← p.clip t
  p.evaluateSegment i time order

/-- The check of the breaks in the constructor of `PiecewiseTrajectory`,
src/maliput/drake/common/trajectories/piecewise_trajectory.cc:15-20. -/
def breaksApart : List R → Bool
  | a :: b :: rest => decide (b - a ≥ epsilonTime) && breaksApart (b :: rest)
  | _ => true

/-- The constructor, src/maliput/drake/common/trajectories/piecewise_polynomial.cc:22-37. -/
def make (polynomials : List (Polynomial R)) (breaks : List R) : Except Err (PP R) :=
  if breaksApart breaks then return ⟨breaks, polynomials⟩ else .error .aborts

/-- The loop over the times in `CheckSplineGenerationInputValidityOrThrow`,
src/maliput/drake/common/trajectories/piecewise_polynomial.cc:501-512. -/
def timesIncrease : List R → Bool
  | a :: b :: rest => decide (a < b) && decide (¬ b - a < epsilonTime) && timesIncrease (b :: rest)
  | _ => true

/-- `CheckSplineGenerationInputValidityOrThrow`,
src/maliput/drake/common/trajectories/piecewise_polynomial.cc:479-513.  The shapes of the samples are always right
for scalars. -/
def checkInput (times ys : List R) (minLength : Nat) : Except Err Unit := do
  throwUnless (times.length = ys.length)
  throwUnless (minLength ≤ times.length)
  throwUnless (timesIncrease times)

/-- `ComputeCubicSplineCoeffs`, src/maliput/drake/common/trajectories/piecewise_polynomial.cc:1092-1105. -/
def cubicCoefficients (dt y0 y1 yd0 yd1 : R) : Except Err (List R) := do
  throwUnless (¬ dt < epsilonTime)
  let dt2 := dt * dt
  let c4 := y0
  let c3 := yd0
  let common := yd1 - c3 - 2 / dt * (y1 - c4 - dt * c3)
  let c1 := 1 / dt2 * common
  let c2 := 1 / dt2 * (y1 - c4 - dt * c3 - dt * common)
  return [c4, c3, c2, c1]

/-- The id of the variable "t" of polynomials that are made of coefficients. -/
def tVar : Nat := 48

/-- The pieces of `CubicHermite`, src/maliput/drake/common/trajectories/piecewise_polynomial.cc:706-716. -/
def hermitePieces : List (R × R × R) → Except Err (List (Polynomial R))
  | a :: b :: rest => do
    let cs ← cubicCoefficients (b.1 - a.1) a.2.1 b.2.1 a.2.2 b.2.2
    let ps ← hermitePieces (b :: rest)
    return ofCoefficients tVar cs :: ps
  | _ => return []

/-- `CubicHermite`, src/maliput/drake/common/trajectories/piecewise_polynomial.cc:682-719. -/
def cubicHermite (times ys yds : List R) : Except Err (PP R) := do
  checkInput times ys 2
  throwUnless (times.length = yds.length)
  make (← hermitePieces (times.zip (ys.zip yds))) times

/-- The pieces of `ZeroOrderHold`, src/maliput/drake/common/trajectories/piecewise_polynomial.cc:527-536. -/
def zeroOrderPieces : List R → List (Polynomial R)
  | a :: b :: rest => ofCoefficients tVar [a] :: zeroOrderPieces (b :: rest)
  | _ => []

/-- `ZeroOrderHold`, src/maliput/drake/common/trajectories/piecewise_polynomial.cc:518-538. -/
def zeroOrderHold (times ys : List R) : Except Err (PP R) := do
  checkInput times ys 2
  make (zeroOrderPieces ys) times

/-- The pieces of `FirstOrderHold`, src/maliput/drake/common/trajectories/piecewise_polynomial.cc:550-560. -/
def firstOrderPieces : List (R × R) → List (Polynomial R)
  | a :: b :: rest => ofCoefficients tVar [a.2, (b.2 - a.2) / (b.1 - a.1)] :: firstOrderPieces (b :: rest)
  | _ => []

/-- `FirstOrderHold`, src/maliput/drake/common/trajectories/piecewise_polynomial.cc:541-562. -/
def firstOrderHold (times ys : List R) : Except Err (PP R) := do
  checkInput times ys 2
  make (firstOrderPieces (times.zip ys)) times

/-- `sign`, src/maliput/drake/common/trajectories/piecewise_polynomial.cc:564-571. -/
def sign (val tol : R) : Int := if val < -tol then -1 else if val > tol then 1 else 0

/-- `kSlopeEpsilon`, src/maliput/drake/common/trajectories/piecewise_polynomial.cc:583. -/
def slopeEpsilon : R := 1 / 10000000000

/-- `ComputePchipEndSlope`, src/maliput/drake/common/trajectories/piecewise_polynomial.cc:581-596. -/
def endSlope (dt0 dt1 slope0 slope1 : R) : R :=
  let deriv := ((2 * dt0 + dt1) * slope0 - dt0 * slope1) / (dt0 + dt1)
  if sign deriv slopeEpsilon ≠ sign slope0 slopeEpsilon then 0
  else if sign slope0 slopeEpsilon ≠ sign slope1 slopeEpsilon ∧ |deriv| > |3 * slope0| then 3 * slope0
  else deriv

/-- The derivative at a sample between two segments of the lengths `dt0`, `dt1` with the slopes `s0`, `s1`,
src/maliput/drake/common/trajectories/piecewise_polynomial.cc:654-662. -/
def innerSlope (dt0 dt1 s0 s1 : R) : R :=
  if s0 * s1 ≤ 0 then 0
  else
    let common := dt0 + dt1
    3 * common / ((common + dt1) / s0 + (common + dt0) / s1)

/-- The slope of a segment, src/maliput/drake/common/trajectories/piecewise_polynomial.cc:646. -/
def slopeOf (a b : R × R) : R := (b.2 - a.2) / (b.1 - a.1)

/-- The derivatives at the inner samples, src/maliput/drake/common/trajectories/piecewise_polynomial.cc:653-663. -/
def innerSlopes : List (R × R) → List R
  | a :: b :: c :: rest => innerSlope (b.1 - a.1) (c.1 - b.1) (slopeOf a b) (slopeOf b c) :: innerSlopes (b :: c :: rest)
  | _ => []

/-- The derivative at the first sample, src/maliput/drake/common/trajectories/piecewise_polynomial.cc:637-638. -/
def startSlope : List (R × R) → Except Err R
  | a :: b :: c :: _ => return endSlope (b.1 - a.1) (c.1 - b.1) (slopeOf a b) (slopeOf b c)
  | _ => .error .ub

/-- The derivative at the last sample, from the samples in reverse order,
src/maliput/drake/common/trajectories/piecewise_polynomial.cc:639-641. -/
def finalSlope : List (R × R) → Except Err R
  | c :: b :: a :: _ => return endSlope (c.1 - b.1) (b.1 - a.1) (slopeOf b c) (slopeOf a b)
  | _ => .error .ub

/-- `CubicShapePreserving`, src/maliput/drake/common/trajectories/piecewise_polynomial.cc:608-678. -/
def cubicShapePreserving (times ys : List R) (zeroEnds : Bool) : Except Err (PP R) := do
  checkInput times ys (if zeroEnds then 2 else 3)
  let samples := times.zip ys
  let first ← (if zeroEnds then pure 0 else startSlope samples)
  let last ← (if zeroEnds then pure 0 else finalSlope samples.reverse)
  make (← hermitePieces (times.zip (ys.zip (first :: innerSlopes samples ++ [last])))) times

/-- `ConcatenateInTime`, src/maliput/drake/common/trajectories/piecewise_polynomial.cc:240-266. -/
def PP.concatenate (p other : PP R) : Except Err (PP R) := do
  if p.polynomials ≠ [] then
    let offset := (← other.startTime) - (← p.endTime)
    let tolerance := max |← p.endTime| 1 * epsilonTime
    throwUnless (|offset| < tolerance)
    return ⟨p.breaks.dropLast ++ other.breaks.map (· - offset), p.polynomials ++ other.polynomials⟩
  else return other

/-- `RemoveFinalSegment`, src/maliput/drake/common/trajectories/piecewise_polynomial.cc:318-323. -/
def PP.removeFinal (p : PP R) : Except Err (PP R) :=
  if p.polynomials = [] then .error .aborts
  else return ⟨p.breaks.dropLast, p.polynomials.dropLast⟩

/-- `AppendCubicHermiteSegment`, src/maliput/drake/common/trajectories/piecewise_polynomial.cc:268-294. -/
def PP.appendHermite (p : PP R) (time y yd : R) : Except Err (PP R) := do
  if p.polynomials = [] then .error .aborts
  else
    let e ← p.endTime
    if ¬ e < time then .error .aborts
    else
      let i := p.polynomials.length - 1
      let start ← p.evaluateSegment i e 0
      let startDot ← p.evaluateSegment i e 1
      let cs ← cubicCoefficients (time - e) start y startDot yd
      return ⟨p.breaks ++ [time], p.polynomials ++ [ofCoefficients tVar cs]⟩

/-- `AppendFirstOrderSegment`, src/maliput/drake/common/trajectories/piecewise_polynomial.cc:296-316. -/
def PP.appendFirstOrder (p : PP R) (time y : R) : Except Err (PP R) := do
  if p.polynomials = [] then .error .aborts
  else
    let e ← p.endTime
    if ¬ e < time then .error .aborts
    else
      let start ← p.evaluateSegment (p.polynomials.length - 1) e 0
      return ⟨p.breaks ++ [time], p.polynomials ++ [ofCoefficients tVar [start, (y - start) / (time - e)]]⟩

/-- `derivative`, src/maliput/drake/common/trajectories/piecewise_polynomial.cc:56-72. -/
def PP.derivative (p : PP R) (order : Nat) : Except Err (PP R) :=
  if order = 0 then return p
  else return ⟨p.breaks, ← p.polynomials.mapM fun q => Poly.derivative q order⟩

/-- The loop of `integral` after the first segment: `lengths` and polynomials of the segments, and the value at the
start of the next one, src/maliput/drake/common/trajectories/piecewise_polynomial.cc:83-95. -/
def integralPieces : List R → List (Polynomial R) → R → Except Err (List (Polynomial R))
  | b0 :: b1 :: bs, q :: qs, value => do
    let i ← Poly.integral q value
    let next ← (if qs = [] then pure 0 else evaluateUnivariate i (b1 - b0) 0)
    return i :: (← integralPieces (b1 :: bs) qs next)
  | _, _, _ => return []

/-- `integral`, src/maliput/drake/common/trajectories/piecewise_polynomial.cc:74-97; without segments the number of rows of the
values at the start is refused. -/
def PP.integral (p : PP R) (valueAtStart : R) : Except Err (PP R) :=
  if p.polynomials = [] then .error .throws
  else return ⟨p.breaks, ← integralPieces p.breaks p.polynomials valueAtStart⟩

/-- `SegmentTimesEqual` with the default tolerance,
src/maliput/drake/common/trajectories/piecewise_trajectory.cc:119-127. -/
def PP.timesEqual (p q : PP R) : Bool :=
  p.breaks.length == q.breaks.length && (p.breaks.zip q.breaks).all fun b => decide (¬ |b.1 - b.2| > epsilonTime)

/-- `operator+=`, `operator-=` and `operator*=` with the operation on polynomials,
src/maliput/drake/common/trajectories/piecewise_polynomial.cc:137-161.  The operands are different objects. -/
def PP.zipWith (op : Polynomial R → Polynomial R → Polynomial R) (p q : PP R) : Except Err (PP R) := do
  throwUnless (p.timesEqual q)
  return ⟨p.breaks, List.zipWith op p.polynomials q.polynomials⟩

/-- `operator+`. -/
def PP.add (p q : PP R) : Except Err (PP R) := p.zipWith Poly.add q
/-- `operator-`. -/
def PP.sub (p q : PP R) : Except Err (PP R) := p.zipWith Poly.sub q
/-- `operator*`. -/
def PP.mul (p q : PP R) : Except Err (PP R) := p.zipWith Poly.mul q

/-- `shiftRight`, src/maliput/drake/common/trajectories/piecewise_polynomial.cc:388-394. -/
def PP.shiftRight (p : PP R) (offset : R) : PP R := ⟨p.breaks.map (· + offset), p.polynomials⟩

/-- A coefficient divided by a power of the scale,
src/maliput/drake/common/trajectories/piecewise_polynomial.cc:373-375. -/
def scaleCoefficients (scale : R) (cs : List R) : List R := cs.mapIdx fun p c => if 1 ≤ p then c / scale ^ p else c

/-- One polynomial of `ScaleTime`, src/maliput/drake/common/trajectories/piecewise_polynomial.cc:370-376. -/
def scalePiece (scale : R) (q : Polynomial R) : Except Err (Polynomial R) :=
  if getDegree q = 0 then return q
  else return ofCoefficients tVar (scaleCoefficients scale (← getCoefficients q))

/-- `ScaleTime`, src/maliput/drake/common/trajectories/piecewise_polynomial.cc:360-386. -/
def PP.scaleTime (p : PP R) (scale : R) : Except Err (PP R) :=
  if ¬ 0 < scale then .error .aborts
  else return ⟨p.breaks.map (· * scale), ← p.polynomials.mapM (scalePiece scale)⟩

/-- The first variable of a polynomial, `*GetVariables().begin()`; the set is sorted, but the polynomials here have
one variable, src/maliput/drake/common/trajectories/piecewise_polynomial.cc:342-344. -/
def onlyVar (q : Polynomial R) : Except Err Nat :=
  match (q.monomials.flatMap Monomial.terms) with
  | t :: _ => .ok t.var
  | [] => .error .ub

/-- One polynomial of `ReverseTime`, src/maliput/drake/common/trajectories/piecewise_polynomial.cc:336-345. -/
def reversePiece (h : R) (q : Polynomial R) : Except Err (Polynomial R) :=
  if getDegree q = 0 then return q
  else do
    let t ← onlyVar q
    return substitute q t (scalarSub h (ofVar 1 t))

/-- The loop over the segments in `ReverseTime`,
src/maliput/drake/common/trajectories/piecewise_polynomial.cc:331-348. -/
def reversePieces : List R → List (Polynomial R) → Except Err (List (Polynomial R))
  | b0 :: b1 :: bs, q :: qs => do
    let r ← reversePiece (b1 - b0) q
    return r :: (← reversePieces (b1 :: bs) qs)
  | _, _ => return []

/-- `ReverseTime`, src/maliput/drake/common/trajectories/piecewise_polynomial.cc:325-358. -/
def PP.reverseTime (p : PP R) : Except Err (PP R) := do
  let qs ← reversePieces p.breaks p.polynomials
  return ⟨p.breaks.reverse.map (· * -1), qs.reverse⟩

/-- `slice`, src/maliput/drake/common/trajectories/piecewise_polynomial.cc:404-418.  Numbers of segments are not
negative; a slice without segments at the start is refused by the range check. -/
def PP.slice (p : PP R) (start count : Nat) : Except Err (PP R) := do
  throwUnless (start < p.segments)
  throwUnless (1 ≤ start + count ∧ start + count - 1 < p.segments)
  make ((p.polynomials.drop start).take count) ((p.breaks.drop start).take (count + 1))

end Maliput.Piecewise
