import Mathlib.Data.List.Sort
import Mathlib.Data.List.Lex
import Mathlib.Data.Prod.Lex
import Mathlib.Order.Lex
import Verif.Model.Polynomial
import Verif.Model.PiecewisePolynomial

set_option autoImplicit false

/-!
Model of the queries and comparisons of src/maliput/drake/common/polynomial.{h,cc}: the degree of a variable,
the division of monomials, `IsAffine`, `GetSimpleVariable`, `GetVariables`, `operator==` and
`CoefficientsAlmostEqual`; and of the comparison and the offsets of piecewise polynomials.

Simplifications: as in the model of polynomials; the piecewise polynomials are scalar.  A coefficient divided by
zero, an infinity or a NaN in the code, is not modelled.
-/
namespace Maliput.Poly

section
variable {R : Type} [Field R] [DecidableEq R]

/-- `GetNumberOfCoefficients`, src/maliput/drake/common/polynomial.cc:108-111. -/
def getNumberOfCoefficients (p : Polynomial R) : Nat := p.monomials.length

/-- `Monomial::GetDegreeOf`, src/maliput/drake/common/polynomial.cc:121-129. -/
def Monomial.getDegreeOf (m : Monomial R) (v : Nat) : Nat :=
  match m.terms.find? fun t => t.var == v with
  | some t => t.power
  | none => 0

/-- One round of the first loop of `Monomial::Factor`, src/maliput/drake/common/polynomial.cc:136-147: nothing if
the divisor has a greater power. -/
def factorTerm (divisor : Monomial R) (acc : List Term) (t : Term) : Option (List Term) :=
  let d := divisor.getDegreeOf t.var
  if t.power < d then none
  else some (if t.power - d > 0 then acc ++ [⟨t.var, t.power - d⟩] else acc)

/-- `Monomial::Factor`, src/maliput/drake/common/polynomial.cc:131-154. -/
def Monomial.factor (m divisor : Monomial R) : Monomial R :=
  match m.terms.foldlM (factorTerm divisor) [] with
  | none => ⟨0, []⟩
  | some ts =>
    if divisor.terms.any fun t => m.getDegreeOf t.var == 0 then ⟨0, []⟩
    else ⟨m.coefficient / divisor.coefficient, ts⟩

/-- `IsAffine`, src/maliput/drake/common/polynomial.cc:167-175. -/
def isAffine (p : Polynomial R) : Bool :=
  p.monomials.all fun m => !(decide (m.terms.length > 1) || decide (m.getDegree > 1))

/-- `GetSimpleVariable`, src/maliput/drake/common/polynomial.cc:177-183. -/
def getSimpleVariable (p : Polynomial R) : Nat :=
  match p.monomials with
  | [m] =>
    match m.terms with
    | [t] => if t.power ≠ 1 then 0 else t.var
    | _ => 0
  | _ => 0

/-- `GetVariables`, src/maliput/drake/common/polynomial.cc:206-215.  The set is a list sorted by id, each once. -/
def getVariables (p : Polynomial R) : List Nat :=
  p.monomials.foldl (fun vars m => m.terms.foldl (fun vars t =>
    if t.var ∈ vars then vars else vars.orderedInsert (· ≤ ·) t.var) vars) []

end

section
variable {R : Type} [Field R] [LinearOrder R]

/-- The order of the monomials in a set: by the coefficient, then by the terms, these by the variable, then by the
power, `Term::operator<` and `Monomial::operator<`, src/maliput/drake/common/polynomial.h:70-72, 88-90. -/
def Monomial.key (m : Monomial R) : R ×ₗ List (ℕ ×ₗ ℕ) :=
  toLex (m.coefficient, m.terms.map fun t => toLex (t.var, t.power))

/-- The monomials in a `std::multiset`, src/maliput/drake/common/polynomial.cc:329-330. -/
def sortedMonomials (p : Polynomial R) : List (Monomial R) := p.monomials.insertionSort fun m n => m.key ≤ n.key

/-- `operator==`, src/maliput/drake/common/polynomial.cc:324-332: the elements of the sets are compared in their
order. -/
def equal (p q : Polynomial R) : Bool := decide (sortedMonomials p = sortedMonomials q)

/-- `ToleranceType`, src/maliput/drake/common/constants.h:19. -/
inductive ToleranceType where
  | absolute
  | relative
  deriving DecidableEq, Repr

/-- The comparison of two coefficients, src/maliput/drake/common/polynomial.cc:517-522. -/
def coefficientsClose (tol : R) (kind : ToleranceType) (a b : R) : Bool :=
  match kind with
  | .absolute => decide (|a - b| ≤ tol)
  | .relative => decide (|a - b| ≤ tol * min |a| |b|)

/-- One round of the loop over the monomials of the other polynomial,
src/maliput/drake/common/polynomial.cc:511-535.  The state is the monomials of this one with their marks
`monomial_has_match`, and `comparison`; nothing when the function returns false. -/
def matchMonomial (tol : R) (kind : ToleranceType) (s : List (Monomial R × Bool) × Bool) (m : Monomial R) :
    Option (List (Monomial R × Bool) × Bool) :=
  match s.1.findIdx? fun a => !a.2 && decide (m.terms = a.1.terms) with
  | some i =>
    match s.1[i]? with
    | some a =>
      some (s.1.modify i fun a => (a.1, true), s.2 && coefficientsClose tol kind m.coefficient a.1.coefficient)
    | none => none
  | none =>
    match kind with
    | .absolute => some (s.1, s.2 && decide (|m.coefficient| ≤ tol))
    | .relative => none

/-- The loop over the monomials of this polynomial that have no match,
src/maliput/drake/common/polynomial.cc:537-544. -/
def checkUnmatched (tol : R) (kind : ToleranceType) (ms : List (Monomial R × Bool)) (comparison : Bool) : Bool :=
  match ms with
  | [] => comparison
  | (m, seen) :: ms =>
    if seen then checkUnmatched tol kind ms comparison
    else
      match kind with
      | .absolute => checkUnmatched tol kind ms (comparison && decide (|m.coefficient| ≤ tol))
      | .relative => false

/-- `CoefficientsAlmostEqual`, src/maliput/drake/common/polynomial.cc:504-546. -/
def coefficientsAlmostEqual (p other : Polynomial R) (tol : R) (kind : ToleranceType) : Bool :=
  match other.monomials.foldlM (matchMonomial tol kind) (p.monomials.map fun m => (m, false), true) with
  | none => false
  | some s => checkUnmatched tol kind s.1 s.2

end

end Maliput.Poly

namespace Maliput.Piecewise
open Poly

variable {R : Type} [Field R] [LinearOrder R]

/-- `SegmentTimesEqual`, src/maliput/drake/common/trajectories/piecewise_trajectory.cc:119-127. -/
def PP.segmentTimesEqual (p q : PP R) (tol : R) : Bool :=
  p.breaks.length == q.breaks.length && (p.breaks.zip q.breaks).all fun b => decide (¬ |b.1 - b.2| > tol)

/-- The loop over the segments of `isApprox`,
src/maliput/drake/common/trajectories/piecewise_polynomial.cc:226-236. -/
def approxSegments (p q : PP R) (tol : R) (kind : ToleranceType) : List Nat → Except Err Bool
  | [] => pure true
  | i :: is => do
    let a ← nth p.polynomials i
    let b ← nth q.polynomials i
    if coefficientsAlmostEqual a b tol kind then approxSegments p q tol kind is else pure false

/-- `isApprox`, src/maliput/drake/common/trajectories/piecewise_polynomial.cc:219-238, with `rows()` that throws
without segments, 428-434. -/
def PP.isApprox (p q : PP R) (tol : R) (kind : ToleranceType) : Except Err Bool := do
  throwUnless (p.polynomials ≠ [])
  throwUnless (q.polynomials ≠ [])
  if p.segmentTimesEqual q tol then approxSegments p q tol kind (List.range p.segments) else pure false

/-- `operator+=(const MatrixX<T>&)` and `operator+`: the offset becomes a constant polynomial,
src/maliput/drake/common/trajectories/piecewise_polynomial.cc:163-167, 205-210. -/
def PP.addOffset (p : PP R) (c : R) : PP R := ⟨p.breaks, p.polynomials.map fun q => Poly.add q (Poly.const c)⟩

/-- `operator-=(const MatrixX<T>&)` and `operator-`,
src/maliput/drake/common/trajectories/piecewise_polynomial.cc:169-173, 212-217. -/
def PP.subOffset (p : PP R) (c : R) : PP R := ⟨p.breaks, p.polynomials.map fun q => Poly.sub q (Poly.const c)⟩

/-- Unary `operator-`, src/maliput/drake/common/trajectories/piecewise_polynomial.cc:189-196. -/
def PP.negate (p : PP R) : PP R := ⟨p.breaks, p.polynomials.map Poly.neg⟩

end Maliput.Piecewise
