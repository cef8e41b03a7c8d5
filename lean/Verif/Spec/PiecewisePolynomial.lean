import Verif.Model.PiecewisePolynomial
import Verif.Spec.Polynomial

set_option autoImplicit false

/-! Specification of piecewise polynomials. -/
namespace Maliput.Piecewise.Spec

open Maliput Poly

variable {R : Type} [Field R] [LinearOrder R]

/-- A piecewise polynomial with at least one segment: increasing breaks, one polynomial of one variable for each
segment. -/
structure Valid (p : PP R) : Prop where
  lengths : p.breaks.length = p.polynomials.length + 1
  segments : 0 < p.polynomials.length
  increasing : p.breaks.Pairwise (· < ·)
  univariate : ∀ q ∈ p.polynomials, q.isUnivariate = true

/-- The first and the last break. -/
def first (p : PP R) : R := p.breaks.headD 0
def last (p : PP R) : R := p.breaks.getLastD 0

/-- The time in the range of the breaks that is closest to a time. -/
def saturated (p : PP R) (t : R) : R := if t < first p then first p else if last p < t then last p else t

/-- A time belongs to a segment: it is not before its start and before its end, or at its end for the last one. -/
def InSegment (breaks : List R) (t : R) (i : Nat) : Prop :=
  ∃ a b, breaks[i]? = some a ∧ breaks[i + 1]? = some b ∧ a ≤ t ∧ (t < b ∨ t = b ∧ i + 2 = breaks.length)

/-- Breaks that are at least `kEpsilonTime` apart. -/
def Apart (ts : List R) : Prop := ts.IsChain fun a b => epsilonTime ≤ b - a

/-- A polynomial in one variable: every monomial is a constant or a multiple of a positive power of it, and no power
occurs twice. -/
structure InOne (v : Nat) (q : Polynomial R) : Prop where
  univariate : q.isUnivariate = true
  inVariable : Poly.Spec.InVariable v q
  positive : Poly.Spec.PositivePowers q
  distinct : q.monomials.Pairwise fun m n => m.terms ≠ n.terms

/-- The pieces are polynomials in one variable, the same for all of them. -/
def SameVariable (v : Nat) (p : PP R) : Prop := ∀ q ∈ p.polynomials, InOne v q

end Maliput.Piecewise.Spec
