import Mathlib.Algebra.Order.Ring.Abs
import Verif.Model.PolynomialQueries
import Verif.Spec.Polynomial

set_option autoImplicit false

/-! Specification of the queries and comparisons of polynomials. -/
namespace Maliput.Poly.Spec

section
variable {R : Type} [Field R]

/-- The value of a polynomial when each variable `v` stands for `x v`. -/
def valueOf (p : Polynomial R) (x : Nat → R) : R := (p.monomials.map (monomialAt x)).sum

/-- The exponent of a variable in a product of powers: the sum of its powers. -/
def exponent (ts : List Term) (v : Nat) : Nat := ((ts.filter fun t => t.var = v).map Term.power).sum

/-- The exponents of the first product are at most those of the second one. -/
def Divides (ts us : List Term) : Prop := ∀ v, exponent ts v ≤ exponent us v

/-- A function of the values of the variables is affine: along every line it is interpolated linearly. -/
def Affine (f : (Nat → R) → R) : Prop :=
  ∀ (x y : Nat → R) (t : R), f (fun v => x v + t * (y v - x v)) = f x + t * (f y - f x)

/-- A polynomial as sums and products make them: no monomial lists a variable twice, the powers are positive, and
there is one monomial for each product of powers, with a coefficient other than zero. -/
structure Reduced (p : Polynomial R) : Prop where
  plain : ∀ m ∈ p.monomials, (m.terms.map Term.var).Nodup
  positive : PositivePowers p
  canonical : Canonical p

/-- Every monomial lists its variables in increasing order. -/
def Ordered (p : Polynomial R) : Prop := ∀ m ∈ p.monomials, (m.terms.map Term.var).Pairwise (· < ·)

/-- No two monomials have the same list of powers. -/
def DistinctTerms (p : Polynomial R) : Prop := p.monomials.Pairwise fun m n => m.terms ≠ n.terms

end

section
variable {R : Type} [Field R] [LinearOrder R]

/-- The coefficients differ by at most the tolerance; a product of powers only one of them has counts as having the
coefficient zero in the other one. -/
structure CloseAbsolute (tol : R) (p q : Polynomial R) : Prop where
  both : ∀ m ∈ p.monomials, ∀ n ∈ q.monomials, m.terms = n.terms → |m.coefficient - n.coefficient| ≤ tol
  left : ∀ m ∈ p.monomials, (∀ n ∈ q.monomials, m.terms ≠ n.terms) → |m.coefficient| ≤ tol
  right : ∀ n ∈ q.monomials, (∀ m ∈ p.monomials, m.terms ≠ n.terms) → |n.coefficient| ≤ tol

/-- Both have the same products of powers, and the coefficients differ by at most the tolerance times the one that is
smaller in absolute value. -/
structure CloseRelative (tol : R) (p q : Polynomial R) : Prop where
  both : ∀ m ∈ p.monomials, ∀ n ∈ q.monomials, m.terms = n.terms →
    |m.coefficient - n.coefficient| ≤ tol * |m.coefficient| ∧ |m.coefficient - n.coefficient| ≤ tol * |n.coefficient|
  left : ∀ m ∈ p.monomials, ∃ n ∈ q.monomials, m.terms = n.terms
  right : ∀ n ∈ q.monomials, ∃ m ∈ p.monomials, m.terms = n.terms

/-- The sum of the absolute values of the products of powers. -/
def sizeAt (p : Polynomial R) (x : Nat → R) : R :=
  (p.monomials.map fun m => |(m.terms.map fun t => x t.var ^ t.power).prod|).sum

end

end Maliput.Poly.Spec
