import Mathlib.Algebra.BigOperators.Group.List.Basic
import Verif.Model.Polynomial

set_option autoImplicit false

/-! Specification of polynomials: what an expression written with their operators means. -/
namespace Maliput.Poly.Spec

/-- An expression a program may write with the constructors and the operators. -/
inductive Expr (R : Type) where
  | zero
  | const (c : R)
  | var (c : R) (v : Nat)
  | monomials (ms : List (Monomial R))
  | add (a b : Expr R)
  | sub (a b : Expr R)
  | mul (a b : Expr R)
  | neg (a : Expr R)
  | addScalar (a : Expr R) (c : R)
  | subScalar (a : Expr R) (c : R)
  | scalarSub (c : R) (a : Expr R)
  | mulScalar (a : Expr R) (c : R)
  | divScalar (a : Expr R) (c : R)
  | pow (a : Expr R) (n : Nat)

variable {R : Type} [Field R] [DecidableEq R]

/-- The polynomial the program gets. -/
def Expr.build : Expr R → Polynomial R
  | .zero => Poly.zero
  | .const c => Poly.const c
  | .var c v => Poly.ofVar c v
  | .monomials ms => Poly.ofMonomials ms
  | .add a b => Poly.add a.build b.build
  | .sub a b => Poly.sub a.build b.build
  | .mul a b => Poly.mul a.build b.build
  | .neg a => Poly.neg a.build
  | .addScalar a c => Poly.addScalar a.build c
  | .subScalar a c => Poly.subScalar a.build c
  | .scalarSub c a => Poly.scalarSub c a.build
  | .mulScalar a c => Poly.mulScalar a.build c
  | .divScalar a c => Poly.divScalar a.build c
  | .pow a n => Poly.pow a.build n

/-- The product of a coefficient and the powers of the values of the variables. -/
def monomialAt (x : Nat → R) (m : Monomial R) : R :=
  m.coefficient * (m.terms.map fun t => x t.var ^ t.power).prod

/-- What the expression means when each variable `v` stands for `x v`. -/
def Expr.meaning (x : Nat → R) : Expr R → R
  | .zero => 0
  | .const c => c
  | .var c v => c * x v
  | .monomials ms => (ms.map (monomialAt x)).sum
  | .add a b => a.meaning x + b.meaning x
  | .sub a b => a.meaning x - b.meaning x
  | .mul a b => a.meaning x * b.meaning x
  | .neg a => -a.meaning x
  | .addScalar a c => a.meaning x + c
  | .subScalar a c => a.meaning x - c
  | .scalarSub c a => c - a.meaning x
  | .mulScalar a c => a.meaning x * c
  | .divScalar a c => a.meaning x / c
  | .pow a n => a.meaning x ^ n

/-- No monomial given by the program lists a variable twice. -/
def Expr.Plain : Expr R → Prop
  | .zero | .const _ | .var _ _ => True
  | .monomials ms => ∀ m ∈ ms, (m.terms.map Term.var).Nodup
  | .add a b | .sub a b | .mul a b => a.Plain ∧ b.Plain
  | .neg a | .addScalar a _ | .subScalar a _ | .scalarSub _ a | .mulScalar a _ | .divScalar a _ | .pow a _ => a.Plain

/-- The expression mentions the variable. -/
def Expr.Mentions (v : Nat) : Expr R → Prop
  | .zero | .const _ => False
  | .var _ w => w = v
  | .monomials ms => ∃ m ∈ ms, ∃ t ∈ m.terms, t.var = v
  | .add a b | .sub a b | .mul a b => a.Mentions v ∨ b.Mentions v
  | .neg a | .addScalar a _ | .subScalar a _ | .scalarSub _ a | .mulScalar a _ | .divScalar a _ | .pow a _ => a.Mentions v

/-- The polynomial mentions the variable. -/
def Mentions (p : Polynomial R) (v : Nat) : Prop := ∃ m ∈ p.monomials, ∃ t ∈ m.terms, t.var = v

/-- Two monomials have the same variables with the same powers. -/
def SameExponents (m n : Monomial R) : Prop := m.terms.Perm n.terms

/-- Every monomial has a coefficient other than zero, and no two monomials have the same powers. -/
def Canonical (p : Polynomial R) : Prop :=
  (∀ m ∈ p.monomials, m.coefficient ≠ 0) ∧ p.monomials.Pairwise fun m n => ¬SameExponents m n

/-- Every monomial is a constant, or a multiple of a power of the variable. -/
def InVariable (v : Nat) (p : Polynomial R) : Prop :=
  ∀ m ∈ p.monomials, m.terms = [] ∨ ∃ k, m.terms = [⟨v, k⟩]

/-- All the powers are positive. -/
def PositivePowers (p : Polynomial R) : Prop := ∀ m ∈ p.monomials, ∀ t ∈ m.terms, 0 < t.power

/-- The sum of `cs[i] * x ^ i`. -/
def powerSeries (x : R) : List R → R
  | [] => 0
  | c :: cs => c + x * powerSeries x cs

/-- The values of the variables, as the map a program passes to `EvaluateMultivariate` when it gives a value to
the variables of a set. -/
def given (known : Nat → Prop) [DecidablePred known] (x : Nat → R) : Nat → Option R :=
  fun v => if known v then some (x v) else none

end Maliput.Poly.Spec
