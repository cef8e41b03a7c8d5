import Verif.Model.CubicSpline
import Verif.Spec.PiecewisePolynomial
import Mathlib.Analysis.Calculus.Deriv.Basic

set_option autoImplicit false

/-! Specification of cubic splines and of exact solvers of systems of equations. -/
namespace Maliput.Piecewise.Spec

open Maliput Poly

section systems
variable {R : Type} [Field R]

/-- The left hand side of a row. -/
def Row.left (r : Row R) (x : Nat → R) : R := (r.entries.map fun e => e.2 * x e.1).sum

/-- Values of the unknowns satisfy all rows. -/
def Solves (rows : List (Row R)) (x : Nat → R) : Prop := ∀ r ∈ rows, Row.left r x = r.rhs

/-- A square system whose matrix has no kernel. -/
structure Nonsingular (n : Nat) (rows : List (Row R)) : Prop where
  square : rows.length = n
  columns : ∀ r ∈ rows, ∀ e ∈ r.entries, e.1 < n
  kernel : ∀ x : Nat → R, (∀ r ∈ rows, Row.left r x = 0) → ∀ i < n, x i = 0

/-- A solver that finds a solution of every square system whose matrix has no kernel. -/
def Exact (solve : Solver R) : Prop := ∀ n rows, Nonsingular n rows → Solves rows (solve n rows)

end systems

/-- A function is a cubic polynomial between two times. -/
def CubicOn (f : ℝ → ℝ) (u v : ℝ) : Prop := ∃ a b c d : ℝ, ∀ t, u ≤ t → t ≤ v → f t = a + b * t + c * t ^ 2 + d * t ^ 3

/-- A function is a quadratic polynomial between two times. -/
def QuadraticOn (f : ℝ → ℝ) (u v : ℝ) : Prop := ∃ a b c : ℝ, ∀ t, u ≤ t → t ≤ v → f t = a + b * t + c * t ^ 2

/-- A cubic spline through samples, with its first and second derivatives: it is a cubic polynomial between a time and
the next one, its values at the times are the samples, and its derivatives exist and are continuous. -/
structure CubicSpline (ts ys : List ℝ) (f f' f'' : ℝ → ℝ) : Prop where
  cubic : ∀ (i : Nat) (u v : ℝ), ts[i]? = some u → ts[i + 1]? = some v → CubicOn f u v
  samples : ∀ (i : Nat) (t y : ℝ), ts[i]? = some t → ys[i]? = some y → f t = y
  first : ∀ t, ts.headD 0 < t → t < ts.getLastD 0 → HasDerivAt f (f' t) t
  second : ∀ t, ts.headD 0 < t → t < ts.getLastD 0 → HasDerivAt f' (f'' t) t
  continuous_first : ContinuousOn f' (Set.Icc (ts.headD 0) (ts.getLastD 0))
  continuous_second : ContinuousOn f'' (Set.Icc (ts.headD 0) (ts.getLastD 0))

/-- The slopes at the ends. -/
def Clamped (ts : List ℝ) (d0 d1 : ℝ) (f' : ℝ → ℝ) : Prop := f' (ts.headD 0) = d0 ∧ f' (ts.getLastD 0) = d1

/-- The first and second derivatives at the start are those at the end. -/
def Periodic (ts : List ℝ) (f' f'' : ℝ → ℝ) : Prop :=
  f' (ts.headD 0) = f' (ts.getLastD 0) ∧ f'' (ts.headD 0) = f'' (ts.getLastD 0)

/-- The first two segments are the same cubic polynomial, and so are the last two.  If there are two segments only they
are the same quadratic polynomial. -/
def NotAKnot (ts : List ℝ) (f : ℝ → ℝ) : Prop :=
  if ts.length = 3 then QuadraticOn f (ts.getD 0 0) (ts.getD 2 0)
  else CubicOn f (ts.getD 0 0) (ts.getD 2 0) ∧ CubicOn f (ts.getD (ts.length - 3) 0) (ts.getD (ts.length - 1) 0)

/-- What a piecewise polynomial returns: the value and the first two derivatives at each time. -/
def Returns (p : PP ℝ) (f f' f'' : ℝ → ℝ) : Prop :=
  ∀ t, p.evalDerivative t 0 = .ok (f t) ∧ p.evalDerivative t 1 = .ok (f' t) ∧ p.evalDerivative t 2 = .ok (f'' t)

end Maliput.Piecewise.Spec
