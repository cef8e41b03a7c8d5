import Verif.Model.Basic
import Mathlib.Algebra.Order.Field.Basic
import Mathlib.Algebra.Order.Ring.Abs

set_option autoImplicit false

/-!
What solving an initial value problem x' = f(t, x; k), x(t0) = x0 should do, without the code's step size control: Kutta's method of order
three for vectors, its error estimate, and the points that steps of the method visit.  The right hand side may fail, and may give a vector
of the wrong size.
-/
namespace Maliput.Ivp.Spec

variable {R : Type} [Field R] [LinearOrder R]

/-- An element of a vector. -/
def elem (v : List R) (i : Nat) : R := v.getD i 0

/-- The vector with these elements. -/
def vector (n : Nat) (g : Nat → R) : List R := (List.range n).map g

/-- A right hand side without parameters. -/
abbrev Rhs (R : Type) := R → List R → Except Err (List R)

/-- The right hand side is defined, with this slope. -/
def Slope (f : Rhs R) (t : R) (x d : List R) : Prop := f t x = .ok d ∧ d.length = x.length

/-- `k1`, `k2` and `k3` are the slopes of a step of Kutta's third order method of the length `h`. -/
structure Stages (f : Rhs R) (t : R) (x : List R) (h : R) (k1 k2 k3 : List R) : Prop where
  first : Slope f t x k1
  second : Slope f (t + h / 2) (vector x.length fun i => elem x i + h / 2 * elem k1 i) k2
  third : Slope f (t + h) (vector x.length fun i => elem x i - h * elem k1 i + 2 * h * elem k2 i) k3

/-- The state after a step with these slopes. -/
def kutta (x : List R) (h : R) (k1 k2 k3 : List R) : List R :=
  vector x.length fun i => elem x i + h * (elem k1 i + 4 * elem k2 i + elem k3 i) / 6

/-- The difference to the midpoint method is within a bound in every element. -/
def Within (n : Nat) (h : R) (k1 k2 k3 : List R) (bound : R) : Prop :=
  ∀ i < n, |h * (elem k1 i - 2 * elem k2 i + elem k3 i) / 6| ≤ bound

/-- Which steps are allowed: the time, the size of the state, the length and the slopes. -/
abbrev Allowed (R : Type) := R → Nat → R → List R → List R → List R → Prop

/-- A step from a point (time, state) to another. -/
def Step (f : Rhs R) (allowed : Allowed R) (a b : R × List R) : Prop :=
  ∃ h k1 k2 k3, allowed a.1 a.2.length h k1 k2 k3 ∧ Stages f a.1 a.2 h k1 k2 k3 ∧ b = (a.1 + h, kutta a.2 h k1 k2 k3)

/-- The points that allowed steps visit, one after the other. -/
def Steps (f : Rhs R) (allowed : Allowed R) (t0 : R) (x0 : List R) (knots : List (R × List R)) : Prop :=
  knots.head? = some (t0, x0) ∧ knots.IsChain (Step f allowed)

/-- Allowed steps lead from the initial point to the point (t, x). -/
def Reaches (f : Rhs R) (allowed : Allowed R) (t0 : R) (x0 : List R) (t : R) (x : List R) : Prop :=
  ∃ knots, Steps f allowed t0 x0 knots ∧ knots.getLast? = some (t, x)

/-- Steps forward that are not longer than a bound. -/
def Forward (bound : R) : Allowed R := fun _ _ h _ _ _ => 0 < h ∧ h ≤ bound

/-- Steps forward within a bound whose error estimate meets the accuracy in every element, or that are about as short as the double
precision of the times allows. -/
def Accurate (bound accuracy : R) : Allowed R := fun t n h k1 k2 k3 =>
  (0 < h ∧ h ≤ bound) ∧
    (Within n h k1 k2 k3 accuracy ∨ h ≤ 1001 / 1000 * (1 / 100000000000000) * max 1 (|t| + bound))

/-- The right hand side is defined for all times between `a` and `b` and all states of a size, with slopes of that size. -/
def Total (f : Rhs R) (size : Nat) (a b : R) : Prop := ∀ t x, a ≤ t → t ≤ b → x.length = size → ∃ d, Slope f t x d

/-- Steps between `a` and `b` that are near the shortest that the integrator tries have a small error estimate. -/
def Smooth (f : Rhs R) (size : Nat) (accuracy a b : R) : Prop :=
  ∀ t x h k1 k2 k3, x.length = size → a ≤ t → t + h ≤ b → 0 < h → h < 1 / 10000000000000 * max 1 |t + h| →
    Stages f t x h k1 k2 k3 → Within size h k1 k2 k3 accuracy

end Maliput.Ivp.Spec
