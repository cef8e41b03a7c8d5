import Mathlib.Algebra.Order.Field.Basic
import Mathlib.Algebra.Order.Ring.Abs

set_option autoImplicit false
/-!
What numerical integration should do, without the code's step size control: Kutta's method of order three, its error
estimate, the sequences of points that steps of the method visit, and Simpson's rule.
-/
namespace Maliput.Ode.Spec

variable {R : Type} [Field R] [LinearOrder R]

/-- One step of Kutta's third order method for x' = f(t, x). -/
def kutta (f : R → R → R) (t x h : R) : R :=
  let k1 := f t x
  let k2 := f (t + h / 2) (x + h / 2 * k1)
  let k3 := f (t + h) (x - h * k1 + 2 * h * k2)
  x + h * (k1 + 4 * k2 + k3) / 6

/-- The difference to the midpoint method, the estimate of the error of a step. -/
def errorEstimate (f : R → R → R) (t x h : R) : R :=
  let k1 := f t x
  let k2 := f (t + h / 2) (x + h / 2 * k1)
  let k3 := f (t + h) (x - h * k1 + 2 * h * k2)
  |h * (k1 - 2 * k2 + k3) / 6|

/-- The points (time, state) that allowed steps visit, one after the other. -/
def Steps (f : R → R → R) (allowed : R → R → R → Prop) (t0 x0 : R) (knots : List (R × R)) : Prop :=
  knots.head? = some (t0, x0) ∧
    knots.IsChain fun a b => ∃ h, allowed a.1 a.2 h ∧ b = (a.1 + h, kutta f a.1 a.2 h)

/-- Allowed steps lead from the initial point to the point (t, x). -/
def Reaches (f : R → R → R) (allowed : R → R → R → Prop) (t0 x0 t x : R) : Prop :=
  ∃ knots, Steps f allowed t0 x0 knots ∧ knots.getLast? = some (t, x)

/-- Steps forward that are not longer than a bound. -/
def Forward (bound : R) (_ _ h : R) : Prop := 0 < h ∧ h ≤ bound

/-- Steps forward within a bound whose error estimate meets the accuracy, or that are about as short as the double
precision of the times allows. -/
def Accurate (f : R → R → R) (bound accuracy : R) (t x h : R) : Prop :=
  Forward bound t x h ∧
    (errorEstimate f t x h ≤ accuracy ∨ h ≤ 1001 / 1000 * (1 / 100000000000000) * max 1 (|t| + bound))

/-- Between two times every step that is about as short as the double precision of the times allows has a small error
estimate. -/
def Smooth (f : R → R → R) (accuracy a b : R) : Prop :=
  ∀ t x h, a ≤ t → t + h ≤ b → 0 < h → h < 1 / 10000000000000 * max 1 |t + h| → errorEstimate f t x h ≤ accuracy

/-- Times from `a` to `b` that increase by at most a bound. -/
def Partition (bound a b : R) (ts : List R) : Prop :=
  ts.head? = some a ∧ ts.getLast? = some b ∧ ts.IsChain fun t u => t < u ∧ u ≤ t + bound

/-- The cubic polynomial through two points (time, state) with the slopes of the right hand side there. -/
def cubic (f : R → R → R) (a b : R × R) (t : R) : R :=
  let h := b.1 - a.1
  let s := (t - a.1) / h
  (1 + 2 * s) * (1 - s) ^ 2 * a.2 + s ^ 2 * (3 - 2 * s) * b.2 +
    h * (s * (1 - s) ^ 2 * f a.1 a.2 - s ^ 2 * (1 - s) * f b.1 b.2)

/-- A curve that is such a cubic polynomial between any two neighbouring points. -/
def Interpolates (f : R → R → R) (knots : List (R × R)) (curve : R → R) : Prop :=
  ∀ l a b r, knots = l ++ a :: b :: r → ∀ t, a.1 ≤ t → t ≤ b.1 → curve t = cubic f a b t

/-- Simpson's rule on every interval between neighbouring times. -/
def simpson (f : R → R) : List R → R
  | a :: b :: rest => (b - a) / 6 * (f a + 4 * f ((a + b) / 2) + f b) + simpson f (b :: rest)
  | _ => 0

end Maliput.Ode.Spec
