import Mathlib.MeasureTheory.Integral.IntervalIntegral.Basic
import Mathlib.Analysis.SpecialFunctions.Trigonometric.Basic

set_option autoImplicit false

/-!
# The Fresnel integrals

Specification side of C122: the two functions as defined in the mathematical literature,
with no reference to the model.
-/

namespace Maliput.Fresnel.Spec

/-- The Fresnel cosine: the integral of `cos (π s² / 2)` from 0 to `t`. -/
noncomputable def cosine (t : ℝ) : ℝ := ∫ s in (0 : ℝ)..t, Real.cos (Real.pi * s ^ 2 / 2)

/-- The Fresnel sine: the integral of `sin (π s² / 2)` from 0 to `t`. -/
noncomputable def sine (t : ℝ) : ℝ := ∫ s in (0 : ℝ)..t, Real.sin (Real.pi * s ^ 2 / 2)

/-- The vector `v` is within `e` of the Fresnel cosine and sine of `t`. -/
def Within (e t : ℝ) (v : ℝ × ℝ) : Prop := |v.1 - cosine t| ≤ e ∧ |v.2 - sine t| ≤ e

end Maliput.Fresnel.Spec
