import Verif.Lemmas.Fresnel

set_option autoImplicit false

/-!
# C122: Fresnel cosine and sine

`ComputeFresnelCosineAndSine` against the integrals of `Spec/Fresnel.lean`.
-/

namespace Maliput.Props

open Maliput.Fresnel

/-- `ComputeFresnelCosineAndSine` gives, for every argument of at most 36974 in absolute value,
the Fresnel cosine and sine up to `1e-14`; no coefficient is read outside its table.  The full
property, the same for every argument, is false: beyond, see `fresnel_far` and
`fresnel_far_inaccurate`.  Rounding is not modelled. -/
theorem fresnel_accurate_partial (t : ℝ) (h : |t| ≤ 36974) :
    ∃ v, computeFresnelCosineAndSine t = .ok v ∧ Fresnel.Spec.Within 1e-14 t v :=
  ⟨_, compute_eq t, signed_within (plain_within (abs_nonneg t) h)⟩

/-- Beyond, both components are one half with the sign of the argument, and that is within
`8.61e-6` of the Fresnel cosine and sine. -/
theorem fresnel_far (t : ℝ) (h : 36974 < |t|) :
    ∃ v, computeFresnelCosineAndSine t = .ok v ∧ v = (if t < 0 then (-(1 / 2), -(1 / 2)) else (1 / 2, 1 / 2)) ∧
      Fresnel.Spec.Within 8.61e-6 t v := by
  refine ⟨_, compute_eq t, ?_, signed_within ?_⟩
  · rw [plain_far h]
    split_ifs <;> norm_num
  · rw [plain_far h]; exact far_within h.le

/-- The halves are not exact: just beyond 36974 there is an argument for which the
cosine is wrong by more than `8e-6`, a thousand million times the error of `fresnel_accurate_partial`. -/
theorem fresnel_far_inaccurate : ∃ t v, 36974 < t ∧ t < 36974.1 ∧ computeFresnelCosineAndSine t = .ok v ∧
    8e-6 < |v.1 - Fresnel.Spec.cosine t| := by
  have h1 : (36974 : ℝ) < Real.sqrt 1367076677 := Real.lt_sqrt_of_sq_lt (by norm_num)
  have h2 : Real.sqrt 1367076677 < 36974.1 := (Real.sqrt_lt' (by norm_num)).2 (by norm_num)
  have hsq : Real.sqrt 1367076677 * Real.sqrt 1367076677 = 1367076677 := Real.mul_self_sqrt (by norm_num)
  generalize Real.sqrt 1367076677 = t at *
  have h0 : 0 < t := by linarith
  refine ⟨t, _, h1, h2, compute_eq t, ?_⟩
  rw [abs_of_pos h0, if_neg (not_lt.2 h0.le), plain_far h1]
  obtain ⟨w, -⟩ := medium_within (x := t) h0.le (by rw [hsq]; norm_num)
  obtain ⟨a1, a2, -, -⟩ := far_u h1.le
  have ht : Real.pi * 0.5 * (t * t) = Real.pi / 2 + (341769169 : ℕ) * (2 * Real.pi) := by rw [hsq]; norm_num; ring
  simp only [genC, ht, Real.sin_add_nat_mul_two_pi, Real.cos_add_nat_mul_two_pi, Real.sin_pi_div_two, Real.cos_pi_div_two,
    mul_one, mul_zero, sub_zero] at w
  generalize uOf t * auxA (uOf t) = a at *
  have hp := Real.pi_pos
  have hb : 8.5e-6 ≤ (1 - a) / (Real.pi * t) := by
    rw [le_div_iff₀ (by positivity)]
    have hp2 : Real.pi ≤ 3.1416 := by have := Real.pi_lt_d4; norm_num at *; linarith
    calc 8.5e-6 * (Real.pi * t) ≤ 8.5e-6 * (3.1416 * 36974.1) := by gcongr
      _ ≤ 1 - 1e-9 := by norm_num
      _ ≤ 1 - a := by linarith
  rw [lt_abs]
  right
  rw [abs_le] at w
  norm_num at *
  linarith

/-- The functions are odd: the opposite argument gives the opposite vector. -/
theorem fresnel_odd (t : ℝ) (v : ℝ × ℝ) (h : computeFresnelCosineAndSine t = .ok v) :
    computeFresnelCosineAndSine (-t) = .ok (-v.1, -v.2) := by
  rw [compute_eq] at h ⊢
  obtain rfl := Except.ok.inj h
  rw [abs_neg]
  rcases lt_trichotomy t 0 with ht | ht | ht
  · rw [if_pos ht, if_neg (by linarith)]; simp
  · subst ht; norm_num [plain]
  · rw [if_pos (by linarith), if_neg (by linarith)]

/-- `FresnelSpiralHeading` is the heading of the curve that the Fresnel cosine and sine draw:
with the rate of curvature π the unit tangent of the curve at `t` has that heading.  For any rate
`FresnelSpiralHeadingDot` is the derivative of the heading. -/
theorem spiral_heading (t : ℝ) :
    HasDerivAt Fresnel.Spec.cosine (Real.cos (fresnelSpiralHeading t Real.pi)) t ∧
    HasDerivAt Fresnel.Spec.sine (Real.sin (fresnelSpiralHeading t Real.pi)) t ∧
    ∀ kDot, HasDerivAt (fun s => fresnelSpiralHeading s kDot) (fresnelSpiralHeadingDot t kDot) t := by
  have e : fresnelSpiralHeading t Real.pi = Real.pi * t ^ 2 / 2 := by unfold fresnelSpiralHeading; norm_num; ring
  rw [e]
  refine ⟨hasDerivAt_cosine t, hasDerivAt_sine t, fun kDot => ?_⟩
  unfold fresnelSpiralHeading fresnelSpiralHeadingDot
  refine ((((hasDerivAt_id t).const_mul (0.5 : ℝ)).mul (hasDerivAt_id t)).mul_const kDot).congr_deriv ?_
  simp only [id]
  ring

/-- One argument of each of the formulas; the values are those of `Spec/Fresnel.lean`. -/
example : (∃ v, computeFresnelCosineAndSine 1 = .ok v ∧ Fresnel.Spec.Within 1e-14 1 v) ∧
    (∃ v, computeFresnelCosineAndSine (-1000) = .ok v ∧ Fresnel.Spec.Within 1e-14 (-1000) v) ∧
    computeFresnelCosineAndSine (-40000) = .ok (-(1 / 2), -(1 / 2)) := by
  refine ⟨fresnel_accurate_partial 1 (by norm_num), fresnel_accurate_partial (-1000) (by norm_num), ?_⟩
  obtain ⟨v, h, e, -⟩ := fresnel_far (-40000) (by norm_num)
  rw [h, e, if_pos (by norm_num)]

/-- At zero the vector is zero, and the integral too. -/
example : computeFresnelCosineAndSine 0 = .ok (0, 0) ∧ Fresnel.Spec.cosine 0 = 0 ∧ Fresnel.Spec.sine 0 = 0 := by
  refine ⟨?_, by simp [Fresnel.Spec.cosine], by simp [Fresnel.Spec.sine]⟩
  rw [compute_eq]
  norm_num [plain]

/-- The specification tells vectors apart: at 1 the cosine is between 0.77 and 0.79 and
the sine between 0.43 and 0.45. -/
example : |Fresnel.Spec.cosine 1 - 0.78| ≤ 0.01 ∧ |Fresnel.Spec.sine 1 - 0.44| ≤ 0.01 := by
  obtain ⟨h1, h2⟩ := series (x := 1) (by norm_num) (by norm_num)
  have q1 : |pevQ (cosSeries 20) 1 - 0.78| ≤ 0.001 := by decide +kernel
  have q2 : |pevQ (sinSeries 20) 1 - 0.44| ≤ 0.003 := by decide +kernel
  have r1 := rat_close q1
  have r2 := rat_close q2
  rw [pevQ_cast] at r1 r2
  simp only [one_pow, one_mul, Rat.cast_one] at *
  push_cast at *
  simp only [abs_le] at *
  norm_num at *
  refine ⟨⟨?_, ?_⟩, ?_, ?_⟩ <;> linarith

end Maliput.Props
