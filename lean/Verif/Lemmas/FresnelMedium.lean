import Mathlib.Analysis.SpecialFunctions.Trigonometric.Deriv
import Mathlib.Analysis.Calculus.Deriv.Inv
import Mathlib.Analysis.Calculus.Deriv.Pow
import Verif.Lemmas.FresnelSmall

set_option autoImplicit false

/-!
# The Fresnel functions of the model for other arguments

The derivatives of the program's formulas are the integrands up to residuals that are
rational functions of `u = 1 / (π x²)²`.
-/

namespace Maliput.Fresnel

/-- The argument of the auxiliary functions. -/
noncomputable def uOf (x : ℝ) : ℝ := 1 / (Real.pi * (x * x) * (Real.pi * (x * x)))

theorem uOf_pos {x : ℝ} (hx : 0 < x) : 0 < uOf x := by
  have := Real.pi_pos
  unfold uOf; positivity

theorem hasDerivAt_uOf {x : ℝ} (hx : 0 < x) : HasDerivAt uOf (-4 * uOf x / x) x := by
  have hp := Real.pi_pos
  have h : HasDerivAt (fun x : ℝ => Real.pi * (x * x) * (Real.pi * (x * x))) (4 * Real.pi ^ 2 * x ^ 3) x := by
    have := (((hasDerivAt_id x).mul (hasDerivAt_id x)).const_mul Real.pi)
    refine (this.mul this).congr_deriv ?_
    simp; ring
  have hne : Real.pi * (x * x) * (Real.pi * (x * x)) ≠ 0 := by positivity
  have h2 := (hasDerivAt_const x (1 : ℝ)).div h hne
  refine h2.congr_deriv ?_
  unfold uOf
  field_simp
  ring

/-- The formula of the cosine with any auxiliary functions. -/
noncomputable def genC (A H : ℝ → ℝ) (x : ℝ) : ℝ :=
  0.5 + ((1 - uOf x * A (uOf x)) * Real.sin (Real.pi * 0.5 * (x * x)) -
    1 / (Real.pi * (x * x)) * H (uOf x) * Real.cos (Real.pi * 0.5 * (x * x))) / (Real.pi * x)

/-- The formula of the sine with any auxiliary functions. -/
noncomputable def genS (A H : ℝ → ℝ) (x : ℝ) : ℝ :=
  0.5 - ((1 - uOf x * A (uOf x)) * Real.cos (Real.pi * 0.5 * (x * x)) +
    1 / (Real.pi * (x * x)) * H (uOf x) * Real.sin (Real.pi * 0.5 * (x * x))) / (Real.pi * x)

/-- Residuals of the equations of the auxiliary functions. -/
noncomputable def res1 (u a h h' : ℝ) : ℝ := 3 * h + 4 * u * h' - a
@[inherit_doc res1] noncomputable def res2 (u a h a' : ℝ) : ℝ := h - 1 + 5 * u * a + 4 * u ^ 2 * a'

theorem hasDerivAt_gen {A H : ℝ → ℝ} {A' H' x : ℝ} (hx : 0 < x) (hA : HasDerivAt A A' (uOf x)) (hH : HasDerivAt H H' (uOf x)) :
    HasDerivAt (genC A H) (Real.cos (Real.pi * 0.5 * (x * x)) * (1 + uOf x * res1 (uOf x) (A (uOf x)) (H (uOf x)) H') +
      Real.sin (Real.pi * 0.5 * (x * x)) * (1 / (Real.pi * (x * x)) * res2 (uOf x) (A (uOf x)) (H (uOf x)) A')) x ∧
    HasDerivAt (genS A H) (Real.sin (Real.pi * 0.5 * (x * x)) * (1 + uOf x * res1 (uOf x) (A (uOf x)) (H (uOf x)) H') -
      Real.cos (Real.pi * 0.5 * (x * x)) * (1 / (Real.pi * (x * x)) * res2 (uOf x) (A (uOf x)) (H (uOf x)) A')) x := by
  have hp := Real.pi_pos
  have du := hasDerivAt_uOf hx
  have dA : HasDerivAt (fun y => A (uOf y)) (A' * (-4 * uOf x / x)) x := hA.comp x du
  have dH : HasDerivAt (fun y => H (uOf y)) (H' * (-4 * uOf x / x)) x := hH.comp x du
  have dF := (du.mul dA).const_sub (1 : ℝ)
  have dx2 : HasDerivAt (fun y : ℝ => y * y) (2 * x) x := by
    refine ((hasDerivAt_id x).mul (hasDerivAt_id x)).congr_deriv ?_
    simp; ring
  have dt := dx2.const_mul Real.pi
  have hne : Real.pi * (x * x) ≠ 0 := by positivity
  have dti := (hasDerivAt_const x (1 : ℝ)).div dt hne
  have dG := dti.mul dH
  have dθ := dx2.const_mul (Real.pi * 0.5)
  have dc := dθ.cos
  have ds := dθ.sin
  have dp : HasDerivAt (fun y : ℝ => Real.pi * y) Real.pi x := by
    simpa using (hasDerivAt_id x).const_mul Real.pi
  have hne2 : Real.pi * x ≠ 0 := by positivity
  have hu : uOf x = 1 / (Real.pi * (x * x) * (Real.pi * (x * x))) := rfl
  constructor
  · refine ((((dF.mul ds).sub (dG.mul dc)).div dp hne2).const_add (0.5 : ℝ)).congr_deriv ?_
    simp only [res1, res2, Pi.mul_apply, Pi.div_apply, Pi.sub_apply]
    generalize A (uOf x) = a
    generalize H (uOf x) = h
    generalize Real.cos (Real.pi * 0.5 * (x * x)) = c
    generalize Real.sin (Real.pi * 0.5 * (x * x)) = s
    rw [hu]
    field_simp
    ring
  · refine ((((dF.mul dc).add (dG.mul ds)).div dp hne2).const_sub (0.5 : ℝ)).congr_deriv ?_
    simp only [res1, res2, Pi.mul_apply, Pi.div_apply, Pi.add_apply]
    generalize A (uOf x) = a
    generalize H (uOf x) = h
    generalize Real.cos (Real.pi * 0.5 * (x * x)) = c
    generalize Real.sin (Real.pi * 0.5 * (x * x)) = s
    rw [hu]
    field_simp
    ring

/-- The auxiliary functions of the program. -/
noncomputable def auxA (u : ℝ) : ℝ := pev fN u / pev fD u
@[inherit_doc auxA] noncomputable def auxH (u : ℝ) : ℝ := pev gN u / pev gD u

theorem mediumX_ok (x : ℝ) : mediumX x (x * x) = .ok (genS auxA auxH x, genC auxA auxH x) := by
  unfold mediumX
  dsimp only
  rw [polevl_ok _ kFn 9 (by decide) (by decide), p1evl_ok _ kFd 10 (by decide) (by decide),
    polevl_ok _ kGn 10 (by decide) (by decide), p1evl_ok _ kGd 11 (by decide) (by decide)]
  simp only [pure, Except.pure, bind, Except.bind, genS, genC, auxA, auxH, uOf, fN, fD, gN, gD, mul_div_assoc]

/-- The numerator of the derivative of a quotient. -/
def wronskian (N D : List ℚ) : List ℚ := addL (mulL (derL N) D) (smulL (-1) (mulL N (derL D)))

theorem hasDerivAt_quotient {N D : List ℚ} {u : ℝ} (h : pev D u ≠ 0) :
    HasDerivAt (fun u => pev N u / pev D u) (pev (wronskian N D) u / pev D u ^ 2) u := by
  refine ((hasDerivAt_pev N u).div (hasDerivAt_pev D u) h).congr_deriv ?_
  congr 1
  rw [wronskian, pev_addL, pev_smulL, pev_mulL, pev_mulL]
  push_cast; ring

/-- Numerators and denominators of the residuals. -/
def res1N : List ℚ :=
  addL (addL (smulL 3 (mulL (mulL gN gD) fD)) (0 :: smulL 4 (mulL (wronskian gN gD) fD))) (smulL (-1) (mulL fN (mulL gD gD)))
@[inherit_doc res1N] def res1D : List ℚ := mulL fD (mulL gD gD)
@[inherit_doc res1N] def res2N : List ℚ :=
  addL (addL (mulL gN (mulL fD fD)) (smulL (-1) (mulL gD (mulL fD fD))))
    (mulL gD (addL (0 :: smulL 5 (mulL fN fD)) (0 :: 0 :: smulL 4 (wronskian fN fD))))
@[inherit_doc res1N] def res2D : List ℚ := mulL gD (mulL fD fD)

theorem res1D_nonneg : ∀ q ∈ res1D, 0 ≤ q := by decide +kernel
theorem res2D_nonneg : ∀ q ∈ res2D, 0 ≤ q := by decide +kernel

theorem res1_bound : boundAlong res1N res1D 5e-13
    [0, 4.8e-6, 9.6e-5, 0.00032, 0.0008, 0.0016, 0.00267, 0.00446, 0.00687, 0.00982, 0.0131, 0.01544] = true := by
  decide +kernel

theorem res2_bound : boundAlong res2N res2D 2e-14
    [0, 1.07e-5, 0.000214, 0.000715, 0.00143, 0.00239, 0.00368, 0.00526, 0.00702, 0.00936, 0.0117, 0.0138, 0.01544] = true := by
  decide +kernel

end Maliput.Fresnel
