import Mathlib.Analysis.Calculus.Deriv.MeanValue
import Mathlib.MeasureTheory.Integral.IntervalIntegral.FundThmCalculus
import Verif.Lemmas.FresnelMedium

set_option autoImplicit false

/-!
# Where the formulas of the Fresnel functions meet

At `x² = 2.5625` both formulas are the integrals up to numbers that the kernel evaluates.
From there on the error of the second formula grows no more than its residuals allow.
-/

namespace Maliput.Fresnel

/-- The Taylor polynomials as lists. -/
def cosL (n : Nat) : List ℚ := (List.range n).map fun k : Nat => (-1) ^ k / ((2 * k).factorial : Nat)
@[inherit_doc cosL] def sinL (n : Nat) : List ℚ := (List.range n).map fun k : Nat => (-1) ^ k / ((2 * k + 1).factorial : Nat)

theorem cosT_pev (n : Nat) (z : ℝ) : cosT n z = pev (cosL n) (z ^ 2) := by
  rw [cosL, pev_range, cosT]
  refine Finset.sum_congr rfl fun k _ => ?_
  push_cast
  rw [← pow_mul]; ring

theorem sinT_pev (n : Nat) (z : ℝ) : sinT n z = z * pev (sinL n) (z ^ 2) := by
  rw [sinL, pev_range, sinT, Finset.mul_sum]
  refine Finset.sum_congr rfl fun k _ => ?_
  push_cast
  rw [← pow_mul]; ring

theorem rat_close {q d e : ℚ} (h : |q - d| ≤ e) : |(q : ℝ) - d| ≤ e := by exact_mod_cast h

theorem near_trans {a b c e f : ℝ} (h1 : |a - b| ≤ e) (h2 : |b - c| ≤ f) : |a - c| ≤ e + f := by
  calc |a - c| = |(a - b) + (b - c)| := by congr 1; ring
    _ ≤ _ := abs_add_le _ _
    _ ≤ _ := add_le_add h1 h2

theorem near_mul {a a' b b' e f : ℝ} (h1 : |a - a'| ≤ e) (h2 : |b - b'| ≤ f) : |a * b - a' * b'| ≤ e * (|b'| + f) + |a'| * f := by
  have h3 : |b| ≤ |b'| + f := by
    calc |b| = |b' + (b - b')| := by congr 1; ring
      _ ≤ _ := abs_add_le _ _
      _ ≤ _ := by gcongr
  calc |a * b - a' * b'| = |(a - a') * b + a' * (b - b')| := by congr 1; ring
    _ ≤ |(a - a') * b| + |a' * (b - b')| := abs_add_le _ _
    _ = |a - a'| * |b| + |a'| * |b - b'| := by rw [abs_mul, abs_mul]
    _ ≤ _ := by
      have := (abs_nonneg _).trans h1
      gcongr

theorem near_cos : |Real.cos (Real.pi * 1.28125) - (-0.6343932841636454982178)| ≤ 3e-18 := by
  have h := (taylor_pi (n := 20) (r := 1.28125) (by norm_num) taylor_size (w := 1.28125) (by norm_num) (le_refl _)).1
  have h2 : |pevQ (cosL 20) ((pQ * 1.28125) ^ 2) - (-0.6343932841636454982178)| ≤ 1e-18 := by decide +kernel
  have h3 := rat_close h2
  rw [pevQ_cast] at h3
  rw [cosT_pev] at h
  push_cast at h3
  exact (near_trans h h3).trans (by norm_num)

theorem near_sin : |Real.sin (Real.pi * 1.28125) - (-0.7730104533627369608088)| ≤ 3e-18 := by
  have h := (taylor_pi (n := 20) (r := 1.28125) (by norm_num) taylor_size (w := 1.28125) (by norm_num) (le_refl _)).2
  have h2 : |(pQ * 1.28125) * pevQ (sinL 20) ((pQ * 1.28125) ^ 2) - (-0.7730104533627369608088)| ≤ 1e-18 := by decide +kernel
  have h3 := rat_close h2
  rw [Rat.cast_mul, pevQ_cast] at h3
  rw [sinT_pev] at h
  push_cast at h3
  exact (near_trans h h3).trans (by norm_num)

theorem near_inv_pi : |1 / Real.pi - 0.3183098861837906715378| ≤ 1e-18 := by
  have h1 := Real.pi_gt_d20
  have h2 := Real.pi_lt_d20
  have hp := Real.pi_pos
  rw [abs_le]
  constructor
  · have : (0.3183098861837906715378 : ℝ) - 1e-18 ≤ 1 / Real.pi := by
      rw [le_div_iff₀ hp]; norm_num at *; linarith
    linarith
  · have : 1 / Real.pi ≤ (0.3183098861837906715378 : ℝ) + 1e-18 := by
      rw [div_le_iff₀ hp]; norm_num at *; linarith
    linarith

/-- The argument of the auxiliary functions where the formulas meet. -/
noncomputable def u0 : ℝ := 1 / (Real.pi * 2.5625 * (Real.pi * 2.5625))

/-- Rationals on both sides of it. -/
def uLow : ℚ := 0.01543023379681051129
@[inherit_doc uLow] def uHigh : ℚ := 0.01543023379681051130

theorem u0_bounds : (uLow : ℝ) ≤ u0 ∧ u0 ≤ uHigh := by
  have h1 := Real.pi_gt_d20
  have h2 := Real.pi_lt_d20
  have hp := Real.pi_pos
  have h3 : Real.pi * Real.pi ≤ 3.14159265358979323847 * 3.14159265358979323847 := by gcongr
  have h4 : (3.14159265358979323846 : ℝ) * 3.14159265358979323846 ≤ Real.pi * Real.pi := by gcongr
  have e : Real.pi * 2.5625 * (Real.pi * 2.5625) = Real.pi * Real.pi * (2.5625 * 2.5625) := by ring
  unfold u0 uLow uHigh
  rw [e]
  generalize Real.pi * Real.pi = y at *
  have hy : 0 < y := by norm_num at h4; linarith
  constructor
  · rw [le_div_iff₀ (by positivity)]; norm_num at *; linarith
  · rw [div_le_iff₀ (by positivity)]; norm_num at *; linarith

theorem quotient_bounds {N D : List ℚ} (hN : ∀ q ∈ N, 0 ≤ q) (hD : ∀ q ∈ D, 0 ≤ q) (hD0 : 0 < pevQ D 0) :
    ((pevQ N uLow / pevQ D uHigh : ℚ) : ℝ) ≤ pev N u0 / pev D u0 ∧
    pev N u0 / pev D u0 ≤ ((pevQ N uHigh / pevQ D uLow : ℚ) : ℝ) := by
  obtain ⟨h1, h2⟩ := u0_bounds
  have hl : (0 : ℝ) ≤ uLow := by unfold uLow; norm_num
  have hu := hl.trans h1
  have p1 := pev_pos hD hD0 hl
  have p2 := pev_pos hD hD0 hu
  have m1 := pev_mono hN hl h1
  have m2 := pev_mono hN hu h2
  have m3 := pev_mono hD hl h1
  have m4 := pev_mono hD hu h2
  have n1 := pev_nonneg hN hl
  have n2 := pev_nonneg hN hu
  have n3 := n2.trans m2
  rw [Rat.cast_div, Rat.cast_div, pevQ_cast, pevQ_cast, pevQ_cast, pevQ_cast]
  constructor <;> gcongr

theorem near_A : |u0 * auxA u0 - 0.0338760465921727678092| ≤ 1e-18 := by
  obtain ⟨h1, h2⟩ := u0_bounds
  obtain ⟨b1, b2⟩ := quotient_bounds (N := fN) (D := fD) (by decide +kernel) fD_nonneg (by decide +kernel)
  have q1 : 0.0338760465921727678092 - 1e-18 ≤ uLow * (pevQ fN uLow / pevQ fD uHigh) := by decide +kernel
  have q2 : uHigh * (pevQ fN uHigh / pevQ fD uLow) ≤ 0.0338760465921727678092 + 1e-18 := by decide +kernel
  have q0 : 0 ≤ pevQ fN uLow / pevQ fD uHigh := by decide +kernel
  have q1' : ((0.0338760465921727678092 - 1e-18 : ℚ) : ℝ) ≤ ((uLow * (pevQ fN uLow / pevQ fD uHigh) : ℚ) : ℝ) := by exact_mod_cast q1
  have q2' : ((uHigh * (pevQ fN uHigh / pevQ fD uLow) : ℚ) : ℝ) ≤ ((0.0338760465921727678092 + 1e-18 : ℚ) : ℝ) := by exact_mod_cast q2
  have q0' : (0 : ℝ) ≤ ((pevQ fN uLow / pevQ fD uHigh : ℚ) : ℝ) := by exact_mod_cast q0
  rw [Rat.cast_mul] at q1' q2'
  unfold auxA
  generalize ((pevQ fN uLow / pevQ fD uHigh : ℚ) : ℝ) = lo at *
  generalize ((pevQ fN uHigh / pevQ fD uLow : ℚ) : ℝ) = hi at *
  have hl : (0 : ℝ) ≤ uLow := by unfold uLow; norm_num
  have hu := hl.trans h1
  have hq := q0'.trans b1
  have m1 : (uLow : ℝ) * lo ≤ u0 * (pev fN u0 / pev fD u0) := by gcongr
  have m2 : u0 * (pev fN u0 / pev fD u0) ≤ uHigh * hi := by
    have := hu.trans h2
    gcongr
  push_cast at q1' q2'
  rw [abs_le]
  constructor <;> linarith

theorem near_H : |auxH u0 - 0.8595142996579072448994| ≤ 2e-17 := by
  obtain ⟨b1, b2⟩ := quotient_bounds (N := gN) (D := gD) (by decide +kernel) gD_nonneg (by decide +kernel)
  have q1 : 0.8595142996579072448994 - 2e-17 ≤ pevQ gN uLow / pevQ gD uHigh := by decide +kernel
  have q2 : pevQ gN uHigh / pevQ gD uLow ≤ 0.8595142996579072448994 + 2e-17 := by decide +kernel
  have q1' : ((0.8595142996579072448994 - 2e-17 : ℚ) : ℝ) ≤ ((pevQ gN uLow / pevQ gD uHigh : ℚ) : ℝ) := by exact_mod_cast q1
  have q2' : ((pevQ gN uHigh / pevQ gD uLow : ℚ) : ℝ) ≤ ((0.8595142996579072448994 + 2e-17 : ℚ) : ℝ) := by exact_mod_cast q2
  unfold auxH
  push_cast at q1' q2'
  push_cast at b1 b2
  rw [abs_le]
  constructor <;> linarith

/-- Where the formulas meet. -/
noncomputable def meet : ℝ := Real.sqrt 41 / 4

theorem meet_sq : meet * meet = 2.5625 := by
  unfold meet
  have := Real.mul_self_sqrt (show (0 : ℝ) ≤ 41 by norm_num)
  norm_num
  linarith

theorem near_meet : |meet - 1.6007810593582121716221| ≤ 1e-18 := by
  unfold meet
  have h1 : (6.4031242374328486864884 - 1e-18 : ℝ) ≤ Real.sqrt 41 := Real.le_sqrt_of_sq_le (by norm_num)
  have h2 : Real.sqrt 41 ≤ (6.4031242374328486864884 + 1e-18 : ℝ) := Real.sqrt_le_iff.2 ⟨by norm_num, by norm_num⟩
  rw [abs_le]
  constructor <;> linarith

theorem meet_pos : 0 < meet := by unfold meet; positivity

theorem near_cosine : |Spec.cosine meet - meet * 0.2279918282268935690512| ≤ 1e-17 := by
  have h := (series meet_pos.le meet_sq.le).1
  rw [show meet ^ 4 = meet * meet * (meet * meet) by ring, meet_sq] at h
  have h2 : |pevQ (cosSeries 20) (2.5625 * 2.5625) - 0.2279918282268935690512| ≤ 1e-18 := by decide +kernel
  have h3 := rat_close h2
  rw [pevQ_cast] at h3
  push_cast at h3
  have hm := near_meet
  generalize pev (cosSeries 20) (2.5625 * 2.5625) = T at *
  have e : Spec.cosine meet - meet * 0.2279918282268935690512 =
      (Spec.cosine meet - meet * T) + meet * (T - 0.2279918282268935690512) := by ring
  rw [e]
  refine (abs_add_le _ _).trans ?_
  rw [abs_mul, abs_of_pos meet_pos]
  have hm2 : meet ≤ 1.61 := by rw [abs_le] at hm; norm_num at *; linarith
  calc _ ≤ (2e-18 * 1.61 + 1.61 * 1e-18 : ℝ) := by
        have := meet_pos
        refine add_le_add (h.trans ?_) ?_ <;> gcongr
    _ ≤ (1e-17 : ℝ) := by norm_num

theorem near_sine : |Spec.sine meet - meet * (2.5625 * 0.1556032820826181095519)| ≤ 1e-17 := by
  have h := (series meet_pos.le meet_sq.le).2
  rw [show meet ^ 4 = meet * meet * (meet * meet) by ring, show meet ^ 3 = meet * (meet * meet) by ring, meet_sq] at h
  have h2 : |pevQ (sinSeries 20) (2.5625 * 2.5625) - 0.1556032820826181095519| ≤ 1e-18 := by decide +kernel
  have h3 := rat_close h2
  rw [pevQ_cast] at h3
  push_cast at h3
  have hm := near_meet
  generalize pev (sinSeries 20) (2.5625 * 2.5625) = T at *
  have e : Spec.sine meet - meet * (2.5625 * 0.1556032820826181095519) =
      (Spec.sine meet - meet * 2.5625 * T) + meet * 2.5625 * (T - 0.1556032820826181095519) := by ring
  rw [e]
  refine (abs_add_le _ _).trans ?_
  rw [abs_mul, abs_of_pos (by have := meet_pos; positivity : 0 < meet * 2.5625)]
  have hm2 : meet ≤ 1.61 := by rw [abs_le] at hm; norm_num at *; linarith
  calc _ ≤ (2e-18 * 1.61 + 1.61 * 2.5625 * 1e-18 : ℝ) := by
        have := meet_pos
        refine add_le_add (h.trans ?_) ?_ <;> gcongr
    _ ≤ (1e-17 : ℝ) := by norm_num

theorem uOf_meet : uOf meet = u0 := by unfold uOf u0; rw [meet_sq]

theorem near_F : |(1 - u0 * auxA u0) - 0.9661239534078272321908| ≤ 1e-18 := by
  have := near_A
  rw [abs_le] at *
  norm_num at *
  constructor <;> linarith

theorem near_G : |1 / (Real.pi * 2.5625) * auxH u0 - 0.1067675703014435139329| ≤ 1e-17 := by
  have h := near_mul near_inv_pi near_H
  have e : 1 / (Real.pi * 2.5625) * auxH u0 = 16 / 41 * (1 / Real.pi * auxH u0) := by
    have := Real.pi_pos
    rw [show (2.5625 : ℝ) = 41 / 16 by norm_num]
    field_simp
  rw [e]
  clear e
  generalize 1 / Real.pi * auxH u0 = y at *
  norm_num [abs_of_pos] at h
  rw [abs_le] at *
  norm_num at *
  constructor <;> linarith

theorem meet_cosine : |genC auxA auxH meet - Spec.cosine meet| ≤ 1e-15 := by
  unfold genC
  rw [uOf_meet, meet_sq, show Real.pi * 0.5 * 2.5625 = Real.pi * 1.28125 by norm_num; ring]
  have h1 := near_mul near_F near_sin
  have h2 := near_mul near_G near_cos
  have h3 := near_cosine
  have hq := near_inv_pi
  have hm := near_meet
  have e : ∀ y : ℝ, y / (Real.pi * meet) = meet * (16 / 41 * (1 / Real.pi * y)) := by
    intro y
    have h41 : meet * meet = 41 / 16 := by rw [meet_sq]; norm_num
    have := Real.pi_pos
    have := meet_pos
    field_simp
    linear_combination (-16 * y) * h41
  rw [e]
  generalize (1 - u0 * auxA u0) * Real.sin (Real.pi * 1.28125) = fs at *
  generalize 1 / (Real.pi * 2.5625) * auxH u0 * Real.cos (Real.pi * 1.28125) = gc at *
  norm_num [abs_of_pos, abs_of_neg] at h1 h2
  have h4 : |(fs - gc) - (0.9661239534078272321908 * -0.7730104533627369608088 - 0.1067675703014435139329 * -0.6343932841636454982178)| ≤ 3e-17 := by
    rw [abs_le] at *; norm_num at *; constructor <;> linarith
  have h5 := near_mul hq h4
  generalize 1 / Real.pi * (fs - gc) = y at *
  norm_num [abs_of_pos, abs_of_neg] at h5
  have h6 : |(16 / 41 * y - 0.2279918282268935690512) - (-0.31234752377721215)| ≤ 1e-16 := by
    rw [abs_le] at *; norm_num at *; constructor <;> linarith
  have h7 := near_mul hm h6
  norm_num [abs_of_pos, abs_of_neg] at h7
  rw [abs_le] at *
  norm_num at *
  constructor <;> nlinarith

theorem meet_sine : |genS auxA auxH meet - Spec.sine meet| ≤ 1e-15 := by
  unfold genS
  rw [uOf_meet, meet_sq, show Real.pi * 0.5 * 2.5625 = Real.pi * 1.28125 by norm_num; ring]
  have h1 := near_mul near_F near_cos
  have h2 := near_mul near_G near_sin
  have h3 := near_sine
  have hq := near_inv_pi
  have hm := near_meet
  have e : ∀ y : ℝ, y / (Real.pi * meet) = meet * (16 / 41 * (1 / Real.pi * y)) := by
    intro y
    have h41 : meet * meet = 41 / 16 := by rw [meet_sq]; norm_num
    have := Real.pi_pos
    have := meet_pos
    field_simp
    linear_combination (-16 * y) * h41
  rw [e]
  generalize (1 - u0 * auxA u0) * Real.cos (Real.pi * 1.28125) = fs at *
  generalize 1 / (Real.pi * 2.5625) * auxH u0 * Real.sin (Real.pi * 1.28125) = gc at *
  norm_num [abs_of_pos, abs_of_neg] at h1 h2
  have h4 : |(fs + gc) - (0.9661239534078272321908 * -0.6343932841636454982178 + 0.1067675703014435139329 * -0.7730104533627369608088)| ≤ 3e-17 := by
    rw [abs_le] at *; norm_num at *; constructor <;> linarith
  have h5 := near_mul hq h4
  generalize 1 / Real.pi * (fs + gc) = y at *
  norm_num [abs_of_pos, abs_of_neg] at h5
  have h6 : |(16 / 41 * y + 2.5625 * 0.1556032820826181095519) - 0.31234752377721215| ≤ 1e-16 := by
    rw [abs_le] at *; norm_num at *; constructor <;> linarith
  have h7 := near_mul hm h6
  norm_num [abs_of_pos, abs_of_neg] at h7
  rw [abs_le] at *
  norm_num at *
  constructor <;> nlinarith

end Maliput.Fresnel
