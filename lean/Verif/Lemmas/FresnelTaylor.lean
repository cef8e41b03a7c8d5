import Mathlib.Analysis.Complex.Trigonometric
import Mathlib.Analysis.SpecialFunctions.Trigonometric.Bounds
import Mathlib.Analysis.SpecialFunctions.Integrals.Basic
import Mathlib.Analysis.Real.Pi.Bounds
import Mathlib.Tactic.FieldSimp
import Verif.Lemmas.FresnelPoly
import Verif.Spec.Fresnel

set_option autoImplicit false

/-!
# The Fresnel integrals near zero

Taylor polynomials of the sine and the cosine, integrated term by term.
-/

namespace Maliput.Fresnel

/-- Taylor polynomial of the cosine. -/
noncomputable def cosT (n : Nat) (z : ℝ) : ℝ := ∑ k ∈ Finset.range n, (-1) ^ k * z ^ (2 * k) / (2 * k).factorial

/-- Taylor polynomial of the sine. -/
noncomputable def sinT (n : Nat) (z : ℝ) : ℝ := ∑ k ∈ Finset.range n, (-1) ^ k * z ^ (2 * k + 1) / (2 * k + 1).factorial

theorem expT (n : Nat) (z : ℝ) :
    ∑ m ∈ Finset.range (2 * n), (z * Complex.I) ^ m / (m.factorial : ℂ) = (cosT n z : ℂ) + (sinT n z : ℂ) * Complex.I := by
  induction n with
  | zero => simp [cosT, sinT]
  | succ n ih =>
    rw [show 2 * (n + 1) = 2 * n + 1 + 1 by ring, Finset.sum_range_succ, Finset.sum_range_succ, ih]
    have h : (Complex.I) ^ (2 * n) = (-1) ^ n := by rw [pow_mul, Complex.I_sq]
    unfold cosT sinT
    rw [Finset.sum_range_succ, Finset.sum_range_succ]
    push_cast
    rw [mul_pow, mul_pow, pow_succ Complex.I, h]
    ring

theorem taylor (n : Nat) (z : ℝ) (hz : |z| ≤ n) :
    |Real.cos z - cosT n z| ≤ |z| ^ (2 * n) / (2 * n).factorial * 2 ∧
    |Real.sin z - sinT n z| ≤ |z| ^ (2 * n) / (2 * n).factorial * 2 := by
  have hn : ‖(z : ℂ) * Complex.I‖ = |z| := by simp
  have h := Complex.exp_bound' (x := z * Complex.I) (n := 2 * n) (by
    rw [hn, div_le_iff₀ (by positivity)]
    push_cast
    linarith)
  rw [expT, Complex.exp_mul_I, hn] at h
  have he : Complex.cos z + Complex.sin z * Complex.I - ((cosT n z : ℂ) + (sinT n z : ℂ) * Complex.I) =
      ((Real.cos z - cosT n z : ℝ) : ℂ) + ((Real.sin z - sinT n z : ℝ) : ℂ) * Complex.I := by
    push_cast; ring
  rw [he] at h
  generalize Real.cos z - cosT n z = a at h ⊢
  generalize Real.sin z - sinT n z = b at h ⊢
  constructor
  · refine le_trans ?_ (le_trans (Complex.abs_re_le_norm _) h)
    simp
  · refine le_trans ?_ (le_trans (Complex.abs_im_le_norm _) h)
    simp

/-- A rational close to π. -/
def pQ : ℚ := 3.14159265358979323846

theorem pQ_close : |Real.pi - pQ| ≤ 1e-20 := by
  have h1 := Real.pi_gt_d20
  have h2 := Real.pi_lt_d20
  have h3 : (pQ : ℝ) = 3.14159265358979323846 := by unfold pQ; norm_num
  rw [h3, abs_le]
  constructor <;> [(norm_num at *; linarith); (norm_num at *; linarith)]

/-- Coefficients of the series of the Fresnel cosine in the fourth power of the argument. -/
def cosSeries (n : Nat) : List ℚ :=
  (List.range n).map fun k : Nat => (-1) ^ k * (pQ / 2) ^ (2 * k) / ((2 * k).factorial * (4 * k + 1) : Nat)

/-- Coefficients of the series of the Fresnel sine in the fourth power of the argument. -/
def sinSeries (n : Nat) : List ℚ :=
  (List.range n).map fun k : Nat => (-1) ^ k * (pQ / 2) ^ (2 * k + 1) / ((2 * k + 1).factorial * (4 * k + 3) : Nat)

theorem pev_range (n : Nat) (x : ℝ) : ∀ c : Nat → ℚ, pev ((List.range n).map c) x = ∑ k ∈ Finset.range n, (c k : ℝ) * x ^ k := by
  induction n with
  | zero => intro c; simp [pev]
  | succ n ih =>
    intro c
    rw [List.range_succ_eq_map, List.map_cons, List.map_map, pev, ih, Finset.sum_range_succ', Finset.mul_sum]
    rw [add_comm]
    congr 1
    · refine Finset.sum_congr rfl fun k _ => ?_
      simp only [Function.comp]; ring
    · simp

theorem integral_powers (n : Nat) (a : Nat → ℝ) (e : Nat → Nat) (x : ℝ) :
    ∫ s in (0 : ℝ)..x, ∑ k ∈ Finset.range n, a k * s ^ e k = ∑ k ∈ Finset.range n, a k * (x ^ (e k + 1) / (e k + 1)) := by
  rw [intervalIntegral.integral_finsetSum]
  · refine Finset.sum_congr rfl fun k _ => ?_
    rw [intervalIntegral.integral_const_mul, integral_pow]
    simp
  · intro k _
    exact (Continuous.intervalIntegrable (by fun_prop) _ _)

theorem integral_cosT (n : Nat) (x : ℝ) :
    ∫ s in (0 : ℝ)..x, cosT n (pQ * s ^ 2 / 2) = x * pev (cosSeries n) (x ^ 4) := by
  have h : ∀ s : ℝ, cosT n (pQ * s ^ 2 / 2) =
      ∑ k ∈ Finset.range n, ((-1) ^ k * (pQ / 2 : ℝ) ^ (2 * k) / (2 * k).factorial) * s ^ (4 * k) := by
    intro s
    unfold cosT
    refine Finset.sum_congr rfl fun k _ => ?_
    rw [show (pQ : ℝ) * s ^ 2 / 2 = (pQ / 2 : ℝ) * s ^ 2 by ring, mul_pow, ← pow_mul,
      show 2 * (2 * k) = 4 * k by ring]
    ring
  simp only [h]
  rw [integral_powers, cosSeries, pev_range, Finset.mul_sum]
  refine Finset.sum_congr rfl fun k _ => ?_
  have h1 : ((2 * k).factorial : ℝ) ≠ 0 := by positivity
  have h2 : (4 * (k : ℝ) + 1) ≠ 0 := by positivity
  push_cast
  rw [← pow_mul]
  field_simp
  ring

theorem integral_sinT (n : Nat) (x : ℝ) :
    ∫ s in (0 : ℝ)..x, sinT n (pQ * s ^ 2 / 2) = x ^ 3 * pev (sinSeries n) (x ^ 4) := by
  have h : ∀ s : ℝ, sinT n (pQ * s ^ 2 / 2) =
      ∑ k ∈ Finset.range n, ((-1) ^ k * (pQ / 2 : ℝ) ^ (2 * k + 1) / (2 * k + 1).factorial) * s ^ (4 * k + 2) := by
    intro s
    unfold sinT
    refine Finset.sum_congr rfl fun k _ => ?_
    rw [show (pQ : ℝ) * s ^ 2 / 2 = (pQ / 2 : ℝ) * s ^ 2 by ring, mul_pow, ← pow_mul,
      show 2 * (2 * k + 1) = 4 * k + 2 by ring]
    ring
  simp only [h]
  rw [integral_powers, sinSeries, pev_range, Finset.mul_sum]
  refine Finset.sum_congr rfl fun k _ => ?_
  have h1 : ((2 * k + 1).factorial : ℝ) ≠ 0 := by positivity
  have h2 : (4 * (k : ℝ) + 3) ≠ 0 := by positivity
  have h3 : (4 * (k : ℝ) + 2 + 1) ≠ 0 := by positivity
  push_cast
  rw [← pow_mul]
  field_simp
  ring

/-- The Taylor polynomials at a multiple of the rational. -/
theorem taylor_pi {n : Nat} {r e : ℝ} (hn : 4 * r ≤ n) (he : (4 * r) ^ (2 * n) / (2 * n).factorial * 2 ≤ e) {w : ℝ} (h0 : 0 ≤ w) (hw : w ≤ r) :
    |Real.cos (Real.pi * w) - cosT n (pQ * w)| ≤ e + 1e-20 * r ∧
    |Real.sin (Real.pi * w) - sinT n (pQ * w)| ≤ e + 1e-20 * r := by
  have hp : (0 : ℝ) ≤ pQ := by unfold pQ; norm_num
  have hp4 : (pQ : ℝ) ≤ 4 := by unfold pQ; norm_num
  have hle : |(pQ : ℝ) * w| ≤ 4 * r := by
    rw [abs_of_nonneg (by positivity)]; gcongr
  obtain ⟨t1, t2⟩ := taylor n (pQ * w) (hle.trans hn)
  have hb : |(pQ : ℝ) * w| ^ (2 * n) / (2 * n).factorial * 2 ≤ e := by
    refine le_trans ?_ he
    gcongr
  have hd : |Real.pi * w - pQ * w| ≤ 1e-20 * r := by
    rw [← sub_mul, abs_mul, abs_of_nonneg h0]
    have := pQ_close
    gcongr
  constructor
  · calc _ = |(Real.cos (pQ * w) - cosT n (pQ * w)) + (Real.cos (Real.pi * w) - Real.cos (pQ * w))| := by congr 1; ring
      _ ≤ _ := abs_add_le _ _
      _ ≤ _ := add_le_add (t1.trans hb) ((Real.abs_cos_sub_cos_le _ _).trans hd)
  · calc _ = |(Real.sin (pQ * w) - sinT n (pQ * w)) + (Real.sin (Real.pi * w) - Real.sin (pQ * w))| := by congr 1; ring
      _ ≤ _ := abs_add_le _ _
      _ ≤ _ := add_le_add (t2.trans hb) ((Real.abs_sin_sub_sin_le _ _).trans hd)

theorem taylor_size : (4 * (1.28125 : ℝ)) ^ (2 * 20) / (2 * 20).factorial * 2 ≤ 1e-18 := by
  norm_num [Nat.factorial]

theorem series {x : ℝ} (h0 : 0 ≤ x) (h : x * x ≤ 2.5625) :
    |Spec.cosine x - x * pev (cosSeries 20) (x ^ 4)| ≤ 2e-18 * x ∧
    |Spec.sine x - x ^ 3 * pev (sinSeries 20) (x ^ 4)| ≤ 2e-18 * x := by
  have key : ∀ s ∈ Set.uIoc 0 x, |Real.cos (Real.pi * s ^ 2 / 2) - cosT 20 (pQ * s ^ 2 / 2)| ≤ 2e-18 ∧
      |Real.sin (Real.pi * s ^ 2 / 2) - sinT 20 (pQ * s ^ 2 / 2)| ≤ 2e-18 := by
    intro s hs
    rw [Set.uIoc_of_le h0] at hs
    have h1 : s ^ 2 / 2 ≤ (1.28125 : ℝ) := by
      have := mul_le_mul hs.2 hs.2 hs.1.le h0
      norm_num at h ⊢
      nlinarith
    have := taylor_pi (n := 20) (r := 1.28125) (by norm_num) taylor_size (w := s ^ 2 / 2) (by positivity) h1
    rw [← mul_div_assoc, ← mul_div_assoc] at this
    exact ⟨this.1.trans (by norm_num), this.2.trans (by norm_num)⟩
  have hcT : Continuous (cosT 20) := by unfold cosT; fun_prop
  have hsT : Continuous (sinT 20) := by unfold sinT; fun_prop
  constructor
  · rw [← integral_cosT, Spec.cosine, ← intervalIntegral.integral_sub]
    · have := intervalIntegral.norm_integral_le_of_norm_le_const (a := 0) (b := x) (C := 2e-18)
        (f := fun s => Real.cos (Real.pi * s ^ 2 / 2) - cosT 20 (pQ * s ^ 2 / 2)) (fun s hs => (key s hs).1)
      simpa [abs_of_nonneg h0] using this
    · exact Continuous.intervalIntegrable (by fun_prop) _ _
    · exact Continuous.intervalIntegrable (by fun_prop) _ _
  · rw [← integral_sinT, Spec.sine, ← intervalIntegral.integral_sub]
    · have := intervalIntegral.norm_integral_le_of_norm_le_const (a := 0) (b := x) (C := 2e-18)
        (f := fun s => Real.sin (Real.pi * s ^ 2 / 2) - sinT 20 (pQ * s ^ 2 / 2)) (fun s hs => (key s hs).2)
      simpa [abs_of_nonneg h0] using this
    · exact Continuous.intervalIntegrable (by fun_prop) _ _
    · exact Continuous.intervalIntegrable (by fun_prop) _ _

end Maliput.Fresnel
