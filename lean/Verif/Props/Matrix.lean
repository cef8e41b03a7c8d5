import Mathlib.Tactic.FinCases
import Mathlib.Tactic.NormNum
import Mathlib.Algebra.Order.Ring.Rat
import Verif.Lemmas.Matrix

set_option autoImplicit false

/-! Property C62: matrices. -/
namespace Maliput.Props

open Maliput.Mat

variable {K : Type} [Field K] [LinearOrder K]

omit [LinearOrder K] in
/-- C62: `determinant` is the determinant, for every size. -/
theorem matrix_determinant {n : Nat} (m : Mat.Matrix K (n + 1)) : determinant m = (_root_.Matrix.of m).det :=
  determinant_eq m

omit [LinearOrder K] in
/-- C62: products, products with vectors, transposes, sums and multiples are those of matrices. -/
theorem matrix_operations {n : Nat} (a b : Mat.Matrix K n) (v : Vec K n) (k : K) :
    (∀ i j, mul a b i j = ∑ l, a i l * b l j) ∧ (∀ i, mulVec a v i = ∑ l, a i l * v l) ∧ (∀ i j, transpose a i j = a j i) ∧
    (∀ i j, add a b i j = a i j + b i j) ∧ (∀ i j, sub a b i j = a i j - b i j) ∧ (∀ i j, smul k a i j = k * a i j) ∧
    (∀ i, mulVec (mul a b) v i = mulVec a (mulVec b v) i) := by
  refine ⟨fun i j => ?_, fun i => dot_eq _ _, fun _ _ => rfl, fun _ _ => rfl, fun _ _ => rfl, fun i j => mul_comm _ _,
    fun i => ?_⟩
  · rw [mul, dot_eq]; rfl
  · simp only [mulVec, mul, dot_eq, col]
    simp only [Finset.sum_mul, Finset.mul_sum]
    rw [Finset.sum_comm]
    simp only [mul_assoc]

omit [LinearOrder K] in
/-- C62: the determinant of a product is the product of the determinants, and transposing does not change it. -/
theorem matrix_determinant_mul {n : Nat} (a b : Mat.Matrix K (n + 1)) :
    determinant (mul a b) = determinant a * determinant b ∧ determinant (transpose a) = determinant a := by
  constructor
  · rw [determinant_eq, determinant_eq, determinant_eq, mul_eq, _root_.Matrix.det_mul]
  · rw [determinant_eq, determinant_eq, ← _root_.Matrix.det_transpose]
    rfl

/-- C62: `inverse` returns the inverse on both sides; it throws exactly if the determinant is below the tolerance, which
is when `is_singular` says so. -/
theorem matrix_inverse [IsStrictOrderedRing K] {n : Nat} (m : Mat.Matrix K (n + 2)) :
    (|determinant m| < 1 / 10 ^ 15 ∧ inverse m = .error .throws ∧ isSingular m = true) ∨
    (1 / 10 ^ 15 ≤ |determinant m| ∧ isSingular m = false ∧ ∃ i, inverse m = .ok i ∧
      (∀ a b, mul m i a b = if a = b then 1 else 0) ∧ ∀ a b, mul i m a b = if a = b then 1 else 0) := by
  by_cases h : |determinant m| < 1 / 10 ^ 15
  · left
    exact ⟨h, by unfold inverse; exact if_pos h, by simpa [isSingular, tolerance] using h⟩
  · right
    have hd : determinant m ≠ 0 := by
      intro h0
      rw [h0, abs_zero] at h
      exact h (by positivity)
    have hi : _root_.Matrix.of (smul (1 / determinant m) (adjoint m)) = (1 / determinant m) • (_root_.Matrix.of m).adjugate := by
      rw [← adjoint_eq]
      ext a b
      simp [smul, mul_comm]
    refine ⟨le_of_not_gt h, by simpa [isSingular, tolerance] using h, smul (1 / determinant m) (adjoint m), ?_, ?_, ?_⟩
    · unfold inverse; exact if_neg h
    · have : _root_.Matrix.of (mul m (smul (1 / determinant m) (adjoint m))) = 1 := by
        rw [mul_eq, hi, _root_.Matrix.mul_smul, _root_.Matrix.mul_adjugate, ← determinant_eq, smul_smul,
          one_div_mul_cancel hd, one_smul]
      intro a b
      have h2 := congrFun (congrFun this a) b
      rwa [_root_.Matrix.of_apply, _root_.Matrix.one_apply] at h2
    · have : _root_.Matrix.of (mul (smul (1 / determinant m) (adjoint m)) m) = 1 := by
        rw [mul_eq, hi, _root_.Matrix.smul_mul, _root_.Matrix.adjugate_mul, ← determinant_eq, smul_smul,
          one_div_mul_cancel hd, one_smul]
      intro a b
      have h2 := congrFun (congrFun this a) b
      rwa [_root_.Matrix.of_apply, _root_.Matrix.one_apply] at h2

/-- A matrix of size four. -/
def fourByFour : Mat.Matrix ℚ 4 := ![![2, 0, 1, 3], ![0, 1, -1, 2], ![1, 4, 0, 1], ![0, 0, 5, 1]]

theorem fourByFour_det : determinant fourByFour = 92 := by
  rw [matrix_determinant, _root_.Matrix.det_succ_row_zero]
  simp [Fin.sum_univ_succ, _root_.Matrix.det_fin_three, fourByFour, Fin.succAbove]
  norm_num

example : isSingular fourByFour = false ∧ ∃ i, inverse fourByFour = .ok i ∧ ∀ a b, mul fourByFour i a b = if a = b then 1 else 0 := by
  have hd : |determinant fourByFour| = 92 := by rw [fourByFour_det]; norm_num
  rcases matrix_inverse fourByFour with ⟨h, _⟩ | ⟨_, h1, i, h2, h3, _⟩
  · rw [hd] at h; norm_num at h
  · exact ⟨h1, i, h2, h3⟩

/-- A regular matrix whose determinant is too small is called singular. -/
theorem matrix_singular_small : inverse (![![1 / 10 ^ 8, 0], ![0, 1 / 10 ^ 8]] : Mat.Matrix ℚ 2) = .error .throws := by
  norm_num [inverse, determinant, tolerance]

end Maliput.Props
