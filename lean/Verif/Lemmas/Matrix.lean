import Mathlib.LinearAlgebra.Matrix.NonsingularInverse
import Mathlib.Data.Fintype.BigOperators
import Verif.Model.Matrix

set_option autoImplicit false

/-! Lemmas about matrices. -/
namespace Maliput.Mat

variable {K : Type} [Field K] [LinearOrder K]

omit [LinearOrder K] in
theorem foldl_sum {n : Nat} (f : Fin n → K) : (List.finRange n).foldl (fun acc i => acc + f i) 0 = ∑ i, f i := by
  have h : ∀ (l : List (Fin n)) (a : K), l.foldl (fun acc i => acc + f i) a = a + (l.map f).sum := by
    intro l
    induction l with
    | nil => intro a; simp
    | cons x l ih => intro a; rw [List.foldl_cons, ih, List.map_cons, List.sum_cons, add_assoc]
  rw [h, zero_add, ← List.ofFn_eq_map, List.sum_ofFn]

omit [LinearOrder K] in
theorem dot_eq {n : Nat} (a b : Vec K n) : dot a b = ∑ i, a i * b i := foldl_sum fun i => a i * b i

theorem reduceVec_eq {α : Type} {n : Nat} (v : Fin (n + 1) → α) (p : Fin (n + 1)) : reduceVec v p = fun i => v (p.succAbove i) := by
  funext i
  unfold reduceVec Fin.succAbove
  by_cases h : i.val < p.val
  · rw [if_pos h, if_pos (by simpa [Fin.lt_def] using h)]
  · rw [if_neg h, if_neg (by simpa [Fin.lt_def] using h)]

omit [Field K] [LinearOrder K] in
theorem reduce_eq {n : Nat} (m : Matrix K (n + 1)) (i j : Fin (n + 1)) :
    _root_.Matrix.of (reduce m i j) = (_root_.Matrix.of m).submatrix i.succAbove j.succAbove := by
  ext a b
  simp only [_root_.Matrix.of_apply, _root_.Matrix.submatrix_apply, reduce, reduceVec_eq]

omit [LinearOrder K] in
theorem sign_eq (i j : Nat) : (sign i j : K) = (-1) ^ (i + j) := by
  unfold sign
  rcases Nat.even_or_odd (i + j) with h | h
  · rw [if_pos (Nat.even_iff.1 h), h.neg_one_pow]
  · rw [if_neg (by have := Nat.odd_iff.1 h; omega), h.neg_one_pow]

omit [LinearOrder K] in
theorem determinant_eq : ∀ {n : Nat} (m : Matrix K (n + 1)), determinant m = (_root_.Matrix.of m).det
  | 0, m => by rw [determinant]; exact (_root_.Matrix.det_fin_one (_root_.Matrix.of m)).symm
  | 1, m => by rw [determinant, _root_.Matrix.det_fin_two]; rfl
  | n + 2, m => by
    rw [determinant, foldl_sum, _root_.Matrix.det_succ_row_zero]
    apply Finset.sum_congr rfl
    intro j _
    rw [determinant_eq (reduce m 0 j), reduce_eq, sign_eq, zero_add, ← mul_assoc, mul_comm (m 0 j), Fin.succAbove_zero]
    rfl

omit [LinearOrder K] in
theorem adjoint_eq {n : Nat} (m : Matrix K (n + 2)) : _root_.Matrix.of (adjoint m) = (_root_.Matrix.of m).adjugate := by
  ext i j
  rw [_root_.Matrix.adjugate_fin_succ_eq_det_submatrix]
  simp only [_root_.Matrix.of_apply, adjoint, transpose, col, cofactor, cofactorAt, determinant_eq, reduce_eq, sign_eq]

omit [LinearOrder K] in
theorem mul_eq {n : Nat} (a b : Matrix K n) :
    _root_.Matrix.of (mul a b) = _root_.Matrix.of a * _root_.Matrix.of b := by
  ext i j
  simp only [_root_.Matrix.of_apply, mul, dot_eq, col, _root_.Matrix.mul_apply]

end Maliput.Mat
