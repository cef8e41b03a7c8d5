import Mathlib.Tactic.LinearCombination
import Verif.Lemmas.DoubleNearest
import Verif.Spec.DoubleArithmetic

set_option autoImplicit false

/-!
# The numbers of C126, C127, C134 and C136 are doubles

The arithmetic those properties are proved for is the one of IEEE 754: results are rounded to the nearest double, the even one of two, they
overflow to infinity where the standard says so, and operations with infinities have the results the standard gives them.
-/
namespace Maliput.Props
open Maliput.Dbl Maliput.Dbl.Spec

theorem threshold_eq : threshold = 2 ^ 1024 - 2 ^ 970 := by
  have h : overflow - threshold = 2 ^ (970 : ℕ) := by
    rw [overflow_eq, threshold, ← sub_mul, show (971 : ℤ) = 970 + 1 from rfl, zpow_add₀ (by norm_num),
      show (970 : ℤ) = ((970 : ℕ) : ℤ) from rfl, zpow_natCast]
    ring
  rw [eq_sub_iff_add_eq, ← h]
  unfold overflow
  ring

/-- Rounding gives a finite number exactly if what is rounded is closer to zero than half way from the greatest double to 2^1024, and then
it is the nearest double, the even one of two. -/
theorem rounding_is_nearest_even (q r : ℚ) :
    toDouble q = .fin r ↔ (-(2 ^ 1024 - 2 ^ 970) < q ∧ q < 2 ^ 1024 - 2 ^ 970) ∧ NearestEven q r := by
  rw [← threshold_eq]
  have hup := round_overflow_iff q
  have hlow : roundUnbounded q ≤ -overflow ↔ q ≤ -threshold := by
    have := round_overflow_iff (-q)
    rw [roundUnbounded_neg] at this
    constructor
    · intro h; linarith [this.1 (by linarith)]
    · intro h; linarith [this.2 (by linarith)]
  have hspec : -threshold < q → q < threshold → toDouble q = .fin (roundUnbounded q) ∧ NearestEven q (roundUnbounded q) := by
    intro h1 h2
    have ht : toDouble q = .fin (roundUnbounded q) := by
      unfold toDouble
      rw [if_neg (fun h => absurd (hup.1 h) (not_le.2 h2)), if_neg (fun h => absurd (hlow.1 h) (not_le.2 h1))]
    refine ⟨ht, ?_, fun r' hr' => round_closest q hr', fun r' hr' hne htie => round_tie q hr' hne htie⟩
    have := toDouble_isDouble q
    rw [ht] at this
    exact this
  constructor
  · intro h
    have h1 : ¬ overflow ≤ roundUnbounded q := by
      intro hc
      unfold toDouble at h
      rw [if_pos hc] at h
      cases h
    have h2 : ¬ roundUnbounded q ≤ -overflow := by
      intro hc
      unfold toDouble at h
      rw [if_neg h1, if_pos hc] at h
      cases h
    rw [hup, not_le] at h1
    rw [hlow, not_le] at h2
    obtain ⟨ht, hn⟩ := hspec h2 h1
    rw [ht] at h
    cases h
    exact ⟨⟨h2, h1⟩, hn⟩
  · rintro ⟨⟨h1, h2⟩, hr, hmin, heven⟩
    obtain ⟨ht, hr', hmin', heven'⟩ := hspec h1 h2
    rw [ht]
    by_contra hne
    have hne' : roundUnbounded q ≠ r := fun h => hne (by rw [h])
    have htie : |q - roundUnbounded q| = |q - r| := le_antisymm (hmin' r hr) (hmin _ hr')
    obtain ⟨k, hk⟩ := heven _ hr' hne' htie
    obtain ⟨k', hk'⟩ := heven' r hr hne'.symm htie.symm
    have hd : 0 < |r - roundUnbounded q| := abs_pos.2 (sub_ne_zero.2 hne'.symm)
    rw [abs_sub_comm] at hk'
    have hdiff : r - roundUnbounded q = 2 * ((k : ℚ) - k') * |r - roundUnbounded q| := by
      linear_combination hk - hk'
    have habs : |r - roundUnbounded q| = |2 * ((k : ℚ) - k')| * |r - roundUnbounded q| := by
      conv_lhs => rw [hdiff, abs_mul, abs_abs]
    have hone : |2 * ((k : ℚ) - k')| = 1 := by
      have := mul_right_cancel₀ hd.ne' ((one_mul _).trans habs)
      exact this.symm
    have hint : |2 * (k - k')| = (1 : ℤ) := by exact_mod_cast hone
    rcases abs_choice (2 * (k - k')) with h | h <;> omega

example : toDouble (1 / 10) = .fin (3602879701896397 / 36028797018963968) := by decide +kernel
example : NearestEven (1 / 10) (3602879701896397 / 36028797018963968) :=
  ((rounding_is_nearest_even _ _).1 (by decide +kernel)).2
/-- A tie goes to the even side. -/
example : toDouble (2 ^ 53 + 1) = .fin (2 ^ 53) ∧ toDouble (2 ^ 53 + 3) = .fin (2 ^ 53 + 4) := by constructor <;> decide +kernel

/-- Rounding gives an infinity exactly from half way from the greatest double to 2^1024 on, and never something that is not a number. -/
theorem rounding_overflows (q : ℚ) :
    (toDouble q = .pinf ↔ 2 ^ 1024 - 2 ^ 970 ≤ q) ∧ (toDouble q = .ninf ↔ q ≤ -(2 ^ 1024 - 2 ^ 970)) ∧ toDouble q ≠ .nan := by
  rw [← threshold_eq]
  have hup := round_overflow_iff q
  have hlow : roundUnbounded q ≤ -overflow ↔ q ≤ -threshold := by
    have := round_overflow_iff (-q)
    rw [roundUnbounded_neg] at this
    constructor
    · intro h; linarith [this.1 (by linarith)]
    · intro h; linarith [this.2 (by linarith)]
  have hpos : 0 < overflow := by unfold overflow; positivity
  rw [← hup, ← hlow]
  unfold toDouble
  by_cases h1 : overflow ≤ roundUnbounded q
  · rw [if_pos h1]
    refine ⟨⟨fun _ => h1, fun _ => rfl⟩, ⟨nofun, fun h => absurd (le_trans h1 h) (by linarith)⟩, nofun⟩
  · rw [if_neg h1]
    by_cases h2 : roundUnbounded q ≤ -overflow
    · rw [if_pos h2]
      exact ⟨⟨nofun, fun h => absurd h h1⟩, ⟨fun _ => h2, fun _ => rfl⟩, nofun⟩
    · rw [if_neg h2]
      exact ⟨⟨nofun, fun h => absurd h h1⟩, ⟨nofun, fun h => absurd h h2⟩, nofun⟩

example : toDouble (2 ^ 1024 - 2 ^ 970) = .pinf := (rounding_overflows _).1.2 le_rfl

/-- A sum is not a number exactly if an operand is not or the operands are opposite infinities; with one infinity it is that one; and of
finite operands it is the rounded sum. A difference is the sum with the opposite. -/
theorem double_sum (a b : Double) :
    (add a b = .nan ↔ a = .nan ∨ b = .nan ∨ (a = .pinf ∧ b = .ninf) ∨ (a = .ninf ∧ b = .pinf)) ∧
    (∀ i, IsInf i → b ≠ .nan → b = i ∨ ¬ IsInf b → add i b = i ∧ add b i = i) ∧
    (∀ x y : ℚ, add (.fin x) (.fin y) = toDouble (x + y) ∧ sub (.fin x) (.fin y) = toDouble (x - y)) := by
  refine ⟨?_, ?_, fun x y => ⟨rfl, sub_fin x y⟩⟩
  · have hf := fun q => (rounding_overflows q).2.2
    cases a <;> cases b <;> simp [add, hf]
  · rintro i (rfl | rfl) hb h
    · cases b <;> simp_all [add, IsInf]
    · cases b <;> simp_all [add, IsInf]

/-- A product is not a number exactly if an operand is not or one is zero and the other infinite; otherwise, with an infinity, it is the
infinity of the sign; and of finite operands it is the rounded product. -/
theorem double_product (a b : Double) :
    (mul a b = .nan ↔ a = .nan ∨ b = .nan ∨ (IsInf a ∧ b = 0) ∨ (a = 0 ∧ IsInf b)) ∧
    (IsInf a ∨ IsInf b → (Positive a ∧ Positive b ∨ Negative a ∧ Negative b → mul a b = .pinf) ∧
      (Positive a ∧ Negative b ∨ Negative a ∧ Positive b → mul a b = .ninf)) ∧
    (∀ x y : ℚ, mul (.fin x) (.fin y) = toDouble (x * y)) := by
  have h0 : (0 : Double) = .fin 0 := zero_def
  have hf := fun q => (rounding_overflows q).2.2
  have hinf : ∀ q : ℚ, (infTimes q = .nan ↔ q = 0) ∧ (0 < q → infTimes q = .pinf) ∧ (q < 0 → infTimes q = .ninf) := by
    intro q
    unfold infTimes
    refine ⟨?_, fun h => by rw [if_neg h.ne', if_pos h], fun h => by rw [if_neg h.ne, if_neg (not_lt.2 h.le)]⟩
    by_cases hq : q = 0
    · simp [hq]
    · rw [if_neg hq]
      split <;> simp [hq]
  have hneg : ∀ d : Double, Dbl.neg d = .nan ↔ d = .nan := by intro d; cases d <;> simp [Dbl.neg]
  refine ⟨?_, ?_, fun x y => rfl⟩
  · rw [h0]
    cases a <;> cases b <;> simp [mul, hf, IsInf, hinf, hneg]
  · intro hi
    constructor
    · rintro (⟨ha, hb⟩ | ⟨ha, hb⟩)
      · rcases ha with rfl | ⟨x, rfl, hx⟩ <;> rcases hb with rfl | ⟨y, rfl, hy⟩
        · rfl
        · exact (hinf y).2.1 hy
        · exact (hinf x).2.1 hx
        · simp [IsInf] at hi
      · rcases ha with rfl | ⟨x, rfl, hx⟩ <;> rcases hb with rfl | ⟨y, rfl, hy⟩
        · rfl
        · simp [mul, (hinf y).2.2 hy, Dbl.neg]
        · simp [mul, (hinf x).2.2 hx, Dbl.neg]
        · simp [IsInf] at hi
    · rintro (⟨ha, hb⟩ | ⟨ha, hb⟩)
      · rcases ha with rfl | ⟨x, rfl, hx⟩ <;> rcases hb with rfl | ⟨y, rfl, hy⟩
        · rfl
        · exact (hinf y).2.2 hy
        · simp [mul, (hinf x).2.1 hx, Dbl.neg]
        · simp [IsInf] at hi
      · rcases ha with rfl | ⟨x, rfl, hx⟩ <;> rcases hb with rfl | ⟨y, rfl, hy⟩
        · rfl
        · simp [mul, (hinf y).2.1 hy, Dbl.neg]
        · exact (hinf x).2.2 hx
        · simp [IsInf] at hi

/-- Comparisons with something that is not a number are false; of numbers, they are those of the values, infinities included. -/
theorem double_comparison (a b : Double) :
    (lt a b = true ↔ a ≠ .nan ∧ b ≠ .nan ∧ (a = .ninf ∧ b ≠ .ninf ∨ a ≠ .pinf ∧ b = .pinf ∨ ∃ x y, a = .fin x ∧ b = .fin y ∧ x < y)) ∧
    (le a b = true ↔ a ≠ .nan ∧ b ≠ .nan ∧ (a = .ninf ∨ b = .pinf ∨ ∃ x y, a = .fin x ∧ b = .fin y ∧ x ≤ y)) ∧
    gt a b = lt b a ∧ ge a b = le b a := by
  refine ⟨?_, ?_, rfl, rfl⟩
  · cases a <;> cases b <;> simp [lt]
  · cases a <;> cases b <;> simp [le]

end Maliput.Props
