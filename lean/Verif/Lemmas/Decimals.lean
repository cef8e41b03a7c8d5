import Mathlib.Algebra.Order.Floor.Semiring
import Mathlib.Data.Nat.Digits.Lemmas
import Mathlib.Data.Rat.Floor
import Mathlib.Tactic.FieldSimp
import Mathlib.Tactic.IntervalCases
import Mathlib.Tactic.Linarith
import Verif.Lemmas.Monad
import Verif.Spec.GenerateObj

set_option autoImplicit false

/-! Lemmas about decimal numbers. -/
namespace Maliput.GenerateObj

open Maliput.GenerateObj.Spec

/-- The characters of digits. -/
theorem digitChar_digit {d : ℕ} (h : d < 10) : (Nat.digitChar d).isDigit = true ∧ (Nat.digitChar d).toNat - '0'.toNat = d ∧
    Nat.digitChar d ≠ '.' ∧ Nat.digitChar d ≠ '-' := by
  interval_cases d <;> decide

/-- Reading one more digit. -/
theorem natOf_snoc {cs : List Char} {n d : ℕ} (h : natOf cs = some n) (hd : d < 10) :
    natOf (cs ++ [Nat.digitChar d]) = some (10 * n + d) := by
  obtain ⟨h1, h2, -, -⟩ := digitChar_digit hd
  unfold natOf at h ⊢
  rw [List.foldl_append, h]
  simp only [List.foldl_cons, List.foldl_nil, Option.bind_some, h1, if_true, h2]

/-- Reading the last digits of a number. -/
theorem lastDigits_ok : ∀ (n k : ℕ), natOf (lastDigits n k) = some (k % 10 ^ n) ∧ (lastDigits n k).length = n ∧
    ∀ c ∈ lastDigits n k, c ≠ '.' ∧ c ≠ '-' := by
  intro n
  induction n with
  | zero => intro k; simp [lastDigits, natOf, Nat.mod_one]
  | succ n ih =>
    intro k
    obtain ⟨h1, h2, h3⟩ := ih (k / 10)
    have hd : k % 10 < 10 := Nat.mod_lt _ (by norm_num)
    obtain ⟨-, -, h4, h5⟩ := digitChar_digit hd
    refine ⟨?_, by simp [lastDigits, h2], ?_⟩
    · rw [lastDigits, natOf_snoc h1 hd, pow_succ', Nat.mod_mul]
      congr 1; omega
    · intro c hc
      simp only [lastDigits, List.mem_append, List.mem_singleton] at hc
      rcases hc with hc | rfl
      · exact h3 c hc
      · exact ⟨h4, h5⟩

/-- Reading the digits of a number. -/
theorem wholeDigits_ok (k : ℕ) : natOf (wholeDigits k) = some k ∧ ∀ c ∈ wholeDigits k, c ≠ '.' ∧ c ≠ '-' := by
  have key : ∀ k : ℕ, natOf ((Nat.digits 10 k).reverse.map Nat.digitChar) = some k ∧
      ∀ c ∈ (Nat.digits 10 k).reverse.map Nat.digitChar, c ≠ '.' ∧ c ≠ '-' := by
    intro k
    induction k using Nat.strong_induction_on with
    | _ k ih =>
      rcases Nat.eq_zero_or_pos k with rfl | hk
      · simp [natOf]
      · rw [Nat.digits_def' (by norm_num) hk, List.reverse_cons, List.map_append]
        have hd : k % 10 < 10 := Nat.mod_lt _ (by norm_num)
        obtain ⟨-, -, h4, h5⟩ := digitChar_digit hd
        obtain ⟨a, b⟩ := ih (k / 10) (by omega)
        refine ⟨?_, ?_⟩
        · rw [List.map_singleton, natOf_snoc a hd]
          congr 1; omega
        · intro c hc
          rcases List.mem_append.1 hc with hc | hc
          · exact b c hc
          · simp only [List.map_cons, List.map_nil, List.mem_singleton] at hc
            subst hc
            exact ⟨h4, h5⟩
  unfold wholeDigits
  split
  · next h => subst h; decide
  · exact key k

/-- Some digit is written. -/
theorem wholeDigits_ne_nil (k : ℕ) : wholeDigits k ≠ [] := by
  unfold wholeDigits
  split
  · simp
  · next h => simpa using Nat.digits_ne_nil_iff_ne_zero.2 h

/-- Rounding. -/
theorem roundEven_near {x : ℚ} (hx : 0 ≤ x) : |(roundEven x : ℚ) - x| ≤ 1 / 2 := by
  have h1 := Nat.floor_le hx
  have h2 := Nat.lt_floor_add_one x
  unfold roundEven
  simp only
  rw [abs_le]
  split
  · next h => constructor <;> linarith
  · next h =>
    split
    · next h' =>
      split
      · constructor <;> linarith
      · push_cast; constructor <;> linarith
    · push_cast; constructor <;> linarith

/-- Whole numbers are not changed by rounding. -/
theorem roundEven_nat (n : ℕ) : roundEven (n : ℚ) = n := by
  simp [roundEven]

/-- Reading digits, a decimal point and digits. -/
theorem decimalOf_ok (n k : ℕ) :
    decimalOf (wholeDigits (k / 10 ^ n) ++ (if n = 0 then [] else '.' :: lastDigits n k)) = some ((k : ℚ) / 10 ^ n) := by
  obtain ⟨h1, h2⟩ := wholeDigits_ok (k / 10 ^ n)
  obtain ⟨h3, h4, -⟩ := lastDigits_ok n k
  have hall : ∀ c ∈ wholeDigits (k / 10 ^ n), decide (c ≠ '.') = true := fun c hc => by simpa using (h2 c hc).1
  unfold decimalOf
  rw [List.takeWhile_append_of_pos hall, List.dropWhile_append_of_pos hall]
  split_ifs with hn
  · subst hn
    simp only [List.takeWhile_nil, List.append_nil, h1, List.dropWhile_nil, List.tail_nil]
    simp [natOf]
  · have : ('.' :: lastDigits n k).takeWhile (fun c => decide (c ≠ '.')) = [] := by simp
    rw [this, List.append_nil, h1]
    have : ('.' :: lastDigits n k).dropWhile (fun c => decide (c ≠ '.')) = '.' :: lastDigits n k := by simp
    rw [this, List.tail_cons, h3, h4]
    simp only [Option.some.injEq]
    have hp : (10 : ℚ) ^ n ≠ 0 := by positivity
    rw [eq_div_iff hp, add_mul, div_mul_cancel₀ _ hp]
    exact_mod_cast Nat.div_add_mod' k (10 ^ n)

/-- The text of a number stands for the number rounded to the given number of digits. -/
theorem toStr_ok (x : ℚ) (n : ℕ) : ∃ s, toStr x n = .ok s ∧
    decimal s = some ((if x < 0 then -1 else 1) * ((roundEven (|x| * 10 ^ n) : ℚ) / 10 ^ n)) := by
  have hk := decimalOf_ok n (roundEven (|x| * 10 ^ n))
  have hne := wholeDigits_ne_nil (roundEven (|x| * 10 ^ n) / 10 ^ n)
  have hd := (wholeDigits_ok (roundEven (|x| * 10 ^ n) / 10 ^ n)).2
  refine ⟨String.ofList ((if x < 0 then ['-'] else []) ++ wholeDigits (roundEven (|x| * 10 ^ n) / 10 ^ n) ++
    (if n = 0 then [] else '.' :: lastDigits n (roundEven (|x| * 10 ^ n)))), ?_, ?_⟩
  · simp only [toStr, throwUnless, ge_iff_le, Nat.cast_nonneg, decide_true, if_true, Int.toNat_natCast, bind, Except.bind, pure,
      Except.pure]
  unfold decimal
  rw [String.toList_ofList]
  by_cases hx : x < 0
  · simp only [hx, if_true, List.cons_append, List.nil_append, hk, Option.map_some]
    simp
  · simp only [hx, if_false, List.nil_append, one_mul]
    generalize hw : wholeDigits (roundEven (|x| * 10 ^ n) / 10 ^ n) = w at hk hne hd
    match w, hne, hd with
    | c :: w, _, hd =>
      have hc : c ≠ '-' := (hd c (by simp)).2
      simp only [List.cons_append] at hk ⊢
      split
      · next h => simp only [List.cons.injEq] at h; exact absurd h.1 hc
      · exact hk

/-- The text of a number stands for a number that is near. -/
theorem toStr_near (x : ℚ) (n : ℕ) : ∃ s y, toStr x n = .ok s ∧ decimal s = some y ∧ |y - x| ≤ 1 / 2 / 10 ^ n := by
  obtain ⟨s, h1, h2⟩ := toStr_ok x n
  refine ⟨s, _, h1, h2, ?_⟩
  have hp : (0 : ℚ) < 10 ^ n := by positivity
  have := roundEven_near (x := |x| * 10 ^ n) (by positivity)
  rw [le_div_iff₀ hp, ← abs_of_pos hp, ← abs_mul, abs_of_pos hp]
  have e : ∀ y : ℚ, (y / 10 ^ n - |x|) * 10 ^ n = y - |x| * 10 ^ n := by intro y; field_simp
  by_cases hx : x < 0
  · simp only [hx, if_true]
    have : (-1 * ((roundEven (|x| * 10 ^ n) : ℚ) / 10 ^ n) - x) * 10 ^ n =
        -(((roundEven (|x| * 10 ^ n) : ℚ) / 10 ^ n - |x|) * 10 ^ n) := by rw [abs_of_neg hx]; ring
    rw [this, abs_neg, e]
    assumption
  · simp only [hx, if_false, one_mul]
    have : ((roundEven (|x| * 10 ^ n) : ℚ) / 10 ^ n - x) * 10 ^ n =
        ((roundEven (|x| * 10 ^ n) : ℚ) / 10 ^ n - |x|) * 10 ^ n := by rw [abs_of_nonneg (not_lt.1 hx)]
    rw [this, e]
    assumption

/-- The text of a number with at most that many digits after the decimal point stands for it. -/
theorem toStr_exact (x : ℚ) (n k : ℕ) (h : |x| * 10 ^ n = k) : ∃ s, toStr x n = .ok s ∧ decimal s = some x := by
  obtain ⟨s, h1, h2⟩ := toStr_ok x n
  refine ⟨s, h1, ?_⟩
  rw [h2, h, roundEven_nat, ← h]
  have hp : (10 : ℚ) ^ n ≠ 0 := by positivity
  rw [mul_div_cancel_right₀ _ hp]
  by_cases hx : x < 0
  · simp [hx, abs_of_neg hx]
  · simp [hx, abs_of_nonneg (not_lt.1 hx)]

end Maliput.GenerateObj
