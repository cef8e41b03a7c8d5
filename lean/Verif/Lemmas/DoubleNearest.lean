import Verif.Lemmas.DoubleOrder

set_option autoImplicit false

/-! Rounding is to the nearest, ties to even, and overflows where it should. -/
namespace Maliput.Dbl
open Spec

private theorem two_pos' (e : ℤ) : (0 : ℚ) < 2 ^ e := zpow_pos (by norm_num) e

theorem nearest_neg (x : ℚ) : nearest (-x) = -nearest x := by
  by_cases hi : x = ⌊x⌋
  · rw [hi, nearest_int, ← Int.cast_neg, nearest_int]
  · have h1 : (⌊x⌋ : ℚ) < x := lt_of_le_of_ne (Int.floor_le x) (Ne.symm hi)
    have h2 := Int.lt_floor_add_one x
    have hfl : ⌊-x⌋ = -⌊x⌋ - 1 := by
      rw [Int.floor_eq_iff]
      push_cast
      constructor <;> linarith
    unfold nearest
    rw [hfl]
    push_cast
    by_cases ha : x - ⌊x⌋ < 1 / 2
    · rw [if_pos ha, if_neg (by linarith), if_pos (by linarith)]; ring
    · rw [if_neg ha]
      by_cases hb : 1 / 2 < x - ⌊x⌋
      · rw [if_pos hb, if_pos (by linarith)]; ring
      · rw [if_neg hb, if_neg (by linarith), if_neg (by linarith)]
        split_ifs <;> omega

theorem lastPlace_neg (q : ℚ) : lastPlace (-q) = lastPlace q := by
  unfold lastPlace
  simp only [neg_eq_zero, abs_neg]

theorem roundUnbounded_neg (q : ℚ) : roundUnbounded (-q) = -roundUnbounded q := by
  unfold roundUnbounded
  rw [lastPlace_neg, neg_div, nearest_neg]
  push_cast
  ring

theorem nearest_closest (x : ℚ) (k : ℤ) : |x - nearest x| ≤ |x - k| := by
  by_cases h : k = nearest x
  · rw [h]
  · have h1 := nearest_le_add x
    have h2 := sub_le_nearest x
    have h3 : |x - nearest x| ≤ 1 / 2 := by rw [abs_le]; constructor <;> linarith
    refine le_trans h3 ?_
    rcases lt_or_gt_of_ne h with hk | hk
    · have : (k : ℚ) + 1 ≤ nearest x := by exact_mod_cast hk
      rw [abs_of_nonneg (by linarith)]; linarith
    · have : (nearest x : ℚ) + 1 ≤ k := by exact_mod_cast hk
      rw [abs_of_nonpos (by linarith)]; linarith

theorem nearest_tie {x : ℚ} {k : ℤ} (hk : k ≠ nearest x) (h : |x - k| = |x - nearest x|) :
    |((nearest x : ℤ) : ℚ) - k| = 1 ∧ nearest x % 2 = 0 := by
  have h1 := nearest_le_add x
  have h2 := sub_le_nearest x
  have h3 : |x - nearest x| ≤ 1 / 2 := by rw [abs_le]; constructor <;> linarith
  have hfrac : x - ⌊x⌋ = 1 / 2 ∧ |((nearest x : ℤ) : ℚ) - k| = 1 := by
    rcases lt_or_gt_of_ne hk with hlt | hlt
    · have h4 : (k : ℚ) + 1 ≤ nearest x := by exact_mod_cast hlt
      have h5 : |x - k| = x - k := abs_of_nonneg (by linarith)
      rw [h5] at h
      have h6 : x - k ≤ 1 / 2 := by rw [h]; exact h3
      have h7 : (nearest x : ℚ) = k + 1 := by linarith
      have h8 : x = k + 1 / 2 := by linarith
      have h9 : ⌊x⌋ = k := by rw [Int.floor_eq_iff]; constructor <;> linarith
      refine ⟨by rw [h9]; linarith, ?_⟩
      rw [h7]; ring_nf; exact abs_one
    · have h4 : (nearest x : ℚ) + 1 ≤ k := by exact_mod_cast hlt
      have h5 : |x - k| = k - x := by rw [abs_of_nonpos (by linarith)]; ring
      rw [h5] at h
      have h6 : k - x ≤ 1 / 2 := by rw [h]; exact h3
      have h7 : (nearest x : ℚ) = k - 1 := by linarith
      have h8 : x = k - 1 / 2 := by linarith
      have h9 : ⌊x⌋ = k - 1 := by rw [Int.floor_eq_iff]; push_cast; constructor <;> linarith
      refine ⟨by rw [h9]; push_cast; linarith, ?_⟩
      rw [h7, show (k : ℚ) - 1 - k = -1 by ring, abs_neg, abs_one]
  refine ⟨hfrac.2, ?_⟩
  unfold nearest
  rw [if_neg (by linarith [hfrac.1]), if_neg (by linarith [hfrac.1])]
  split_ifs <;> omega

theorem grid_or_small {q r : ℚ} (h : Representable r) :
    (∃ k : ℤ, r = k * 2 ^ lastPlace q) ∨ |r| < 2 ^ (lastPlace q + 52) ∧ -1074 < lastPlace q := by
  obtain ⟨m, e, hm, he, -, rfl⟩ := h
  by_cases hle : lastPlace q ≤ e
  · left
    refine ⟨m * 2 ^ (e - lastPlace q).toNat, ?_⟩
    push_cast
    rw [mul_assoc, ← zpow_natCast, ← zpow_add₀ (by norm_num)]
    congr 2
    omega
  · right
    push Not at hle
    refine ⟨?_, by omega⟩
    rw [abs_mul, abs_of_pos (two_pos' e)]
    have hmq : |(m : ℚ)| < 2 ^ 53 := by exact_mod_cast hm
    calc |(m : ℚ)| * 2 ^ e < 2 ^ 53 * 2 ^ e := mul_lt_mul_of_pos_right hmq (two_pos' e)
      _ = 2 ^ (e + 53) := by rw [zpow_add₀ (by norm_num), mul_comm]; norm_num
      _ ≤ 2 ^ (lastPlace q + 52) := zpow_le_zpow_right₀ (by norm_num) (by omega)

theorem round_grid (q : ℚ) (k : ℤ) : |q - roundUnbounded q| ≤ |q - k * 2 ^ lastPlace q| := by
  have hu := two_pos' (lastPlace q)
  have h := nearest_closest (q / 2 ^ lastPlace q) k
  have e : ∀ n : ℤ, q - n * 2 ^ lastPlace q = (q / 2 ^ lastPlace q - n) * 2 ^ lastPlace q := by
    intro n
    rw [sub_mul, div_mul_cancel₀ _ hu.ne']
  unfold roundUnbounded
  rw [e, e, abs_mul, abs_mul]
  exact mul_le_mul_of_nonneg_right h (abs_nonneg _)

/-- A double that is not a multiple of the last place of `q` is farther from `q` than the least number with as many binary digits. -/
theorem small_far {q r : ℚ} (h : |r| < 2 ^ (lastPlace q + 52)) (hp : -1074 < lastPlace q) : |q - roundUnbounded q| < |q - r| := by
  have hB := lastPlace_le_abs hp
  have hs : (2 : ℚ) ^ (lastPlace q + 52) = ((2 ^ 52 : ℤ) : ℚ) * 2 ^ lastPlace q := by
    rw [zpow_add₀ (by norm_num), mul_comm]; norm_num
  have hr := abs_lt.1 h
  rcases le_or_gt 0 q with hq | hq
  · rw [abs_of_nonneg hq] at hB
    have := round_grid q (2 ^ 52)
    rw [← hs] at this
    refine lt_of_le_of_lt this ?_
    rw [abs_of_nonneg (by linarith), abs_of_nonneg (by linarith [hr.2])]
    linarith [hr.2]
  · rw [abs_of_neg hq] at hB
    have := round_grid q (-2 ^ 52)
    have e : ((-2 ^ 52 : ℤ) : ℚ) * 2 ^ lastPlace q = -2 ^ (lastPlace q + 52) := by rw [hs]; push_cast; ring
    rw [e] at this
    refine lt_of_le_of_lt this ?_
    rw [abs_of_nonpos (by linarith), abs_of_nonpos (by linarith [hr.1])]
    linarith [hr.1]

theorem round_closest (q : ℚ) {r : ℚ} (h : Representable r) : |q - roundUnbounded q| ≤ |q - r| := by
  rcases grid_or_small (q := q) h with ⟨k, rfl⟩ | ⟨h1, h2⟩
  · exact round_grid q k
  · exact (small_far h1 h2).le

theorem round_tie (q : ℚ) {r : ℚ} (h : Representable r) (hne : r ≠ roundUnbounded q) (ht : |q - r| = |q - roundUnbounded q|) :
    ∃ k : ℤ, roundUnbounded q = 2 * k * |roundUnbounded q - r| := by
  rcases grid_or_small (q := q) h with ⟨k, rfl⟩ | ⟨h1, h2⟩
  · have hu := two_pos' (lastPlace q)
    have e : ∀ n : ℤ, q - n * 2 ^ lastPlace q = (q / 2 ^ lastPlace q - n) * 2 ^ lastPlace q := by
      intro n
      rw [sub_mul, div_mul_cancel₀ _ hu.ne']
    unfold roundUnbounded at ht hne ⊢
    rw [e, e, abs_mul, abs_mul] at ht
    have ht' := mul_right_cancel₀ (abs_ne_zero.2 hu.ne') ht
    obtain ⟨h1, h2⟩ := nearest_tie (fun hk => hne (by rw [hk])) ht'
    obtain ⟨j, hj⟩ := Int.dvd_of_emod_eq_zero h2
    refine ⟨j, ?_⟩
    rw [← sub_mul, abs_mul, h1, abs_of_pos hu, one_mul, hj]
    push_cast
    ring
  · exact absurd ht (ne_of_gt (small_far h1 h2))

/-- Half way from the largest double to 2^1024. -/
def threshold : ℚ := (2 ^ 53 - 1 / 2) * 2 ^ (971 : ℤ)

theorem overflow_eq : overflow = 2 ^ 53 * (2 : ℚ) ^ (971 : ℤ) := by
  unfold overflow
  rw [← zpow_natCast, ← zpow_natCast, ← zpow_add₀ (by norm_num)]
  congr 1

theorem largest_representable : Representable ((2 ^ 53 - 1) * 2 ^ (971 : ℤ)) :=
  ⟨2 ^ 53 - 1, 971, by norm_num, by norm_num, by norm_num,
    by rw [show ((2 ^ 53 - 1 : ℤ) : ℚ) = 2 ^ 53 - 1 by norm_num]⟩

theorem lastPlace_large {q : ℚ} (h : (2 ^ 53 - 1) * 2 ^ (971 : ℤ) ≤ q) (h' : q < overflow) : lastPlace q = 971 := by
  have hu := two_pos' 971
  have hq : 0 < q := lt_of_lt_of_le (mul_pos (by norm_num) hu) h
  have e1 : (2 : ℚ) ^ (1023 : ℤ) = 2 ^ 52 * 2 ^ (971 : ℤ) := by
    rw [← zpow_natCast, ← zpow_add₀ (by norm_num)]
    congr 1
  have e2 : (2 : ℚ) ^ (1024 : ℤ) = overflow := by
    rw [overflow_eq, ← zpow_natCast, ← zpow_add₀ (by norm_num)]
    congr 1
  have hlo : (2 : ℚ) ^ (1023 : ℤ) ≤ q := by
    rw [e1]
    refine le_trans (mul_le_mul_of_nonneg_right (by norm_num) hu.le) h
  have h1 := abs_lt_lastPlace q
  rw [abs_of_pos hq] at h1
  have h2 : (1023 : ℤ) < lastPlace q + 53 := (zpow_lt_zpow_iff_right₀ (by norm_num : (1 : ℚ) < 2)).1 (lt_of_le_of_lt hlo h1)
  have h3 := lastPlace_le_abs (q := q) (by omega)
  rw [abs_of_pos hq] at h3
  rw [← e2] at h'
  have h4 : lastPlace q + 52 < (1024 : ℤ) := (zpow_lt_zpow_iff_right₀ (by norm_num : (1 : ℚ) < 2)).1 (lt_of_le_of_lt h3 h')
  omega

theorem round_overflow_iff (q : ℚ) : overflow ≤ roundUnbounded q ↔ threshold ≤ q := by
  have hu := two_pos' 971
  have hLT : (2 ^ 53 - 1) * (2 : ℚ) ^ (971 : ℤ) < threshold := mul_lt_mul_of_pos_right (by norm_num) hu
  have hTO : threshold < overflow := by
    rw [overflow_eq]; exact mul_lt_mul_of_pos_right (by norm_num) hu
  constructor
  · intro h
    by_contra hc
    push Not at hc
    have hmax : roundUnbounded q ≤ (2 ^ 53 - 1) * 2 ^ (971 : ℤ) := by
      rcases le_or_gt q ((2 ^ 53 - 1) * 2 ^ (971 : ℤ)) with hq | hq
      · have := roundUnbounded_mono hq
        rwa [roundUnbounded_representable largest_representable] at this
      · have hlp := lastPlace_large hq.le (hc.trans hTO)
        unfold roundUnbounded
        rw [hlp]
        refine mul_le_mul_of_nonneg_right ?_ hu.le
        have hx : q / 2 ^ (971 : ℤ) < 2 ^ 53 - 1 / 2 := by rw [div_lt_iff₀ hu]; exact hc
        have h1 := nearest_le_add (q / 2 ^ (971 : ℤ))
        have h2 : (nearest (q / 2 ^ (971 : ℤ)) : ℚ) < ((2 ^ 53 : ℤ) : ℚ) := by push_cast; linarith
        have h3 : nearest (q / 2 ^ (971 : ℤ)) < 2 ^ 53 := by exact_mod_cast h2
        have h4 : nearest (q / 2 ^ (971 : ℤ)) ≤ 2 ^ 53 - 1 := by omega
        exact_mod_cast h4
    exact absurd (le_trans h hmax) (not_le.2 (hLT.trans hTO))
  · intro h
    refine le_trans ?_ (roundUnbounded_mono h)
    have hlp := lastPlace_large hLT.le hTO
    unfold roundUnbounded
    rw [hlp, overflow_eq]
    have hx : threshold / 2 ^ (971 : ℤ) = 2 ^ 53 - 1 / 2 := by
      unfold threshold
      rw [mul_div_cancel_right₀ _ hu.ne']
    have hn : nearest (2 ^ 53 - 1 / 2) = 2 ^ 53 := by decide +kernel
    rw [hx, hn]
    refine mul_le_mul_of_nonneg_right ?_ hu.le
    norm_num

end Maliput.Dbl
