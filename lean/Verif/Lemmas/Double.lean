import Verif.Spec.Double
import Mathlib.Tactic.Linarith
import Mathlib.Tactic.NormNum
import Mathlib.Tactic.Positivity
import Mathlib.Tactic.FieldSimp
import Mathlib.Tactic.Ring
import Mathlib.Algebra.Order.Floor.Ring
import Mathlib.Algebra.Order.Group.Abs
import Mathlib.Tactic.GCongr

set_option autoImplicit false

/-! Rounding is monotone, keeps doubles and is accurate. -/
namespace Maliput.Dbl

open Spec

theorem nearest_le_add (x : ℚ) : (nearest x : ℚ) ≤ x + 1 / 2 := by
  have h0 := Int.floor_le x
  unfold nearest
  split_ifs with h1 h2 h3 <;> push_cast <;> linarith

theorem sub_le_nearest (x : ℚ) : x - 1 / 2 ≤ (nearest x : ℚ) := by
  have h0 := Int.floor_le x
  have h1 := Int.lt_floor_add_one x
  unfold nearest
  split_ifs with h1 h2 h3 <;> push_cast <;> linarith

theorem nearest_int (n : ℤ) : nearest n = n := by
  unfold nearest
  rw [Int.floor_intCast, sub_self, if_pos (by norm_num)]

theorem nearest_mono {x y : ℚ} (h : x ≤ y) : nearest x ≤ nearest y := by
  rcases eq_or_lt_of_le (Int.floor_le_floor h) with hf | hf
  · unfold nearest
    rw [← hf]
    split_ifs <;> first | omega | (exfalso; linarith)
  · have h1 : nearest x ≤ ⌊x⌋ + 1 := by
      unfold nearest
      split_ifs <;> omega
    have h2 : ⌊y⌋ ≤ nearest y := by
      unfold nearest
      split_ifs <;> omega
    omega

theorem nearest_le {x : ℚ} {n : ℤ} (h : x ≤ n) : nearest x ≤ n := by
  have := nearest_mono h
  rwa [nearest_int] at this

theorem le_nearest {x : ℚ} {n : ℤ} (h : (n : ℚ) ≤ x) : n ≤ nearest x := by
  have := nearest_mono h
  rwa [nearest_int] at this

private theorem two_pos (e : ℤ) : (0 : ℚ) < 2 ^ e := zpow_pos (by norm_num) e

theorem lastPlace_of_ne {q : ℚ} (h : q ≠ 0) : lastPlace q = max (Int.log 2 |q| - 52) (-1074) := if_neg h

theorem abs_lt_lastPlace (q : ℚ) : |q| < 2 ^ (lastPlace q + 53) := by
  rcases eq_or_ne q 0 with rfl | hq
  · rw [abs_zero]; exact two_pos _
  have h := Int.lt_zpow_succ_log_self (b := 2) (by norm_num) |q|
  refine lt_of_lt_of_le h ?_
  push_cast
  exact zpow_le_zpow_right₀ (by norm_num) (by rw [lastPlace_of_ne hq]; omega)

theorem lastPlace_le_abs {q : ℚ} (h : -1074 < lastPlace q) : (2 : ℚ) ^ (lastPlace q + 52) ≤ |q| := by
  have hq : 0 < |q| := by
    rw [abs_pos]
    rintro rfl
    simp [lastPlace] at h
  have h1 : lastPlace q = Int.log 2 |q| - 52 := by rw [lastPlace_of_ne (abs_pos.mp hq)] at h ⊢; omega
  have h2 := Int.zpow_log_le_self (b := 2) (by norm_num) hq
  rw [h1, sub_add_cancel]
  exact_mod_cast h2

theorem lastPlace_ge (q : ℚ) : -1074 ≤ lastPlace q := by
  unfold lastPlace
  split_ifs
  · exact le_refl _
  · exact le_max_right _ _

theorem lastPlace_mono {q q' : ℚ} (h : |q| ≤ |q'|) : lastPlace q ≤ lastPlace q' := by
  rcases eq_or_ne q 0 with rfl | hq
  · refine le_trans ?_ (lastPlace_ge q')
    simp [lastPlace]
  · have hq' : q' ≠ 0 := abs_pos.mp (lt_of_lt_of_le (abs_pos.mpr hq) h)
    have := Int.log_mono_right (b := 2) (abs_pos.mpr hq) h
    rw [lastPlace_of_ne hq, lastPlace_of_ne hq']
    omega

theorem roundUnbounded_le_of {q : ℚ} {n : ℤ} (h : q ≤ n * 2 ^ lastPlace q) : roundUnbounded q ≤ n * 2 ^ lastPlace q := by
  have : nearest (q / 2 ^ lastPlace q) ≤ n := nearest_le ((div_le_iff₀ (two_pos _)).mpr h)
  unfold roundUnbounded
  have h' : (nearest (q / 2 ^ lastPlace q) : ℚ) ≤ n := by exact_mod_cast this
  exact mul_le_mul_of_nonneg_right h' (two_pos _).le

theorem le_roundUnbounded_of {q : ℚ} {n : ℤ} (h : n * 2 ^ lastPlace q ≤ q) : n * 2 ^ lastPlace q ≤ roundUnbounded q := by
  have : n ≤ nearest (q / 2 ^ lastPlace q) := le_nearest ((le_div_iff₀ (two_pos _)).mpr h)
  unfold roundUnbounded
  have h' : (n : ℚ) ≤ nearest (q / 2 ^ lastPlace q) := by exact_mod_cast this
  exact mul_le_mul_of_nonneg_right h' (two_pos _).le

private theorem pow_split (e : ℤ) (k : ℕ) : (2 : ℚ) ^ (e + k) = ((2 ^ k : ℤ) : ℚ) * 2 ^ e := by
  rw [zpow_add₀ (by norm_num), mul_comm]
  push_cast
  rw [zpow_natCast]

theorem roundUnbounded_abs_le (q : ℚ) :
    -2 ^ (lastPlace q + 53) ≤ roundUnbounded q ∧ roundUnbounded q ≤ 2 ^ (lastPlace q + 53) := by
  have h := abs_le.mp (abs_lt_lastPlace q).le
  have hs : (2 : ℚ) ^ (lastPlace q + 53) = ((2 ^ 53 : ℤ) : ℚ) * 2 ^ lastPlace q := pow_split _ 53
  rw [hs] at h ⊢
  refine ⟨?_, roundUnbounded_le_of h.2⟩
  have := le_roundUnbounded_of (q := q) (n := -2 ^ 53) (by push_cast at h ⊢; linarith [h.1])
  push_cast at this ⊢
  linarith

theorem roundUnbounded_nonneg {q : ℚ} (h : 0 ≤ q) : 0 ≤ roundUnbounded q := by
  have := le_roundUnbounded_of (q := q) (n := 0) (by simpa using h)
  simpa using this

theorem roundUnbounded_nonpos {q : ℚ} (h : q ≤ 0) : roundUnbounded q ≤ 0 := by
  have := roundUnbounded_le_of (q := q) (n := 0) (by simpa using h)
  simpa using this

theorem roundUnbounded_mono {q q' : ℚ} (h : q ≤ q') : roundUnbounded q ≤ roundUnbounded q' := by
  have hsame : lastPlace q = lastPlace q' → roundUnbounded q ≤ roundUnbounded q' := by
    intro he
    unfold roundUnbounded
    rw [he]
    have : nearest (q / 2 ^ lastPlace q') ≤ nearest (q' / 2 ^ lastPlace q') :=
      nearest_mono (div_le_div_of_nonneg_right h (two_pos _).le)
    have h' : (nearest (q / 2 ^ lastPlace q') : ℚ) ≤ nearest (q' / 2 ^ lastPlace q') := by exact_mod_cast this
    exact mul_le_mul_of_nonneg_right h' (two_pos _).le
  rcases le_total 0 q with h0 | h0
  · have h0' := h0.trans h
    have hl : lastPlace q ≤ lastPlace q' := lastPlace_mono (by rwa [abs_of_nonneg h0, abs_of_nonneg h0'])
    rcases eq_or_lt_of_le hl with he | hlt
    · exact hsame he
    · have h1 := (roundUnbounded_abs_le q).2
      have h2 := lastPlace_le_abs (q := q') (lt_of_le_of_lt (lastPlace_ge q) hlt)
      rw [abs_of_nonneg h0'] at h2
      have hs : (2 : ℚ) ^ (lastPlace q' + 52) = ((2 ^ 52 : ℤ) : ℚ) * 2 ^ lastPlace q' := pow_split _ 52
      have h3 := le_roundUnbounded_of (q := q') (n := 2 ^ 52) (by rw [← hs]; exact h2)
      rw [← hs] at h3
      exact h1.trans ((zpow_le_zpow_right₀ (by norm_num) (by omega)).trans h3)
  · rcases le_total 0 q' with h0' | h0'
    · exact (roundUnbounded_nonpos h0).trans (roundUnbounded_nonneg h0')
    · have hl : lastPlace q' ≤ lastPlace q :=
        lastPlace_mono (by rw [abs_of_nonpos h0, abs_of_nonpos h0']; linarith)
      rcases eq_or_lt_of_le hl with he | hlt
      · exact hsame he.symm
      · have h1 := (roundUnbounded_abs_le q').1
        have h2 := lastPlace_le_abs (q := q) (lt_of_le_of_lt (lastPlace_ge q') hlt)
        rw [abs_of_nonpos h0] at h2
        have hs : (2 : ℚ) ^ (lastPlace q + 52) = ((2 ^ 52 : ℤ) : ℚ) * 2 ^ lastPlace q := pow_split _ 52
        have h3 := roundUnbounded_le_of (q := q) (n := -2 ^ 52) (by rw [hs] at h2; push_cast at h2 ⊢; linarith)
        have h4 : roundUnbounded q ≤ -2 ^ (lastPlace q + 52) := by rw [hs]; push_cast at h3 ⊢; linarith
        have h5 : (2 : ℚ) ^ (lastPlace q' + 53) ≤ 2 ^ (lastPlace q + 52) := zpow_le_zpow_right₀ (by norm_num) (by omega)
        linarith

theorem roundUnbounded_representable {q : ℚ} (h : Representable q) : roundUnbounded q = q := by
  obtain ⟨m, k, hm, hk, hk', rfl⟩ := h
  rcases eq_or_ne m 0 with rfl | hm0
  · simp [roundUnbounded, nearest_int 0 |> fun h => (by simpa using h : nearest (0 : ℚ) = 0)]
  · set q : ℚ := m * 2 ^ k with hq
    have hqpos : 0 < |q| := by
      rw [abs_pos, hq]
      exact mul_ne_zero (by exact_mod_cast hm0) (two_pos k).ne'
    have hlt : |q| < 2 ^ (k + 53) := by
      have hs : (2 : ℚ) ^ (k + 53) = ((2 ^ 53 : ℤ) : ℚ) * 2 ^ k := pow_split _ 53
      rw [hs, hq, abs_mul, abs_of_pos (two_pos k)]
      refine mul_lt_mul_of_pos_right ?_ (two_pos k)
      exact_mod_cast hm
    have hlog : Int.log 2 |q| < k + 53 := by
      by_contra hc
      push Not at hc
      have h1 := Int.zpow_log_le_self (b := 2) (by norm_num) hqpos
      have h2 : (2 : ℚ) ^ (k + 53) ≤ 2 ^ Int.log 2 |q| := zpow_le_zpow_right₀ (by norm_num) hc
      push_cast at h1
      linarith
    have hle : lastPlace q ≤ k := by rw [lastPlace_of_ne (abs_pos.mp hqpos)]; omega
    obtain ⟨d, hd⟩ := Int.eq_ofNat_of_zero_le (sub_nonneg.mpr hle)
    have hdiv : q / 2 ^ lastPlace q = ((m * 2 ^ d : ℤ) : ℚ) := by
      rw [div_eq_iff (two_pos _).ne', hq]
      have : k = lastPlace q + d := by omega
      push_cast
      conv_lhs => rw [this, zpow_add₀ (by norm_num)]
      rw [zpow_natCast]
      ring
    unfold roundUnbounded
    rw [hdiv, nearest_int, ← hdiv, div_mul_cancel₀ _ (two_pos _).ne']

theorem representable_lt {q : ℚ} (h : Representable q) : -overflow < q ∧ q < overflow := by
  obtain ⟨m, k, hm, hk, hk', rfl⟩ := h
  have h1 : |(m : ℚ) * 2 ^ k| < overflow := by
    rw [abs_mul, abs_of_pos (two_pos k)]
    have h2 : |(m : ℚ)| < ((2 ^ 53 : ℤ) : ℚ) := by exact_mod_cast hm
    have h3 : |(m : ℚ)| * 2 ^ k < ((2 ^ 53 : ℤ) : ℚ) * 2 ^ k := mul_lt_mul_of_pos_right h2 (two_pos k)
    have hs : (2 : ℚ) ^ (k + 53) = ((2 ^ 53 : ℤ) : ℚ) * 2 ^ k := pow_split _ 53
    rw [← hs] at h3
    refine lt_of_lt_of_le h3 ?_
    unfold overflow
    rw [← zpow_natCast]
    exact zpow_le_zpow_right₀ (by norm_num) (by push_cast; omega)
  exact abs_lt.mp h1

/-- Doubles are kept. -/
theorem toDouble_representable {q : ℚ} (h : Representable q) : toDouble q = .fin q := by
  have hb := representable_lt h
  unfold toDouble
  rw [roundUnbounded_representable h, if_neg (not_le.mpr hb.2), if_neg (not_le.mpr hb.1)]

theorem roundUnbounded_error (q : ℚ) : |roundUnbounded q - q| ≤ slack q := by
  have hp := two_pos (lastPlace q)
  have h1 := nearest_le_add (q / 2 ^ lastPlace q)
  have h2 := sub_le_nearest (q / 2 ^ lastPlace q)
  have hq : q = q / 2 ^ lastPlace q * 2 ^ lastPlace q := (div_mul_cancel₀ _ hp.ne').symm
  have h3 : |roundUnbounded q - q| ≤ 1 / 2 * 2 ^ lastPlace q := by
    have : roundUnbounded q - q = (nearest (q / 2 ^ lastPlace q) - q / 2 ^ lastPlace q) * 2 ^ lastPlace q := by
      unfold roundUnbounded
      rw [sub_mul, ← hq]
    rw [this, abs_mul, abs_of_pos hp]
    refine mul_le_mul_of_nonneg_right ?_ hp.le
    rw [abs_le]
    constructor <;> linarith
  refine h3.trans ?_
  unfold slack
  rcases eq_or_lt_of_le (lastPlace_ge q) with he | hlt
  · refine le_trans (le_of_eq ?_) (le_max_right _ _)
    rw [← he, show (-1074 : ℤ) = -((1074 : ℕ) : ℤ) from rfl, zpow_neg, zpow_natCast, pow_succ (2 : ℚ) 1074]
    field_simp
  · refine le_trans ?_ (le_max_left _ _)
    have h4 := lastPlace_le_abs hlt
    have hs : (2 : ℚ) ^ (lastPlace q + 52) = ((2 ^ 52 : ℤ) : ℚ) * 2 ^ lastPlace q := pow_split _ 52
    rw [hs] at h4
    rw [le_div_iff₀ (by norm_num)]
    push_cast at h4
    linarith

/-- Results are doubles. -/
theorem toDouble_isDouble (q : ℚ) : IsDouble (toDouble q) := by
  by_cases h1 : overflow ≤ roundUnbounded q
  · rw [toDouble, if_pos h1]; exact True.intro
  by_cases h2 : roundUnbounded q ≤ -overflow
  · rw [toDouble, if_neg h1, if_pos h2]; exact True.intro
  · rw [toDouble, if_neg h1, if_neg h2]
    rw [not_le] at h1 h2
    change Representable (roundUnbounded q)
    set e := lastPlace q with he
    set M := nearest (q / 2 ^ e) with hM
    have hr : roundUnbounded q = M * 2 ^ e := rfl
    have hb := roundUnbounded_abs_le q
    have hs : (2 : ℚ) ^ (e + 53) = ((2 ^ 53 : ℤ) : ℚ) * 2 ^ e := pow_split _ 53
    rw [← he, hs, hr] at hb
    have hM1 : M ≤ 2 ^ 53 := by
      have := le_of_mul_le_mul_right hb.2 (two_pos e)
      exact_mod_cast this
    have hM2 : -2 ^ 53 ≤ M := by
      have : (-((2 ^ 53 : ℤ) : ℚ)) * 2 ^ e ≤ M * 2 ^ e := by linarith [hb.1]
      have := le_of_mul_le_mul_right this (two_pos e)
      exact_mod_cast this
    have hge := lastPlace_ge q
    rw [← he] at hge
    -- the size bounds the exponent
    have hsize : ∀ n : ℤ, 2 ^ 52 ≤ |n| → ∀ k : ℤ, roundUnbounded q = n * 2 ^ k → k ≤ 971 := by
      intro n hn k hk
      by_contra hc
      push Not at hc
      have h3 : |roundUnbounded q| < overflow := abs_lt.mpr ⟨h2, h1⟩
      rw [hk, abs_mul, abs_of_pos (two_pos k)] at h3
      have h4 : ((2 ^ 52 : ℤ) : ℚ) ≤ |(n : ℚ)| := by exact_mod_cast hn
      have h5 : (2 : ℚ) ^ (k + 52) = ((2 ^ 52 : ℤ) : ℚ) * 2 ^ k := pow_split _ 52
      have h6 : (2 : ℚ) ^ (k + 52) ≤ |(n : ℚ)| * 2 ^ k := by
        rw [h5]; exact mul_le_mul_of_nonneg_right h4 (two_pos k).le
      have h7 : overflow ≤ 2 ^ (k + 52) := by
        unfold overflow
        rw [← zpow_natCast]
        exact zpow_le_zpow_right₀ (by norm_num) (by push_cast; omega)
      linarith
    have hbig : -1074 < e → 2 ^ 52 ≤ |M| := by
      intro hlt
      have h4 := lastPlace_le_abs (q := q) (by rw [← he]; exact hlt)
      have h5 : (2 : ℚ) ^ (e + 52) = ((2 ^ 52 : ℤ) : ℚ) * 2 ^ e := pow_split _ 52
      rw [← he, h5] at h4
      rcases le_total 0 q with h0 | h0
      · rw [abs_of_nonneg h0] at h4
        have : (2 ^ 52 : ℤ) ≤ M := le_nearest ((le_div_iff₀ (two_pos _)).mpr h4)
        exact this.trans (le_abs_self M)
      · rw [abs_of_nonpos h0] at h4
        have : M ≤ (-2 ^ 52 : ℤ) := nearest_le ((div_le_iff₀ (two_pos _)).mpr (by push_cast at h4 ⊢; linarith))
        exact le_trans (by omega) (neg_le_abs M)
    by_cases hfull : |M| = 2 ^ 53
    · refine ⟨M / 2, e + 1, ?_, by omega, ?_, ?_⟩
      · rcases abs_eq (a := M) (b := 2 ^ 53) (by norm_num) |>.mp hfull with h | h <;> rw [h] <;> norm_num
      · refine hsize (M / 2) ?_ (e + 1) ?_
        · rcases abs_eq (a := M) (b := 2 ^ 53) (by norm_num) |>.mp hfull with h | h <;> rw [h] <;> norm_num
        · rw [hr, zpow_add₀ (by norm_num), zpow_one]
          rcases abs_eq (a := M) (b := 2 ^ 53) (by norm_num) |>.mp hfull with h | h <;> rw [h] <;> push_cast <;> norm_num <;> ring
      · rw [hr, zpow_add₀ (by norm_num), zpow_one]
        rcases abs_eq (a := M) (b := 2 ^ 53) (by norm_num) |>.mp hfull with h | h <;> rw [h] <;> push_cast <;> norm_num <;> ring
    · refine ⟨M, e, lt_of_le_of_ne (abs_le.mpr ⟨hM2, hM1⟩) hfull, hge, ?_, hr⟩
      rcases eq_or_lt_of_le hge with h | h
      · omega
      · exact hsize M (hbig h) e hr

end Maliput.Dbl
