import Verif.Lemmas.PeriodicEvents
import Verif.Lemmas.DoubleOrder

set_option autoImplicit false

namespace Maliput.Periodic
open Spec Maliput.Dbl Maliput.Dbl.Spec

theorem rep_grid {k e : ℤ} (h0 : 0 ≤ k) (h : k < 2 ^ 53) (he : -1074 ≤ e) (he' : e ≤ 971) : Representable ((k : ℚ) * 2 ^ e) :=
  ⟨k, e, by rwa [abs_of_nonneg h0], he, he', rfl⟩

theorem rep_int {k : ℤ} (h0 : 0 ≤ k) (h : k < 2 ^ 53) : Representable (k : ℚ) := by
  have := rep_grid h0 h (e := 0) (by norm_num) (by norm_num)
  simpa using this

theorem toDouble_between {q : ℚ} {x : ℚ} (h0 : 0 ≤ q) (hq : q ≤ x) (hx : Representable x) : toDouble q = .fin (roundUnbounded q) := by
  have h1 : roundUnbounded q ≤ x := by
    rw [← roundUnbounded_representable hx]; exact roundUnbounded_mono hq
  have h2 := (representable_lt hx).2
  have h3 := roundUnbounded_nonneg h0
  have h4 : (0 : ℚ) < overflow := by unfold overflow; positivity
  unfold toDouble
  rw [if_neg (by linarith), if_neg (by linarith)]

theorem ceil_quotient {a n : ℤ} (ha : 0 ≤ a) (hn : 0 < n) (hb : a + n < 2 ^ 53) :
    ceil (toDouble ((a : ℚ) / n)) = .fin (⌈(a : ℚ) / n⌉ : ℤ) := by
  have hnq : (0 : ℚ) < n := by exact_mod_cast hn
  have hn1 : (1 : ℚ) ≤ n := by exact_mod_cast hn
  have haq : (0 : ℚ) ≤ a := by exact_mod_cast ha
  have hab : (a : ℚ) + n < 2 ^ 53 := by exact_mod_cast hb
  have hq0 : (0 : ℚ) ≤ (a : ℚ) / n := by positivity
  have hqa : (a : ℚ) / n ≤ a := div_le_self haq hn1
  have hKq : ((⌈(a : ℚ) / n⌉ : ℤ) : ℚ) ≤ a := by
    have : ⌈(a : ℚ) / n⌉ ≤ a := Int.ceil_le.2 hqa
    exact_mod_cast this
  have hK0 : 0 ≤ ⌈(a : ℚ) / n⌉ := Int.ceil_nonneg hq0
  have hKb : ⌈(a : ℚ) / n⌉ < 2 ^ 53 := by
    have : ⌈(a : ℚ) / n⌉ ≤ a := Int.ceil_le.2 hqa
    omega
  have hrep := rep_int hK0 hKb
  have hle := Int.le_ceil ((a : ℚ) / n)
  rw [toDouble_between hq0 hle hrep]
  have hup : roundUnbounded ((a : ℚ) / n) ≤ (⌈(a : ℚ) / n⌉ : ℤ) := by
    rw [← roundUnbounded_representable hrep]; exact roundUnbounded_mono hle
  have herr := roundUnbounded_error ((a : ℚ) / n)
  -- the distance to the integer below is a multiple of 1 / n
  have hgap : ((⌈(a : ℚ) / n⌉ : ℤ) : ℚ) - 1 + 1 / n ≤ (a : ℚ) / n := by
    have hlt : ((⌈(a : ℚ) / n⌉ : ℤ) : ℚ) - 1 < (a : ℚ) / n := by linarith [Int.ceil_lt_add_one ((a : ℚ) / n)]
    rw [lt_div_iff₀ hnq] at hlt
    have : (⌈(a : ℚ) / n⌉ - 1) * n < a := by exact_mod_cast hlt
    have : (⌈(a : ℚ) / n⌉ - 1) * n + 1 ≤ a := by omega
    have : (((⌈(a : ℚ) / n⌉ : ℤ) : ℚ) - 1) * n + 1 ≤ a := by exact_mod_cast this
    rw [le_div_iff₀ hnq, add_mul, div_mul_cancel₀ _ hnq.ne']
    exact this
  have hslack : slack ((a : ℚ) / n) < 1 / n := by
    unfold slack
    rw [abs_of_nonneg hq0, max_lt_iff]
    constructor
    · rw [div_lt_iff₀ (by positivity), one_div, ← div_eq_inv_mul]
      exact div_lt_div_of_pos_right (by linarith) hnq
    · apply one_div_lt_one_div_of_lt hnq
      have h1 : (2 : ℚ) ^ 53 < 2 ^ 1075 := pow_lt_pow_right₀ (by norm_num) (by norm_num)
      exact lt_trans (by linarith) h1
  rw [abs_le] at herr
  have hlow : ((⌈(a : ℚ) / n⌉ : ℤ) : ℚ) - 1 < roundUnbounded ((a : ℚ) / n) := by linarith [herr.1]
  have : ⌈roundUnbounded ((a : ℚ) / n)⌉ = ⌈(a : ℚ) / n⌉ := by
    rw [Int.ceil_eq_iff]
    exact ⟨hlow, hup⟩
  show Double.fin (⌈roundUnbounded ((a : ℚ) / n)⌉ : ℤ) = _
  rw [this]

theorem next_double {j m n e : ℤ} (hm : 0 ≤ m) (hj : 0 ≤ j) (hn : 0 < n) (hjn : j + n < 2 ^ 53)
    (he : -1074 ≤ e) (he' : e ≤ 971) {t : ℚ}
    (ht : getNextSampleTime ⟨(n : ℚ) * 2 ^ e, (m : ℚ) * 2 ^ e⟩ ((j : ℚ) * 2 ^ e) = .ok t) :
    getNextSampleTimeDouble ((n : ℚ) * 2 ^ e) ((m : ℚ) * 2 ^ e) ((j : ℚ) * 2 ^ e) = .fin t := by
  have hu : (0 : ℚ) < (2 : ℚ) ^ e := zpow_pos (by norm_num) e
  have hnq : (0 : ℚ) < n := by exact_mod_cast hn
  have hp : (0 : ℚ) < (n : ℚ) * 2 ^ e := mul_pos hnq hu
  have ho : (0 : ℚ) ≤ (m : ℚ) * 2 ^ e := mul_nonneg (by exact_mod_cast hm) hu.le
  unfold getNextSampleTime at ht
  rw [if_pos hp, if_pos ho] at ht
  unfold getNextSampleTimeDouble
  by_cases hlt : (j : ℚ) * 2 ^ e < (m : ℚ) * 2 ^ e
  · rw [if_pos hlt] at ht ⊢
    cases ht; rfl
  · rw [if_neg hlt] at ht ⊢
    have hmj : m ≤ j := by
      have : (m : ℚ) ≤ j := le_of_mul_le_mul_right (not_lt.1 hlt) hu
      exact_mod_cast this
    have hsub : (j : ℚ) * 2 ^ e - (m : ℚ) * 2 ^ e = ((j - m : ℤ) : ℚ) * 2 ^ e := by push_cast; ring
    have hquot : ((j - m : ℤ) : ℚ) * 2 ^ e / ((n : ℚ) * 2 ^ e) = ((j - m : ℤ) : ℚ) / n := by
      rw [mul_div_mul_right _ _ hu.ne']
    have hK0 : 0 ≤ ⌈((j - m : ℤ) : ℚ) / n⌉ :=
      Int.ceil_nonneg (div_nonneg (by exact_mod_cast (by omega : 0 ≤ j - m)) hnq.le)
    have hKn : ⌈((j - m : ℤ) : ℚ) / n⌉ * n < (j - m) + n := by
      have h := Int.ceil_lt_add_one (((j - m : ℤ) : ℚ) / n)
      have h2 : ((⌈((j - m : ℤ) : ℚ) / n⌉ : ℚ) - 1) * n < ((j - m : ℤ) : ℚ) := by
        rw [← lt_div_iff₀ hnq]; linarith
      have h3 : (⌈((j - m : ℤ) : ℚ) / n⌉ - 1) * n < j - m := by exact_mod_cast h2
      nlinarith
    dsimp only at ht ⊢
    rw [hsub, hquot] at ht
    rw [sub_fin, hsub, toDouble_representable (rep_grid (by omega) (by omega) he he')]
    have hc : ceil (divBy (.fin (((j - m : ℤ) : ℚ) * 2 ^ e)) ((n : ℚ) * 2 ^ e)) = .fin (⌈((j - m : ℤ) : ℚ) / n⌉ : ℤ) := by
      rw [← ceil_quotient (a := j - m) (n := n) (by omega) hn (by omega), divBy, hquot]
    rw [hc]
    clear hc
    generalize ⌈((j - m : ℤ) : ℚ) / n⌉ = K at *
    have hKn0 : 0 ≤ K * n := mul_nonneg hK0 hn.le
    have hmul : (K : ℚ) * ((n : ℚ) * 2 ^ e) = ((K * n : ℤ) : ℚ) * 2 ^ e := by push_cast; ring
    have hadd : (m : ℚ) * 2 ^ e + ((K * n : ℤ) : ℚ) * 2 ^ e = ((m + K * n : ℤ) : ℚ) * 2 ^ e := by push_cast; ring
    have h1 : mul (.fin (K : ℚ)) (.fin ((n : ℚ) * 2 ^ e)) = .fin (((K * n : ℤ) : ℚ) * 2 ^ e) := by
      show toDouble _ = _
      rw [hmul, toDouble_representable (rep_grid hKn0 (by omega) he he')]
    have h2 : add (.fin ((m : ℚ) * 2 ^ e)) (.fin (((K * n : ℤ) : ℚ) * 2 ^ e)) = .fin (((m + K * n : ℤ) : ℚ) * 2 ^ e) := by
      rw [add_fin, hadd, toDouble_representable (rep_grid (by omega) (by omega) he he')]
    rw [h1, h2]
    rw [hmul, hadd] at ht
    by_cases hle : ((m + K * n : ℤ) : ℚ) * 2 ^ e ≤ (j : ℚ) * 2 ^ e
    · have hlej : m + K * n ≤ j := by
        have := le_of_mul_le_mul_right hle hu
        exact_mod_cast this
      have hKj : K ≤ K * n := by nlinarith
      have hK1 : add (.fin (K : ℚ)) 1 = .fin ((K + 1 : ℤ) : ℚ) := by
        have h1' : (1 : Double) = .fin 1 := by
          show Double.fin ((1 : ℕ) : ℚ) = _
          simp
        rw [h1', add_fin]
        have : (K : ℚ) + 1 = ((K + 1 : ℤ) : ℚ) := by push_cast; ring
        rw [this, toDouble_representable (rep_int (by omega) (by omega))]
      have hn2 : (K + 1) * n = K * n + n := by ring
      have hmul1 : mul (.fin ((K + 1 : ℤ) : ℚ)) (.fin ((n : ℚ) * 2 ^ e)) = .fin ((((K + 1) * n : ℤ) : ℚ) * 2 ^ e) := by
        show toDouble _ = _
        rw [show ((K + 1 : ℤ) : ℚ) * ((n : ℚ) * 2 ^ e) = (((K + 1) * n : ℤ) : ℚ) * 2 ^ e by push_cast; ring,
          toDouble_representable (rep_grid (by omega) (by omega) he he')]
      have hadd1 : add (.fin ((m : ℚ) * 2 ^ e)) (.fin ((((K + 1) * n : ℤ) : ℚ) * 2 ^ e)) =
          .fin ((m : ℚ) * 2 ^ e + ((K : ℚ) + 1) * ((n : ℚ) * 2 ^ e)) := by
        rw [add_fin, show (m : ℚ) * 2 ^ e + (((K + 1) * n : ℤ) : ℚ) * 2 ^ e = ((m + (K + 1) * n : ℤ) : ℚ) * 2 ^ e by push_cast; ring,
          toDouble_representable (rep_grid (by omega) (by omega) he he')]
        congr 1
        push_cast; ring
      rw [if_pos (show le (.fin (((m + K * n : ℤ) : ℚ) * 2 ^ e)) (.fin ((j : ℚ) * 2 ^ e)) = true from decide_eq_true hle), hK1, hmul1, hadd1]
      rw [if_pos hle] at ht
      split at ht
      · cases ht; rfl
      · cases ht
    · rw [if_neg (show ¬ le (.fin (((m + K * n : ℤ) : ℚ) * 2 ^ e)) (.fin ((j : ℚ) * 2 ^ e)) = true from
        fun h => hle (of_decide_eq_true h))]
      rw [if_neg hle] at ht
      split at ht
      · cases ht; rfl
      · cases ht

end Maliput.Periodic
