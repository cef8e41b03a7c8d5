import Verif.Lemmas.Double

set_option autoImplicit false

/-! Comparisons of doubles. -/
namespace Maliput.Dbl

open Spec

theorem le_iff (a b : Double) : le a b = true ↔ Le a b := by
  cases a <;> cases b <;> simp [le, Le]

theorem lt_iff (a b : Double) : lt a b = true ↔ IsNumber a ∧ IsNumber b ∧ ¬ Le b a := by
  cases a <;> cases b <;> simp [lt, Le, IsNumber]

theorem Spec.Le.numbers {a b : Double} (h : Le a b) : IsNumber a ∧ IsNumber b := by
  cases a <;> cases b <;> simp_all [Le, IsNumber]

theorem le_refl_of {a : Double} (h : IsNumber a) : Le a a := by
  cases a <;> simp_all [Le, IsNumber]

theorem Spec.Le.trans {a b c : Double} (h : Le a b) (h' : Le b c) : Le a c := by
  cases a <;> cases b <;> cases c <;> simp_all [Le]
  exact _root_.le_trans h h'

theorem Spec.Le.total {a b : Double} (ha : IsNumber a) (hb : IsNumber b) : Le a b ∨ Le b a := by
  cases a <;> cases b <;> simp_all [Le, IsNumber]
  exact _root_.le_total _ _

@[simp] theorem le_fin (a b : ℚ) : Le (.fin a) (.fin b) ↔ a ≤ b := by simp [Le]

theorem zero_def : (0 : Double) = .fin 0 := by
  show Double.fin ((0 : ℕ) : ℚ) = .fin 0
  simp

/-- A double that is not above a number is not above the rounded number. -/
theorem le_toDouble {x q : ℚ} (hx : Representable x) (h : x ≤ q) : Le (.fin x) (toDouble q) := by
  have hm := roundUnbounded_mono h
  rw [roundUnbounded_representable hx] at hm
  unfold toDouble
  by_cases h1 : overflow ≤ roundUnbounded q
  · rw [if_pos h1]; simp [Le]
  rw [if_neg h1]
  by_cases h2 : roundUnbounded q ≤ -overflow
  · exact absurd (lt_of_lt_of_le (representable_lt hx).1 hm) (not_lt.mpr h2)
  rw [if_neg h2, le_fin]
  exact hm

theorem toDouble_le {x q : ℚ} (hx : Representable x) (h : q ≤ x) : Le (toDouble q) (.fin x) := by
  have hm := roundUnbounded_mono h
  rw [roundUnbounded_representable hx] at hm
  unfold toDouble
  by_cases h1 : overflow ≤ roundUnbounded q
  · exact absurd (lt_of_le_of_lt hm (representable_lt hx).2) (not_lt.mpr h1)
  rw [if_neg h1]
  by_cases h2 : roundUnbounded q ≤ -overflow
  · rw [if_pos h2]; simp [Le]
  rw [if_neg h2, le_fin]
  exact hm

theorem le_of_le_toDouble {x q : ℚ} (hx : Representable x) (h : Le (.fin x) (toDouble q)) : x ≤ q + slack q := by
  have he := abs_le.mp (roundUnbounded_error q)
  unfold toDouble at h
  by_cases h1 : overflow ≤ roundUnbounded q
  · linarith [(representable_lt hx).2]
  rw [if_neg h1] at h
  by_cases h2 : roundUnbounded q ≤ -overflow
  · rw [if_pos h2] at h; simp [Le] at h
  rw [if_neg h2, le_fin] at h
  linarith

theorem le_of_toDouble_le {x q : ℚ} (hx : Representable x) (h : Le (toDouble q) (.fin x)) : q - slack q ≤ x := by
  have he := abs_le.mp (roundUnbounded_error q)
  unfold toDouble at h
  by_cases h1 : overflow ≤ roundUnbounded q
  · rw [if_pos h1] at h; simp [Le] at h
  rw [if_neg h1] at h
  by_cases h2 : roundUnbounded q ≤ -overflow
  · linarith [(representable_lt hx).1]
  rw [if_neg h2, le_fin] at h
  linarith

theorem toDouble_isNumber (q : ℚ) : IsNumber (toDouble q) := by
  unfold toDouble
  by_cases h1 : overflow ≤ roundUnbounded q
  · rw [if_pos h1]; simp [IsNumber]
  rw [if_neg h1]
  by_cases h2 : roundUnbounded q ≤ -overflow
  · rw [if_pos h2]; simp [IsNumber]
  rw [if_neg h2]; simp [IsNumber]

theorem representable_zero : Representable 0 := ⟨0, 0, by norm_num, by norm_num, by norm_num, by simp⟩

theorem Spec.Representable.neg {q : ℚ} (h : Representable q) : Representable (-q) := by
  obtain ⟨m, e, h1, h2, h3, rfl⟩ := h
  exact ⟨-m, e, by rwa [abs_neg], h2, h3, by push_cast; ring⟩

theorem sub_fin (a b : ℚ) : sub (.fin a) (.fin b) = toDouble (a - b) := by simp [sub, Dbl.neg, add, sub_eq_add_neg]
theorem add_fin (a b : ℚ) : add (.fin a) (.fin b) = toDouble (a + b) := rfl

theorem slack_nonneg (q : ℚ) : 0 ≤ slack q := le_trans (by positivity) (le_max_left _ _)

theorem stdMin_fin (a b : ℚ) : stdMin (.fin a) (.fin b) = .fin (min a b) := by
  unfold stdMin
  by_cases h : b < a
  · simp [lt, h, min_eq_right h.le]
  · simp [lt, h, min_eq_left (not_lt.mp h)]

theorem stdMax_fin (a b : ℚ) : stdMax (.fin a) (.fin b) = .fin (max a b) := by
  unfold stdMax
  by_cases h : a < b
  · simp [lt, h, max_eq_right h.le]
  · simp [lt, h, max_eq_left (not_lt.mp h)]

theorem Spec.Representable.min {a b : ℚ} (ha : Representable a) (hb : Representable b) : Representable (min a b) := by
  rcases min_choice a b with h | h <;> rw [h] <;> assumption
theorem Spec.Representable.max {a b : ℚ} (ha : Representable a) (hb : Representable b) : Representable (max a b) := by
  rcases max_choice a b with h | h <;> rw [h] <;> assumption

end Maliput.Dbl
