import Mathlib.Algebra.Order.Ring.Defs
import Mathlib.Algebra.Order.Field.Basic
import Mathlib.Topology.Order.IntermediateValue
import Mathlib.Topology.Instances.Real.Lemmas
import Mathlib.Tactic.Linarith
import Verif.Spec.Witness

set_option autoImplicit false
set_option linter.unusedSectionVars false

/-!
When witness functions trigger (C154).
-/
namespace Maliput.Props

open Maliput Witness

/-- Which values make a function trigger, by its direction. -/
theorem witness_triggers {R : Type} [Ring R] [LinearOrder R] [IsStrictOrderedRing R] (w0 wf : R) :
    shouldTrigger .none w0 wf = false ∧
    (shouldTrigger .positiveThenNonPositive w0 wf = true ↔ 0 < w0 ∧ wf ≤ 0) ∧
    (shouldTrigger .negativeThenNonNegative w0 wf = true ↔ w0 < 0 ∧ 0 ≤ wf) ∧
    (shouldTrigger .crossesZero w0 wf = true ↔ w0 ≠ 0 ∧ w0 * wf ≤ 0) := by
  refine ⟨by simp [shouldTrigger], by simp [shouldTrigger], by simp [shouldTrigger], ?_⟩
  rcases lt_trichotomy w0 0 with h | h | h
  · have : w0 * wf ≤ 0 ↔ 0 ≤ wf := by
      refine ⟨fun h' => ?_, fun h' => mul_nonpos_of_nonpos_of_nonneg h.le h'⟩
      by_contra h''
      exact absurd (mul_pos_of_neg_of_neg h (not_le.mp h'')) (not_lt.mpr h')
    simp [shouldTrigger, h, h.ne, h.not_gt, this]
  · simp [shouldTrigger, h]
  · have : w0 * wf ≤ 0 ↔ wf ≤ 0 := by
      refine ⟨fun h' => ?_, fun h' => mul_nonpos_of_nonneg_of_nonpos h.le h'⟩
      by_contra h''
      exact absurd (mul_pos h (not_le.mp h'')) (not_lt.mpr h')
    simp [shouldTrigger, h, h.ne', h.not_gt, this]

example : shouldTrigger .crossesZero (2 : Int) (-3) = true ∧ shouldTrigger .crossesZero (2 : Int) 0 = true ∧
    shouldTrigger .crossesZero (0 : Int) (-3) = false ∧ shouldTrigger .negativeThenNonNegative (2 : Int) (-3) = false := by decide

/-- A continuous function that triggers over an interval is zero at some time after its start and not after its end. -/
theorem witness_zero_found (direction : Direction) (w : ℝ → ℝ) (t0 t1 : ℝ) (ht : t0 < t1) (hw : ContinuousOn w (Set.Icc t0 t1))
    (h : shouldTrigger direction (w t0) (w t1) = true) : ∃ t, t0 < t ∧ t ≤ t1 ∧ w t = 0 := by
  have down : 0 < w t0 → w t1 ≤ 0 → ∃ t, t0 < t ∧ t ≤ t1 ∧ w t = 0 := by
    intro h₀ h₁
    obtain ⟨t, ht', he⟩ := intermediate_value_Icc' ht.le hw ⟨h₁, h₀.le⟩
    refine ⟨t, lt_of_le_of_ne ht'.1 ?_, ht'.2, he⟩
    rintro rfl
    exact absurd he h₀.ne'
  have up : w t0 < 0 → 0 ≤ w t1 → ∃ t, t0 < t ∧ t ≤ t1 ∧ w t = 0 := by
    intro h₀ h₁
    obtain ⟨t, ht', he⟩ := intermediate_value_Icc ht.le hw ⟨h₀.le, h₁⟩
    refine ⟨t, lt_of_le_of_ne ht'.1 ?_, ht'.2, he⟩
    rintro rfl
    exact absurd he h₀.ne
  cases direction with
  | none => simp [shouldTrigger] at h
  | positiveThenNonPositive =>
    simp only [shouldTrigger, Bool.and_eq_true, decide_eq_true_eq] at h
    exact down h.1 h.2
  | negativeThenNonNegative =>
    simp only [shouldTrigger, Bool.and_eq_true, decide_eq_true_eq] at h
    exact up h.1 h.2
  | crossesZero =>
    simp only [shouldTrigger, Bool.or_eq_true, Bool.and_eq_true, decide_eq_true_eq] at h
    exact h.elim (fun h => down h.1 h.2) (fun h => up h.1 h.2)

example : ContinuousOn (fun t : ℝ => 1 - t) (Set.Icc 0 3) ∧ (0 : ℝ) < 3 ∧ 0 < (fun t : ℝ => 1 - t) 0 ∧ (fun t : ℝ => 1 - t) 3 ≤ 0 :=
  ⟨by fun_prop, by norm_num, by norm_num, by norm_num⟩

/-- However an interval is divided, a function that triggers over all of it triggers over one of the parts. -/
theorem witness_not_missed {R : Type} [Zero R] [LinearOrder R] (direction : Direction) (values : List R) (first last : R)
    (hf : values.head? = some first) (hl : values.getLast? = some last) (h : shouldTrigger direction first last = true) :
    ∃ a b, Consecutive values a b ∧ shouldTrigger direction a b = true := by
  have down : ∀ (values : List R) (first last : R), values.head? = some first → values.getLast? = some last → 0 < first → last ≤ 0 →
      ∃ a b, Consecutive values a b ∧ 0 < a ∧ b ≤ 0 := by
    intro values
    induction values with
    | nil => intro first last hf; cases hf
    | cons x l ih =>
      intro first last hf hl h₀ h₁
      cases hf
      cases l with
      | nil =>
        cases hl
        exact absurd h₁ (not_le.mpr h₀)
      | cons y l =>
        rcases le_or_gt y 0 with hy | hy
        · exact ⟨_, y, ⟨[], l, rfl⟩, h₀, hy⟩
        · obtain ⟨a, b, ⟨before, after, e⟩, h₂⟩ := ih y last rfl (by simpa using hl) hy h₁
          exact ⟨a, b, ⟨x :: before, after, by rw [e]; rfl⟩, h₂⟩
  have up : ∀ (values : List R) (first last : R), values.head? = some first → values.getLast? = some last → first < 0 → 0 ≤ last →
      ∃ a b, Consecutive values a b ∧ a < 0 ∧ 0 ≤ b := by
    intro values
    induction values with
    | nil => intro first last hf; cases hf
    | cons x l ih =>
      intro first last hf hl h₀ h₁
      cases hf
      cases l with
      | nil =>
        cases hl
        exact absurd h₁ (not_le.mpr h₀)
      | cons y l =>
        rcases le_or_gt 0 y with hy | hy
        · exact ⟨_, y, ⟨[], l, rfl⟩, h₀, hy⟩
        · obtain ⟨a, b, ⟨before, after, e⟩, h₂⟩ := ih y last rfl (by simpa using hl) hy h₁
          exact ⟨a, b, ⟨x :: before, after, by rw [e]; rfl⟩, h₂⟩
  cases direction with
  | none => simp [shouldTrigger] at h
  | positiveThenNonPositive =>
    simp only [shouldTrigger, Bool.and_eq_true, decide_eq_true_eq] at h ⊢
    exact down values first last hf hl h.1 h.2
  | negativeThenNonNegative =>
    simp only [shouldTrigger, Bool.and_eq_true, decide_eq_true_eq] at h ⊢
    exact up values first last hf hl h.1 h.2
  | crossesZero =>
    simp only [shouldTrigger, Bool.or_eq_true, Bool.and_eq_true, decide_eq_true_eq] at h ⊢
    rcases h with h | h
    · obtain ⟨a, b, hc, h'⟩ := down values first last hf hl h.1 h.2
      exact ⟨a, b, hc, Or.inl h'⟩
    · obtain ⟨a, b, hc, h'⟩ := up values first last hf hl h.1 h.2
      exact ⟨a, b, hc, Or.inr h'⟩

example : shouldTrigger .crossesZero (3 : Int) (-1) = true ∧ Consecutive [(3 : Int), 2, 0, 5, -1] 2 0 ∧
    shouldTrigger .crossesZero (2 : Int) 0 = true := ⟨by decide, ⟨[3], [5, -1], rfl⟩, by decide⟩

/-- One zero triggers once: over two intervals that follow each other, a function of one direction does not trigger in both, and one of both
directions only does if the value between the intervals is not zero and it triggers there and back. -/
theorem witness_once {R : Type} [Zero R] [LinearOrder R] (direction : Direction) (a b c : R)
    (h₁ : shouldTrigger direction a b = true) (h₂ : shouldTrigger direction b c = true) :
    direction = .crossesZero ∧ b ≠ 0 ∧
      ((shouldTrigger .positiveThenNonPositive a b = true ∧ shouldTrigger .negativeThenNonNegative b c = true) ∨
        (shouldTrigger .negativeThenNonNegative a b = true ∧ shouldTrigger .positiveThenNonPositive b c = true)) := by
  cases direction with
  | none => simp [shouldTrigger] at h₁
  | positiveThenNonPositive =>
    simp only [shouldTrigger, Bool.and_eq_true, decide_eq_true_eq] at h₁ h₂
    exact absurd h₁.2 (not_le.mpr h₂.1)
  | negativeThenNonNegative =>
    simp only [shouldTrigger, Bool.and_eq_true, decide_eq_true_eq] at h₁ h₂
    exact absurd h₁.2 (not_le.mpr h₂.1)
  | crossesZero =>
    simp only [shouldTrigger, Bool.or_eq_true, Bool.and_eq_true, decide_eq_true_eq, gt_iff_lt, ge_iff_le] at h₁ h₂ ⊢
    rcases h₁ with h₁ | h₁ <;> rcases h₂ with h₂ | h₂
    · exact absurd h₁.2 (not_le.mpr h₂.1)
    · exact ⟨trivial, h₂.1.ne, Or.inl ⟨h₁, h₂⟩⟩
    · exact ⟨trivial, h₂.1.ne', Or.inr ⟨h₁, h₂⟩⟩
    · exact absurd h₁.2 (not_le.mpr h₂.1)

example : shouldTrigger .crossesZero (1 : Int) (-1) = true ∧ shouldTrigger .crossesZero (-1 : Int) 2 = true ∧
    shouldTrigger .crossesZero (1 : Int) 0 = true ∧ shouldTrigger .crossesZero (0 : Int) (-2) = false := by decide

/-- Every function that starts on one side of zero and is not on that side later triggers, in both directions if it says so, and in the
opposite direction when its sign is changed. -/
theorem witness_sides {R : Type} [Ring R] [LinearOrder R] [IsStrictOrderedRing R] (w0 wf : R) :
    (shouldTrigger .crossesZero w0 wf =
      (shouldTrigger .positiveThenNonPositive w0 wf || shouldTrigger .negativeThenNonNegative w0 wf)) ∧
    shouldTrigger .negativeThenNonNegative w0 wf = shouldTrigger .positiveThenNonPositive (-w0) (-wf) ∧
    (shouldTrigger .crossesZero w0 wf = false ↔ w0 = 0 ∨ (0 < w0 ∧ 0 < wf) ∨ (w0 < 0 ∧ wf < 0)) := by
  refine ⟨by simp [shouldTrigger], by simp [shouldTrigger], ?_⟩
  rcases lt_trichotomy w0 0 with h | h | h
  · simp [shouldTrigger, h, h.ne, h.not_gt]
  · simp [shouldTrigger, h]
  · simp [shouldTrigger, h, h.ne', h.not_gt]

/-- A function that is zero twice within an interval need not trigger over it: only the values at the ends count. -/
example : shouldTrigger .crossesZero (1 : Int) 1 = false ∧ shouldTrigger .crossesZero (1 : Int) (-1) = true ∧
    shouldTrigger .crossesZero (-1 : Int) 1 = true := by decide

end Maliput.Props
