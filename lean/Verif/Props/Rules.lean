import Verif.Lemmas.RuleRegistry
import Mathlib.Data.String.Basic
import Mathlib.Algebra.Order.Ring.Rat
import Mathlib.Data.Prod.Lex

set_option autoImplicit false

/-!
C31 (equality of rule states), C50 (every rule is valid) and C51 (ordering of ranges).

C31 is false of the code: `operator==` does not compare the related ids in both directions, so that it
is not symmetric (`stateEq_not_symm`).
-/
namespace Maliput.Props

open Maliput.Rules Maliput.Rules.Spec Maliput.RuleRegistry

/-! ### C31 -/

/-- What `operator==` tests: same severity, same group names, and the ids of the left state are among
those of the right state. -/
theorem stateEq_iff (a b : State) : a.eq b = true ↔
    a.severity = b.severity ∧ Within a.relatedRules b.relatedRules ∧
      Within a.relatedUniqueIds b.relatedUniqueIds := state_eq_iff' a b

/-- C31: reflexive. -/
theorem stateEq_refl (a : State) : a.eq a = true :=
  (state_eq_iff' _ _).2 ⟨rfl, Within.refl _, Within.refl _⟩

/-- C31: transitive. -/
theorem stateEq_trans (a b c : State) (h1 : a.eq b = true) (h2 : b.eq c = true) : a.eq c = true := by
  rw [state_eq_iff'] at *
  exact ⟨h1.1.trans h2.1, Within.trans h1.2.1 h2.2.1, Within.trans h1.2.2 h2.2.2⟩

/-- C31, symmetry: holds when both states list the same number of ids under each name, without
repetitions.  Missing: all other states, for which it is false (`stateEq_not_symm`). -/
theorem stateEq_symm_partial (a b : State) (hr : SameCounts a.relatedRules b.relatedRules)
    (hu : SameCounts a.relatedUniqueIds b.relatedUniqueIds) (h : a.eq b = true) : b.eq a = true := by
  rw [state_eq_iff'] at *
  exact ⟨h.1.symm, Within.symm h.2.1 hr, Within.symm h.2.2 hu⟩

/-- C31: states with the same contents, listed in any order, compare equal both ways. -/
theorem stateEq_of_same (a b : State) (h : SameState a b) : a.eq b = true ∧ b.eq a = true := by
  obtain ⟨h1, h2, h3⟩ := h
  rw [state_eq_iff', state_eq_iff']
  exact ⟨⟨h1, fun g => ⟨(h2 g).1, fun x => ((h2 g).2 x).1⟩, fun g => ⟨(h3 g).1, fun x => ((h3 g).2 x).1⟩⟩,
    ⟨h1.symm, fun g => ⟨(h2 g).1.symm, fun x => ((h2 g).2 x).2⟩,
      fun g => ⟨(h3 g).1.symm, fun x => ((h3 g).2 x).2⟩⟩⟩

/-- C31: discrete values compare equal exactly if the values and the states do; hence reflexive and
transitive. -/
theorem discreteValueEq_iff (a b : DiscreteValue) :
    a.eq b = true ↔ a.value = b.value ∧ a.toState.eq b.toState = true := by
  simp [DiscreteValue.eq]

/-- C31: the same for ranges. -/
theorem rangeEq_iff (a b : Range) : a.eq b = true ↔
    a.min = b.min ∧ a.max = b.max ∧ a.description = b.description ∧ a.toState.eq b.toState = true := by
  simp [Range.eq, and_assoc]

def stateOne : State := ⟨0, .ofList [("Yield", ["r1"])], .empty⟩
def stateTwo : State := ⟨0, .ofList [("Yield", ["r2", "r1"])], .empty⟩
def stateTwo' : State := ⟨0, .ofList [("Yield", ["r1", "r2"])], .empty⟩

/-- C31 is false: a state compares equal to one with more related rules, but not the other way
round. -/
theorem stateEq_not_symm : ∃ a b : State, ValidState a ∧ ValidState b ∧ a.eq b = true ∧ b.eq a = false := by
  refine ⟨stateOne, stateTwo, ⟨by decide, ?_, ?_⟩, ⟨by decide, ?_, ?_⟩, by decide +kernel, by decide +kernel⟩ <;>
    refine (validateRelated_ok (u := ())).1 ?_ <;> decide +kernel

example : SameCounts stateTwo.relatedRules stateTwo'.relatedRules ∧
    SameCounts stateTwo.relatedUniqueIds stateTwo'.relatedUniqueIds ∧
    stateTwo.eq stateTwo' = true ∧ stateTwo ≠ stateTwo' := by
  refine ⟨fun g => ?_, fun g => ?_, by decide +kernel, by decide +kernel⟩
  · by_cases h : g = "Yield"
    · subst h; decide +kernel
    · have h1 : stateTwo.relatedRules.get? g = none := Map.get?_eq_none.2 (by
        rw [show stateTwo.relatedRules.entries.map (·.1) = ["Yield"] by decide +kernel]; simpa using h)
      have h2 : stateTwo'.relatedRules.get? g = none := Map.get?_eq_none.2 (by
        rw [show stateTwo'.relatedRules.entries.map (·.1) = ["Yield"] by decide +kernel]; simpa using h)
      simp [ids, h1, h2]
  · simp [ids, stateTwo, stateTwo']

/-! ### C50 -/

/-- C50: a discrete value rule can be constructed exactly if there is at least one state, every state
is valid and no two compare equal; the rule has what was passed. -/
theorem discreteValueRule_make_iff (id t : String) (zone : List LaneSRange) (values : List DiscreteValue)
    (r : DiscreteValueRule) : DiscreteValueRule.make id t zone values = .ok r ↔
    r = ⟨id, t, zone, values⟩ ∧ values ≠ [] ∧ (∀ v ∈ values, ValidState v.toState) ∧
      values.Pairwise fun a b => a.eq b = false ∧ b.eq a = false := by
  rw [← countP_one_iff DiscreteValue.eq_refl]
  simp only [DiscreteValueRule.make, bind_ok, throwUnless_ok, pure_ok, forM_ok, validateRelated_ok,
    validateSeverity, decide_eq_true_eq, ValidState, Bool.not_eq_true', List.isEmpty_eq_false_iff]
  constructor
  · rintro ⟨_, h1, _, h2, rfl⟩
    refine ⟨rfl, h1, fun v hv => ?_, fun v hv => ?_⟩ <;> obtain ⟨_, h3, _, h4, _, h5, h6⟩ := h2 v hv
    · exact ⟨h5, h3, h4⟩
    · exact h6
  · rintro ⟨rfl, h1, h2, h3⟩
    refine ⟨(), h1, (), fun v hv => ?_, rfl⟩
    obtain ⟨h4, h5, h6⟩ := h2 v hv
    exact ⟨(), h5, (), h6, (), h4, h3 v hv⟩

/-- C50: the same for range value rules, whose ranges moreover have `min ≤ max`. -/
theorem rangeValueRule_make_iff (id t : String) (zone : List LaneSRange) (ranges : List Range)
    (r : RangeValueRule) : RangeValueRule.make id t zone ranges = .ok r ↔
    r = ⟨id, t, zone, ranges⟩ ∧ ranges ≠ [] ∧ (∀ v ∈ ranges, ValidState v.toState ∧ v.min ≤ v.max) ∧
      ranges.Pairwise fun a b => a.eq b = false ∧ b.eq a = false := by
  rw [← countP_one_iff Range.eq_refl]
  simp only [RangeValueRule.make, bind_ok, throwUnless_ok, pure_ok, forM_ok, validateRelated_ok,
    validateSeverity, decide_eq_true_eq, ValidState, Bool.not_eq_true', List.isEmpty_eq_false_iff]
  constructor
  · rintro ⟨_, h1, _, h2, rfl⟩
    refine ⟨rfl, h1, fun v hv => ?_, fun v hv => ?_⟩ <;> obtain ⟨_, h3, _, h4, _, h5, _, h6, h7⟩ := h2 v hv
    · exact ⟨⟨h5, h3, h4⟩, h6⟩
    · exact h7
  · rintro ⟨rfl, h1, h2, h3⟩
    refine ⟨(), h1, (), fun v hv => ?_, rfl⟩
    obtain ⟨⟨h4, h5, h6⟩, h7⟩ := h2 v hv
    exact ⟨(), h5, (), h6, (), h4, (), h7, h3 v hv⟩

example : DiscreteValueRule.make "r" "t" [] [⟨stateOne, "Go"⟩, ⟨stateTwo, "Stop"⟩] =
    .ok ⟨"r", "t", [], [⟨stateOne, "Go"⟩, ⟨stateTwo, "Stop"⟩]⟩ := by decide +kernel

example : RangeValueRule.make "r" "t" [] [⟨stateOne, "day", 0, 30⟩, ⟨stateOne, "night", 0, 20⟩] =
    .ok ⟨"r", "t", [], [⟨stateOne, "day", 0, 30⟩, ⟨stateOne, "night", 0, 20⟩]⟩ := by decide +kernel

/-! ### C51 -/

/-- The fields `operator<` of ranges looks at, with their order of significance. -/
def rangeKey (a : Range) : ℤ ×ₗ String ×ₗ ℚ ×ₗ ℚ := toLex (a.severity, toLex (a.description, toLex (a.min, a.max)))

theorem rangeLt_iff (a b : Range) : a.lt b = true ↔ rangeKey a < rangeKey b := by
  have key : ∀ {α : Type} [LinearOrder α] (x y : α) (r : Bool),
      (if x < y then true else if x > y then false else r) = true ↔ x < y ∨ (x = y ∧ r = true) := by
    intro α _ x y r
    rcases lt_trichotomy x y with h | h | h
    · simp [h]
    · simp [h]
    · simp [h, h.not_gt, h.ne']
  unfold Range.lt rangeKey
  simp only [Prod.Lex.toLex_lt_toLex, key]
  simp

/-- C51: `operator<` on ranges is a strict weak ordering: irreflexive, transitive, and "neither is
less" is transitive (it means same severity, description, minimum and maximum). -/
theorem rangeLt_strictWeak :
    (∀ a : Range, a.lt a = false) ∧
    (∀ a b c : Range, a.lt b = true → b.lt c = true → a.lt c = true) ∧
    (∀ a b : Range, (a.lt b = false ∧ b.lt a = false) ↔
      a.severity = b.severity ∧ a.description = b.description ∧ a.min = b.min ∧ a.max = b.max) := by
  refine ⟨fun a => ?_, fun a b c => ?_, fun a b => ?_⟩
  · rw [← Bool.not_eq_true, rangeLt_iff]; exact lt_irrefl _
  · rw [rangeLt_iff, rangeLt_iff, rangeLt_iff]; exact lt_trans
  · rw [← Bool.not_eq_true, ← Bool.not_eq_true, rangeLt_iff, rangeLt_iff, not_lt, not_lt]
    constructor
    · rintro ⟨h1, h2⟩
      have := le_antisymm h2 h1
      unfold rangeKey at this
      simpa [Prod.ext_iff] using this
    · rintro ⟨h1, h2, h3, h4⟩
      simp [rangeKey, h1, h2, h3, h4]

/-- C51: lexicographic: severity first, then description, minimum, maximum. -/
theorem rangeLt_lex (a b : Range) : a.lt b = true ↔
    a.severity < b.severity ∨ (a.severity = b.severity ∧ (a.description < b.description ∨
      (a.description = b.description ∧ (a.min < b.min ∨ (a.min = b.min ∧ a.max < b.max))))) := by
  rw [rangeLt_iff, rangeKey, rangeKey]
  simp only [Prod.Lex.toLex_lt_toLex]

example : (⟨stateOne, "day", 0, 20⟩ : Range).lt ⟨stateTwo, "day", 0, 30⟩ = true := by decide +kernel

end Maliput.Props
