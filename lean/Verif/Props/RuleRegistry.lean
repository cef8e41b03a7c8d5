import Verif.Lemmas.RuleRegistry
import Verif.Props.Rules

set_option autoImplicit false

/-! C30: the rule registry only builds registered rules. -/
namespace Maliput.Props

open Maliput.Rules Maliput.Rules.Spec Maliput.RuleRegistry Maliput.RuleRegistry.Spec

/-- C30: a type id is reported exactly if it was acceptably registered, and then with the values of its
first acceptable registration. -/
theorem registry_reports (ops : List Op) (t : String) (v : String × Values) :
    getPossibleStates (run ops) t = some v ↔ ∃ o, IsFirst ops o ∧ typeOf o = t ∧ v = (t, valuesOf o) :=
  (run_spec ops).2 t v

/-- C30: a registration succeeds exactly if its values are acceptable and its type id has not been
acceptably registered before, as a range or as a discrete type; otherwise it throws and changes nothing. -/
theorem registry_accepts (ops : List Op) (op : Op) :
    (Acceptable op ∧ (∀ o ∈ ops, typeOf o = typeOf op → ¬ Acceptable o) → (step (run ops) op).2 = .ok ()) ∧
    (¬ (Acceptable op ∧ ∀ o ∈ ops, typeOf o = typeOf op → ¬ Acceptable o) →
      step (run ops) op = (run ops, .error .throws)) := by
  rw [← (run_spec ops).1]
  obtain ⟨h1, h2⟩ := step_spec (run ops) op
  exact ⟨fun h => (h1 h).1, h2⟩

/-- C30: no type id is both a range type and a discrete type (within a map keys are unique). -/
theorem registry_types_disjoint (ops : List Op) (t : String) :
    ¬ (t ∈ (run ops).rangeTypes.keys ∧ t ∈ (run ops).discreteTypes.keys) := by
  rw [Map.mem_keys, Map.mem_keys]
  rintro ⟨⟨a, ha⟩, ⟨b, hb⟩⟩
  rcases run_disjoint ops t with h | h
  · rw [ha] at h; cases h
  · rw [hb] at h; cases h

/-- The values a range type was registered with. -/
theorem registry_rangeTypes (ops : List Op) (t : String) (l : List Range) :
    (run ops).rangeTypes.get? t = some l ↔ IsFirst ops (.range t l) := by
  have h := (run_spec ops).2 t (t, .ranges l)
  unfold getPossibleStates at h
  generalize hr : (run ops).rangeTypes.get? t = o at h
  constructor
  · rintro rfl
    obtain ⟨o, h1, h2, h3⟩ := h.1 rfl
    cases o <;> simp_all [typeOf, valuesOf]
  · intro hf
    have := h.2 ⟨_, hf, rfl, rfl⟩
    rcases o with _ | l'
    · generalize (run ops).discreteTypes.get? t = o at this
      cases o <;> simp at this
    · simpa using this

/-- The values a discrete type was registered with. -/
theorem registry_discreteTypes (ops : List Op) (t : String) (l : List DiscreteValue) :
    (run ops).discreteTypes.get? t = some l ↔ IsFirst ops (.discrete t l) := by
  have h := (run_spec ops).2 t (t, .discreteValues l)
  have hd := run_disjoint ops t
  unfold getPossibleStates at h
  generalize hr : (run ops).rangeTypes.get? t = o at h hd
  generalize hr' : (run ops).discreteTypes.get? t = o' at h hd
  constructor
  · rintro rfl
    rcases hd with rfl | hd
    · obtain ⟨o, h1, h2, h3⟩ := h.1 rfl
      cases o <;> simp_all [typeOf, valuesOf]
    · cases hd
  · intro hf
    have := h.2 ⟨_, hf, rfl, rfl⟩
    rcases o with _ | l'
    · rcases o' with _ | l'
      · simp at this
      · simpa using this
    · simp at this

/-- C30: building a range rule succeeds exactly for a registered range type with ranges each of which has
the severity, bounds and description of a registered one, and that form a valid rule. -/
theorem registry_buildRange (ops : List Op) (id t : String) (zone : List LaneSRange) (ranges : List Range)
    (r : RangeValueRule) : buildRange (run ops) id t zone ranges = .ok r ↔
    (∃ l, IsFirst ops (.range t l) ∧ ∀ v ∈ ranges, ∃ w ∈ l, w.severity = v.severity ∧ w.min = v.min ∧
      w.max = v.max ∧ w.description = v.description) ∧
    RangeValueRule.make id t zone ranges = .ok r := by
  simp only [← registry_rangeTypes]
  unfold buildRange
  generalize (run ops).rangeTypes.get? t = o
  rcases o with _ | l
  · simp
  · simp only [bind_ok, forM_ok, throwUnless_ok, hasRange, List.any_eq_true, Bool.and_eq_true, decide_eq_true_eq,
      and_assoc, Option.some.injEq, exists_eq_left', exists_const]

/-- C30: building a discrete value rule succeeds exactly for a registered discrete type with values each of
which has the severity and value of a registered one, and that form a valid rule. -/
theorem registry_buildDiscrete (ops : List Op) (id t : String) (zone : List LaneSRange)
    (values : List DiscreteValue) (r : DiscreteValueRule) : buildDiscrete (run ops) id t zone values = .ok r ↔
    (∃ l, IsFirst ops (.discrete t l) ∧ ∀ v ∈ values, ∃ w ∈ l, w.severity = v.severity ∧ w.value = v.value) ∧
    DiscreteValueRule.make id t zone values = .ok r := by
  simp only [← registry_discreteTypes]
  unfold buildDiscrete
  generalize (run ops).discreteTypes.get? t = o
  rcases o with _ | l
  · simp
  · simp only [bind_ok, forM_ok, throwUnless_ok, hasDiscreteValue, List.any_eq_true, Bool.and_eq_true,
      decide_eq_true_eq, Option.some.injEq, exists_eq_left', exists_const]

def regOps : List Op :=
  [.discrete "row" [⟨stateOne, "Go"⟩, ⟨stateTwo, "Stop"⟩], .range "row" [⟨stateOne, "day", 0, 30⟩],
   .range "speed" [], .range "speed" [⟨stateOne, "day", 0, 30⟩, ⟨stateOne, "night", 0, 20⟩]]

/-- A history with a clash across the two kinds and an unacceptable registration, a rule that can be built
with related rules of its own, and two that cannot. -/
example : getPossibleStates (run regOps) "row" =
      some ("row", .discreteValues [⟨stateOne, "Go"⟩, ⟨stateTwo, "Stop"⟩]) ∧
    getPossibleStates (run regOps) "speed" =
      some ("speed", .ranges [⟨stateOne, "day", 0, 30⟩, ⟨stateOne, "night", 0, 20⟩]) ∧
    (buildRange (run regOps) "r" "speed" [] [⟨stateTwo, "night", 0, 20⟩]).toBool = true ∧
    (buildRange (run regOps) "r" "speed" [] [⟨stateTwo, "night", 0, 30⟩]).toBool = false ∧
    (buildDiscrete (run regOps) "r" "speed" [] [⟨stateOne, "Go"⟩]).toBool = false := by
  decide +kernel

end Maliput.Props
