import Verif.Lemmas.Logger

set_option autoImplicit false

/-!
# C119: the logger
-/
namespace Maliput.Props

open Logging Logging.Spec

/-- **C119.** Over any history of calls, the sinks are given exactly the messages at least as severe as the level in force when
they were logged, each to the sink in force then, in order and in the documented form. Calls which throw change nothing. -/
theorem messages_delivered (calls : List Call) : (run calls).given = allDelivered calls := (run_spec calls).2.2.2

/-- **C119.** `set_level` and `set_log_level` return the name of the level in force before, which set again restores it; `unchanged`
changes nothing. A name which is none of the levels throws `std::out_of_range`. -/
theorem level_restored (calls : List Call) (level : Level) :
    (Logging.setLevel (run calls) level).2 = levelAfter calls ∧
    (∀ name, setLogLevel (run calls) name =
      if name ∈ names ∨ name = "unchanged" then .ok (run (calls ++ [.setLogLevel name]), levelAfter calls)
      else .error .outOfRange) ∧
    levelAfter (calls ++ [.setLevel level, .setLogLevel (Logging.setLevel (run calls) level).2]) = levelAfter calls ∧
    levelAfter (calls ++ [.setLevel .unchanged]) = levelAfter calls := by
  obtain ⟨h1, h2, -, -⟩ := run_spec calls
  have hset : (Logging.setLevel (run calls) level).2 = levelAfter calls := by
    rw [Logging.setLevel]
    split <;> exact h1
  refine ⟨hset, ?_, ?_, ?_⟩
  · intro name
    rw [setLogLevel, run_snoc, after, setLogLevel]
    rcases stringToLevel_names name with ⟨l, hl, hn, hu⟩ | ⟨hl, hn⟩
    · rw [hl]
      dsimp only
      have hin : name ∈ names ∨ name = "unchanged" := by
        by_cases hun : l = .unchanged
        · right
          rw [← hn, hun]
          rfl
        · left
          by_contra h
          exact hun (hu.mpr h)
      rw [if_pos hin]
      have : (Logging.setLevel (run calls) l).2 = levelAfter calls := by
        rw [Logging.setLevel]
        split <;> exact h1
      rw [← this]
    · rw [hl]
      have : ¬ (name ∈ names ∨ name = "unchanged") := by
        rintro (h | h)
        · exact hn h
        · subst h
          cases hl
      rw [if_neg this]
  · rw [hset, ← List.singleton_append (x := Call.setLevel level), ← List.append_assoc, levelAfter_snoc, levelSet,
      if_pos (h1 ▸ level_in_names h2)]
    rfl
  · rw [levelAfter_snoc]
    rfl

/-- **C119.** At level `off` no message is delivered. -/
theorem off_silences (calls : List Call) (h : levelAfter calls = "off") (s : Severity) (args : List String) :
    allDelivered (calls ++ [.message s args]) = allDelivered calls := by
  rw [allDelivered_snoc, delivered, h, if_neg]
  · simp
  · cases s <;> decide

/-- **C119, witness.** The level of warnings is documented as `warning`; `set_log_level` throws for it. -/
theorem warning_refused (l : Logger) : setLogLevel l "warning" = .error .outOfRange := rfl

example : (run [.message .debug ["a"], .setLogLevel "debug", .message .debug ["b", "c"], .setSink (some 1), .setSink none,
    .setLogLevel "nonsense", .message .error ["d"], .setLevel .off, .message .critical ["e"]]).given =
    [(0, "[DEBUG] bc\n"), (1, "[ERROR] d\n")] := by
  rw [messages_delivered]
  decide

example : allDelivered ([.setLevel .off] ++ [.message .critical ["x"]]) = [] :=
  off_silences [.setLevel .off] rfl .critical ["x"]

end Maliput.Props
