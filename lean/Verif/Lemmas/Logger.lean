import Verif.Spec.Logger
import Mathlib.Data.List.Induction

set_option autoImplicit false

/-!
Histories of a logger.
-/
namespace Maliput.Logging

open Spec

theorem run_snoc (calls : List Call) (c : Call) : run (calls ++ [c]) = after (run calls) c := by
  rw [run, List.foldl_append]
  rfl

theorem stringToLevel_names (name : String) :
    (∃ level, stringToLevel name = .ok level ∧ levelToString level = name ∧ (level = .unchanged ↔ name ∉ names)) ∨
    (stringToLevel name = .error .outOfRange ∧ name ∉ names) := by
  unfold stringToLevel
  split
  any_goals exact .inl ⟨_, rfl, rfl, by decide⟩
  rename_i h1 h2 h3 h4 h5 h6 h7 h8
  right
  refine ⟨rfl, ?_⟩
  simp only [names, List.mem_cons, List.not_mem_nil, or_false, not_or]
  exact ⟨h2, h3, h4, h5, h6, h7, h1⟩

theorem levelAfter_snoc (calls : List Call) (c : Call) :
    levelAfter (calls ++ [c]) = (levelSet c).getD (levelAfter calls) := by
  rw [levelAfter, levelAfter, List.filterMap_append]
  cases h : levelSet c with
  | none => simp [h]
  | some x => simp [h]

theorem sinkAfter_snoc (calls : List Call) (c : Call) : sinkAfter (calls ++ [c]) = (sinkSet c).getD (sinkAfter calls) := by
  rw [sinkAfter, sinkAfter, List.filterMap_append]
  cases h : sinkSet c with
  | none => simp [h]
  | some x => simp [h]

theorem allDelivered_snoc (calls : List Call) (c : Call) :
    allDelivered (calls ++ [c]) = allDelivered calls ++ (delivered calls c).toList := by
  rw [allDelivered, allDelivered, List.length_append, List.length_singleton, List.range_succ, List.filterMap_append]
  congr 1
  · have key : ∀ l : List Nat, (∀ i ∈ l, i < calls.length) →
        l.filterMap (fun i => (calls ++ [c])[i]?.bind (delivered ((calls ++ [c]).take i))) =
          l.filterMap fun i => calls[i]?.bind (delivered (calls.take i)) := by
      intro l
      induction l with
      | nil => exact fun _ => rfl
      | cons i l ih =>
        intro h
        have hi := h i (by simp)
        rw [List.filterMap_cons, List.filterMap_cons, ih fun j hj => h j (by simp [hj]), List.getElem?_append_left hi,
          List.take_append_of_le_length (Nat.le_of_lt hi)]
    exact key _ fun i hi => List.mem_range.mp hi
  · simp only [List.filterMap_cons, List.filterMap_nil, List.getElem?_concat_length, Option.bind_some, List.take_left]
    cases delivered calls c <;> rfl

theorem level_in_names {level : Level} (h : level ≠ .unchanged) : levelToString level ∈ names := by
  cases level <;> first | decide | exact absurd rfl h

theorem run_spec (calls : List Call) :
    levelToString (run calls).level = levelAfter calls ∧ (run calls).level ≠ .unchanged ∧ (run calls).sink = sinkAfter calls ∧
      (run calls).given = allDelivered calls := by
  induction calls using List.reverseRecOn with
  | nil => exact ⟨rfl, by decide, rfl, rfl⟩
  | append_singleton calls c ih =>
    obtain ⟨h1, h2, h3, h4⟩ := ih
    rw [run_snoc, levelAfter_snoc, sinkAfter_snoc, allDelivered_snoc]
    generalize run calls = l at *
    cases c with
    | message s args =>
      have hval : ∀ a : Level, a ≠ .unchanged → a.value = names.idxOf (levelToString a) := by
        intro a ha
        cases a <;> decide
      have hs : names.idxOf (front s).2 = s.level.value := by cases s <;> decide
      have hm : levelToMessage s.level = .ok (front s).1 := by cases s <;> rfl
      rw [delivered, ← h1, ← hval l.level h2, hs, ← h3, ← h4]
      simp only [after, message, log, levelSet, sinkSet, Option.getD_none]
      by_cases hc : l.level.value ≤ s.level.value
      · rw [if_pos hc, if_pos hc, hm]
        exact ⟨rfl, h2, rfl, rfl⟩
      · rw [if_neg hc, if_neg hc]
        exact ⟨rfl, h2, rfl, by simp⟩
    | setLevel level =>
      simp only [after, setLevel, levelSet, sinkSet, delivered, Option.getD_none, Option.toList_none, List.append_nil]
      by_cases hu : level = .unchanged
      · subst hu
        rw [if_pos rfl, if_neg (by decide)]
        exact ⟨h1, h2, h3, h4⟩
      · rw [if_neg hu, if_pos (level_in_names hu)]
        exact ⟨rfl, hu, h3, h4⟩
    | setLogLevel name =>
      simp only [after, setLogLevel, levelSet, sinkSet, delivered, Option.getD_none, Option.toList_none, List.append_nil]
      rcases stringToLevel_names name with ⟨level, hl, hn, hu⟩ | ⟨hl, hn⟩
      · rw [hl]
        dsimp only
        rw [setLevel]
        by_cases hun : level = .unchanged
        · rw [if_pos hun, if_neg (hu.mp hun)]
          exact ⟨h1, h2, h3, h4⟩
        · rw [if_neg hun, if_pos (by by_contra h; exact hun (hu.mpr h))]
          exact ⟨hn, hun, h3, h4⟩
      · rw [hl, if_neg hn]
        exact ⟨h1, h2, h3, h4⟩
    | setSink sink =>
      cases sink with
      | none => exact ⟨h1, h2, h3, by simpa [after, setSink, delivered] using h4⟩
      | some s => exact ⟨h1, h2, rfl, by simpa [after, setSink, delivered] using h4⟩

end Maliput.Logging
