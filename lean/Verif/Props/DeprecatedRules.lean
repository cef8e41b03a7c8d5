import Verif.Lemmas.DeprecatedRules

set_option autoImplicit false

/-! C56: right-of-way, speed limit and direction usage rules are valid once constructed. -/
namespace Maliput.Props

open Maliput.Rules

/-- C56: a right-of-way rule is constructed exactly from at least one state, states with different ids, and
bulb groups none of which is repeated within its traffic light; it then has the given zone and bulb
groups, and exactly the given states under their ids. -/
theorem rightOfWay_make (id : String) (zone : List LaneSRange) (zt : ZoneType) (states : List RowState)
    (related : Map String (List String)) :
    ((∃ r, RightOfWayRule.make id zone zt states related = .ok r) ↔
      states ≠ [] ∧ states.Pairwise (fun s s' => s.id ≠ s'.id) ∧ ∀ kv ∈ related.entries, kv.2.Nodup) ∧
    (∀ r, RightOfWayRule.make id zone zt states related = .ok r →
      r.id = id ∧ r.zone = zone ∧ r.zoneType = zt ∧ r.relatedBulbGroups = related ∧
      ∀ k s, r.states.get? k = some s ↔ s ∈ states ∧ s.id = k) := by
  simp only [RightOfWayRule.make, bind_ok, throwUnless_ok, pure_ok, forM_ok, decide_eq_true_eq, exists_const,
    count_one_iff]
  constructor
  · constructor
    · rintro ⟨r, h1, m, h2, h3, -⟩
      refine ⟨by rintro rfl; simp at h1, ?_, h3⟩
      have := ((indexStates_ok _ _ _ _).1 h2).1
      rwa [List.Nodup, List.pairwise_map] at this
    · rintro ⟨h1, h2, h3⟩
      obtain ⟨m, hm⟩ := indexed_exists (idOf := RowState.id) (l := states) (by rw [List.Nodup, List.pairwise_map]; exact h2)
      exact ⟨_, List.length_pos_of_ne_nil h1, m, hm, h3, rfl⟩
  · rintro r ⟨h1, m, h2, h3, rfl⟩
    exact ⟨rfl, rfl, rfl, rfl, indexed_get h2⟩

/-- C56: the same for a direction usage rule. -/
theorem directionUsage_make (id : String) (zone : LaneSRange) (states : List DirectionState) :
    ((∃ r, DirectionUsageRule.make id zone states = .ok r) ↔
      states ≠ [] ∧ states.Pairwise (fun s s' => s.id ≠ s'.id)) ∧
    (∀ r, DirectionUsageRule.make id zone states = .ok r →
      r.id = id ∧ r.zone = zone ∧ ∀ k s, r.states.get? k = some s ↔ s ∈ states ∧ s.id = k) := by
  simp only [DirectionUsageRule.make, bind_ok, throwUnless_ok, pure_ok, decide_eq_true_eq, exists_const]
  constructor
  · constructor
    · rintro ⟨r, h1, m, h2, -⟩
      refine ⟨by rintro rfl; simp at h1, ?_⟩
      have := ((indexStates_ok _ _ _ _).1 h2).1
      rwa [List.Nodup, List.pairwise_map] at this
    · rintro ⟨h1, h2⟩
      obtain ⟨m, hm⟩ := indexed_exists (idOf := DirectionState.id) (l := states)
        (by rw [List.Nodup, List.pairwise_map]; exact h2)
      exact ⟨_, List.length_pos_of_ne_nil h1, m, hm, rfl⟩
  · rintro r ⟨h1, m, h2, rfl⟩
    exact ⟨rfl, rfl, indexed_get h2⟩

/-- C56: a speed limit rule is constructed exactly with `0 <= min <= max`. -/
theorem speedLimit_make_iff (id : String) (zone : LaneSRange) (severity : SpeedSeverity) (min max : ℚ)
    (r : SpeedLimitRule) :
    SpeedLimitRule.make id zone severity min max = .ok r ↔
      0 ≤ min ∧ min ≤ max ∧ r = ⟨id, zone, severity, min, max⟩ := by
  simp only [SpeedLimitRule.make, bind_ok, throwUnless_ok, pure_ok, decide_eq_true_eq, exists_const, ge_iff_le]
  constructor
  · rintro ⟨h1, h2, h3, rfl⟩; exact ⟨h1, h3, rfl⟩
  · rintro ⟨h1, h2, rfl⟩; exact ⟨h1, h1.trans h2, h2, rfl⟩

/-- C56: `static_state()` of a right-of-way rule returns the only state it was constructed with, and throws
if there were several. -/
theorem rightOfWay_staticState (id : String) (zone : List LaneSRange) (zt : ZoneType) (states : List RowState)
    (related : Map String (List String)) (r : RightOfWayRule)
    (h : RightOfWayRule.make id zone zt states related = .ok r) (s : RowState) :
    staticState r.states = .ok s ↔ states = [s] := by
  simp only [RightOfWayRule.make, bind_ok, pure_ok] at h
  obtain ⟨u, -, m, h2, -, -, rfl⟩ := h
  exact staticState_iff h2 s

/-- C56: the same for a direction usage rule. -/
theorem directionUsage_staticState (id : String) (zone : LaneSRange) (states : List DirectionState)
    (r : DirectionUsageRule) (h : DirectionUsageRule.make id zone states = .ok r) (s : DirectionState) :
    staticState r.states = .ok s ↔ states = [s] := by
  simp only [DirectionUsageRule.make, bind_ok, pure_ok] at h
  obtain ⟨u, -, m, h2, rfl⟩ := h
  exact staticState_iff h2 s

example : (∃ r, RightOfWayRule.make "r" [⟨"1", 0, 10⟩] .stopAllowed [⟨"s", .go, []⟩, ⟨"t", .stop, ["q"]⟩]
      (.ofList [("light", ["g", "h"])]) = .ok r ∧ staticState r.states = .error .throws) ∧
    RightOfWayRule.make "r" [] .stopAllowed [⟨"s", .go, []⟩, ⟨"s", .stop, []⟩] .empty = .error .throws ∧
    RightOfWayRule.make "r" [] .stopAllowed [⟨"s", .go, []⟩] (.ofList [("light", ["g", "g"])]) = .error .throws ∧
    (∃ r, DirectionUsageRule.make "d" ⟨"1", 0, 10⟩ [⟨"s", .withS, .strict⟩] = .ok r ∧
      staticState r.states = .ok ⟨"s", .withS, .strict⟩) ∧
    SpeedLimitRule.make "s" ⟨"1", 0, 10⟩ .strict 3 2 = .error .throws := by
  refine ⟨⟨⟨"r", [⟨"1", 0, 10⟩], .stopAllowed, .ofList [("s", ⟨"s", .go, []⟩), ("t", ⟨"t", .stop, ["q"]⟩)],
    .ofList [("light", ["g", "h"])]⟩, by decide +kernel, by decide +kernel⟩, by decide +kernel, by decide +kernel,
    ⟨⟨"d", ⟨"1", 0, 10⟩, .ofList [("s", ⟨"s", .withS, .strict⟩)]⟩, by decide +kernel, by decide +kernel⟩,
    by decide +kernel⟩

end Maliput.Props
