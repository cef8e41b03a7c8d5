import Verif.Lemmas.Rulebook

set_option autoImplicit false

/-!
C24: the rulebook behaves as a map of rules with spatial lookup.

The property is false of the code for a rule whose zone lists a lane twice: `RemoveRule` throws
`std::out_of_range` after having removed the rule from the spatial index only
(`rulebook_remove_repeated_lane`).  The theorems therefore assume that no such rule is removed
(`NoRepeatedLaneRemoved`); such rules may be added.
-/
namespace Maliput.Props

open Maliput.Rulebook Maliput.Rulebook.Spec Maliput.Rules

/-- C24: `Rules()` returns exactly the rules added and not removed, each under its id. -/
theorem rulebook_rules_partial (ops : List Op) (hn : NoRepeatedLaneRemoved ops) (k : IdVariant) (r : AnyRule) :
    (k, r) ∈ contents (rules (run ops)) ↔ k = key r ∧ r ∈ live ops := by
  rw [inv_contents (inv_run ops hn) k r]; tauto

/-- C24: at most one rule per id. -/
theorem rulebook_ids_unique (ops : List Op) : ∀ x ∈ live ops, ∀ y ∈ live ops, key x = key y → x = y := by
  induction ops using List.reverseRecOn with
  | nil => simp [live]
  | append_singleton ops op ih =>
    rw [live_snoc]
    rcases op with r | k | _
    · simp only [apply]
      split
      · exact ih
      · next h => exact unique_add ih (fun x hx hk => h ⟨x, hx, hk⟩)
    · exact unique_remove ih k
    · simp [apply]

/-- C24: `FindRules` returns exactly the rules of the book whose zone comes within the tolerance of a
queried range on the same lane. -/
theorem rulebook_findRules_partial (ops : List Op) (hn : NoRepeatedLaneRemoved ops) (hz : ValidZones ops)
    (ranges : List LaneSRange) (hr : ∀ x ∈ ranges, Maliput.Spec.ValidRange x.sRange) (tol : ℚ) (ht : 0 ≤ tol) :
    ∃ q, findRules (run ops) ranges tol = .ok q ∧
      ∀ k r, (k, r) ∈ contents q ↔ k = key r ∧ r ∈ live ops ∧ Applies r ranges tol := by
  have h := inv_run ops hn
  obtain ⟨q, h1, h2⟩ := findRules_ok h (fun r hr => hz r (live_added ops r hr)) hr ht
  refine ⟨q, h1, fun k r => ?_⟩
  rw [h2]
  apply and_congr_right; intro hk
  apply and_congr_right; intro hl
  constructor
  · rintro ⟨x, hx, r', hr', hk', z, hz, hc⟩
    have := h.unique _ hr' _ hl (by rw [hk', hk])
    subst this
    exact ⟨z, hz, x, hx, hc⟩
  · rintro ⟨z, hz, x, hx, hc⟩
    exact ⟨x, hx, r, hl, hk.symm, z, hz, hc⟩

/-- C24: a negative tolerance is rejected. -/
theorem rulebook_findRules_negative (b : Book) (ranges : List LaneSRange) (tol : ℚ) (ht : tol < 0) :
    findRules b ranges tol = .error .throws := by
  unfold findRules
  simp only [throwUnless, ge_iff_le, not_le.2 ht, decide_false, Bool.false_eq_true, if_false]
  rfl

/-- C24: the `Get` functions return the live rule with the given id, and throw `std::out_of_range` if
there is none. -/
theorem rulebook_get_partial (ops : List Op) (hn : NoRepeatedLaneRemoved ops) (id : String) :
    (∀ r, getRightOfWay (run ops) id = .ok r ↔ .rightOfWay r ∈ live ops ∧ r.id = id) ∧
    (∀ r, getSpeedLimit (run ops) id = .ok r ↔ .speedLimit r ∈ live ops ∧ r.id = id) ∧
    (∀ r, getDirectionUsage (run ops) id = .ok r ↔ .directionUsage r ∈ live ops ∧ r.id = id) ∧
    (∀ r, getDiscreteValueRule (run ops) id = .ok r ↔ .discreteValue r ∈ live ops ∧ r.id = id) ∧
    (∀ r, getRangeValueRule (run ops) id = .ok r ↔ .rangeValue r ∈ live ops ∧ r.id = id) := by
  have h := inv_run ops hn
  simp only [getRightOfWay, getSpeedLimit, getDirectionUsage, getDiscreteValueRule, getRangeValueRule, Map.at!_ok]
  exact ⟨h.rightOfWays id, h.speedLimits id, h.directionUsageRules id, h.discreteValueRules id,
    h.rangeValueRules id⟩

/-- C24: a call succeeds unless it adds a known id or removes an unknown one; then it throws and the
book (both indices) is unchanged. -/
theorem rulebook_rejects_partial (ops : List Op) (op : Op) (hn : NoRepeatedLaneRemoved (ops ++ [op])) :
    (Rejected (live ops) op → step (run ops) op = (run ops, .error .throws)) ∧
    (¬ Rejected (live ops) op → (step (run ops) op).2 = .ok ()) := by
  have h := inv_run ops (noRepeat_prefix hn)
  obtain ⟨h1, h2⟩ := step_ok h op (fun k hk => hn ops k [] (by rw [hk]))
  exact ⟨h2, fun hr => (h1 hr).1⟩

/-! A history with all five kinds of rules, a rejected addition, a rejected removal and a removal. -/

def rowRule : RightOfWayRule :=
  ⟨"a", [⟨"1", 0, 10⟩, ⟨"2", 0, 5⟩], .stopAllowed, .ofList [("s", ⟨"s", .go, []⟩)], .ofList [("light", ["group"])]⟩
def spdRule : SpeedLimitRule := ⟨"a", ⟨"1", 5, 20⟩, .strict, 0, 13⟩
def dirRule : DirectionUsageRule := ⟨"a", ⟨"2", 5, 20⟩, .ofList [("s", ⟨"s", .withS, .strict⟩)]⟩
def discRule : DiscreteValueRule := ⟨"a", "t", [⟨"1", 30, 40⟩], []⟩
def rngRule : RangeValueRule := ⟨"b", "t", [⟨"1", 30, 40⟩, ⟨"1", 50, 60⟩], []⟩

def bookOps : List Op :=
  [.add (.rightOfWay rowRule), .add (.speedLimit spdRule), .add (.directionUsage dirRule),
   .add (.discreteValue discRule), .add (.discreteValue { discRule with zone := [] }), .add (.rangeValue rngRule),
   .remove (.rule "c"), .remove (.rightOfWay "a")]

example : live bookOps = [.speedLimit spdRule, .directionUsage dirRule, .discreteValue discRule, .rangeValue rngRule] := by
  decide +kernel

theorem bookOps_ok : NoRepeatedLaneRemoved bookOps ∧ ValidZones bookOps := by
  constructor
  · intro pre k post h r hr hk
    have : ∀ x ∈ [rowRule], .rightOfWay x = r → ((zone r).map (·.laneId)).Nodup := by
      rintro x hx rfl
      rw [List.mem_singleton] at hx
      subst hx; decide
    have hadd : Op.add r ∈ bookOps := by rw [h]; simp [live_added pre r hr]
    have hrem : Op.remove k ∈ bookOps := by rw [h]; simp
    simp only [bookOps, List.mem_cons, List.not_mem_nil, or_false, Op.remove.injEq, reduceCtorEq, false_or,
      Op.add.injEq] at hadd hrem
    rcases hrem with rfl | rfl <;> rcases hadd with rfl | rfl | rfl | rfl | rfl | rfl <;>
      simp_all [key, rowRule, spdRule, dirRule, discRule, rngRule, zone]
  · intro r hr z hz
    simp only [bookOps, List.mem_cons, List.not_mem_nil, or_false, reduceCtorEq, Op.add.injEq] at hr
    rcases hr with rfl | rfl | rfl | rfl | rfl | rfl <;>
      simp [zone, rowRule, spdRule, dirRule, discRule, rngRule] at hz <;>
      (try rcases hz with hz | hz) <;> simp_all [Maliput.Spec.ValidRange]

/-- C24 is false for rules whose zone lists a lane twice: removing the only rule of the book throws,
the rule is still listed, but can no longer be found on its lane. -/
theorem rulebook_remove_repeated_lane :
    let b := run [.add (.rangeValue rngRule)]
    (step b (.remove (.rule "b"))).2 = .error .outOfRange ∧
    getRangeValueRule (step b (.remove (.rule "b"))).1 "b" = .ok rngRule ∧
    (findRules b [⟨"1", 35, 36⟩] 0).map (fun q => q.rangeValueRules.size) = .ok 1 ∧
    (findRules (step b (.remove (.rule "b"))).1 [⟨"1", 35, 36⟩] 0).map (fun q => q.rangeValueRules.size) = .ok 0 := by
  decide +kernel

end Maliput.Props
