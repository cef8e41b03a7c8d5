import Verif.Spec.Rulebook
import Verif.Lemmas.Map
import Verif.Lemmas.Monad
import Verif.Lemmas.Graph
import Verif.Props.Regions
import Mathlib.Tactic.Common
import Mathlib.Data.List.Induction

set_option autoImplicit false

/-! The two indices of the rulebook agree. -/
namespace Maliput.Rulebook

open Maliput.Rules Maliput.Rulebook.Spec

/-- The entries of a lane in the index. -/
def slot (ix : Index) (lane : String) : List (IdVariant × SRange) := (ix lane).getD []

theorem mem_slot_addRange (ix : Index) (id i : IdVariant) (r : LaneSRange) (lane : String) (s : SRange) :
    (i, s) ∈ slot (addRange ix id r) lane ↔ (i, s) ∈ slot ix lane ∨ (i = id ∧ r = ⟨lane, s⟩) := by
  unfold slot addRange
  by_cases h : lane = r.laneId
  · subst h
    simp only [Function.update_self, Option.getD_some, List.mem_append, List.mem_singleton, Prod.mk.injEq]
    cases r
    simp only [LaneSRange.mk.injEq, true_and]
    tauto
  · rw [Function.update_of_ne h]
    constructor
    · exact Or.inl
    · rintro (h' | ⟨-, rfl⟩)
      · exact h'
      · exact absurd rfl h

theorem mem_slot_addRanges (zone : List LaneSRange) : ∀ (ix : Index) (id i : IdVariant) (lane : String) (s : SRange),
    (i, s) ∈ slot (addRanges ix id zone) lane ↔ (i, s) ∈ slot ix lane ∨ (i = id ∧ ⟨lane, s⟩ ∈ zone) := by
  induction zone with
  | nil => intro ix id i lane s; simp [addRanges]
  | cons r zone ih =>
    intro ix id i lane s
    have : addRanges ix id (r :: zone) = addRanges (addRange ix id r) id zone := rfl
    rw [this, ih, mem_slot_addRange, List.mem_cons, @eq_comm _ r]
    tauto

theorem removeRange_ok {ix : Index} {id : IdVariant} {lane : String} (h : ∃ e, e ∈ slot ix lane) :
    ∃ ix', removeRange ix id lane = (ix', .ok ()) ∧
      ∀ l i s, (i, s) ∈ slot ix' l ↔ (i, s) ∈ slot ix l ∧ ¬ (l = lane ∧ i = id) := by
  unfold removeRange
  obtain ⟨e, he⟩ := h
  unfold slot at he
  generalize h : ix lane = o at he ⊢
  rcases o with _ | es
  · simp at he
  · refine ⟨_, rfl, fun l i s => ?_⟩
    unfold slot
    by_cases hl : l = lane
    · subst hl
      rw [Function.update_self, h]
      simp only [true_and, Option.getD_some]
      split
      · next he => 
        simp only [List.isEmpty_iff, List.filter_eq_nil_iff, decide_eq_true_eq] at he
        simp only [Option.getD_none, List.not_mem_nil, false_iff, not_and, not_not]
        intro hm
        have := he _ hm
        simpa using this
      · simp
    · rw [Function.update_of_ne hl]; simp [hl]

theorem removeRanges_ok {id : IdVariant} (zone : List LaneSRange) : ∀ {ix : Index},
    (zone.map (·.laneId)).Nodup → (∀ r ∈ zone, (id, r.sRange) ∈ slot ix r.laneId) →
    ∃ ix', removeRanges ix id zone = (ix', .ok ()) ∧
      ∀ l i s, (i, s) ∈ slot ix' l ↔ (i, s) ∈ slot ix l ∧ ¬ (l ∈ zone.map (·.laneId) ∧ i = id) := by
  induction zone with
  | nil => intro ix _ _; exact ⟨ix, rfl, by simp⟩
  | cons r zone ih =>
    intro ix hn hm
    obtain ⟨ix1, h1, h1'⟩ := removeRange_ok (id := id) ⟨_, hm r (by simp)⟩
    rw [List.map_cons, List.nodup_cons] at hn
    obtain ⟨ix2, h2, h2'⟩ := ih (ix := ix1) hn.2 (by
      intro r' hr'
      rw [h1']
      refine ⟨hm r' (by simp [hr']), ?_⟩
      rintro ⟨h, -⟩
      exact hn.1 (h ▸ List.mem_map_of_mem hr'))
    refine ⟨ix2, by unfold removeRanges; rw [h1]; exact h2, fun l i s => ?_⟩
    rw [h2', h1', List.map_cons, List.mem_cons]
    tauto

/-- The rulebook holds exactly the rules `l`. -/
structure Inv (b : Book) (l : List AnyRule) : Prop where
  rightOfWays : ∀ id r, b.rightOfWays.get? id = some r ↔ .rightOfWay r ∈ l ∧ r.id = id
  speedLimits : ∀ id r, b.speedLimits.get? id = some r ↔ .speedLimit r ∈ l ∧ r.id = id
  directionUsageRules : ∀ id r, b.directionUsageRules.get? id = some r ↔ .directionUsage r ∈ l ∧ r.id = id
  discreteValueRules : ∀ id r, b.discreteValueRules.get? id = some r ↔ .discreteValue r ∈ l ∧ r.id = id
  rangeValueRules : ∀ id r, b.rangeValueRules.get? id = some r ↔ .rangeValue r ∈ l ∧ r.id = id
  unique : ∀ x ∈ l, ∀ y ∈ l, key x = key y → x = y
  index : ∀ lane i s, (i, s) ∈ slot b.index lane ↔ ∃ r ∈ l, key r = i ∧ ⟨lane, s⟩ ∈ zone r

theorem inv_empty : Inv .empty [] := by
  constructor <;> simp [Book.empty, slot]

theorem apply_remove (l : List AnyRule) (k : IdVariant) (x : AnyRule) :
    x ∈ apply l (.remove k) ↔ x ∈ l ∧ key x ≠ k := by simp [apply]

/-- Removing the index entries of a live rule. -/
theorem inv_removeRanges {b : Book} {l : List AnyRule} (h : Inv b l) {r : AnyRule} (hr : r ∈ l)
    (hn : ((zone r).map (·.laneId)).Nodup) :
    ∃ ix, removeRanges b.index (key r) (zone r) = (ix, .ok ()) ∧
      ∀ lane i s, (i, s) ∈ slot ix lane ↔ ∃ x ∈ apply l (.remove (key r)), key x = i ∧ ⟨lane, s⟩ ∈ zone x := by
  obtain ⟨ix, h1, h2⟩ := removeRanges_ok (id := key r) (ix := b.index) (zone r) hn (by
    intro x hx
    rw [h.index]
    exact ⟨r, hr, rfl, hx⟩)
  refine ⟨ix, h1, fun lane i s => ?_⟩
  rw [h2, h.index]
  constructor
  · rintro ⟨⟨x, hx, rfl, hz⟩, hne⟩
    refine ⟨x, (apply_remove ..).2 ⟨hx, ?_⟩, rfl, hz⟩
    intro hk
    have := h.unique x hx r hr hk
    subst this
    exact hne ⟨List.mem_map.2 ⟨_, hz, rfl⟩, rfl⟩
  · rintro ⟨x, hx, rfl, hz⟩
    rw [apply_remove] at hx
    exact ⟨⟨x, hx.1, rfl, hz⟩, fun hne => hx.2 hne.2⟩

theorem unique_remove {l : List AnyRule} (h : ∀ x ∈ l, ∀ y ∈ l, key x = key y → x = y) (k : IdVariant) :
    ∀ x ∈ apply l (.remove k), ∀ y ∈ apply l (.remove k), key x = key y → x = y := by
  intro x hx y hy
  rw [apply_remove] at hx hy
  exact h x hx.1 y hy.1

theorem unique_add {l : List AnyRule} (h : ∀ x ∈ l, ∀ y ∈ l, key x = key y → x = y) {r : AnyRule}
    (hr : ∀ x ∈ l, key x ≠ key r) : ∀ x ∈ l ++ [r], ∀ y ∈ l ++ [r], key x = key y → x = y := by
  intro x hx y hy hk
  rw [List.mem_append, List.mem_singleton] at hx hy
  rcases hx with hx | rfl <;> rcases hy with hy | rfl
  · exact h x hx y hy hk
  · exact absurd hk (hr x hx)
  · exact absurd hk.symm (hr y hy)
  · rfl

theorem index_add {ix : Index} {l : List AnyRule} {r : AnyRule}
    (h : ∀ lane i s, (i, s) ∈ slot ix lane ↔ ∃ r ∈ l, key r = i ∧ ⟨lane, s⟩ ∈ zone r) (lane : String)
    (i : IdVariant) (s : SRange) :
    (i, s) ∈ slot (addRanges ix (key r) (zone r)) lane ↔ ∃ x ∈ l ++ [r], key x = i ∧ ⟨lane, s⟩ ∈ zone x := by
  rw [mem_slot_addRanges, h]
  simp only [List.mem_append, List.mem_singleton]
  constructor
  · rintro (⟨x, hx, h⟩ | ⟨rfl, h⟩)
    · exact ⟨x, Or.inl hx, h⟩
    · exact ⟨r, Or.inr rfl, rfl, h⟩
  · rintro ⟨x, hx | rfl, rfl, h⟩
    · exact Or.inl ⟨x, hx, rfl, h⟩
    · exact Or.inr ⟨rfl, h⟩

/-- What a call on a rulebook holding the rules `l` does. -/
def StepOk (b : Book) (l : List AnyRule) (op : Op) : Prop :=
  (¬ Rejected l op → (step b op).2 = .ok () ∧ Inv (step b op).1 (apply l op)) ∧
  (Rejected l op → step b op = (b, .error .throws))

theorem get_rightOfWays_none {b : Book} {l : List AnyRule} (h : Inv b l) (id : String) :
    b.rightOfWays.get? id = none ↔ ∀ x ∈ l, key x ≠ .rightOfWay id := by
  constructor
  · intro hn x hx hk
    cases x <;> simp only [key, reduceCtorEq, IdVariant.rightOfWay.injEq] at hk
    next r => 
      have := (h.rightOfWays id r).2 ⟨hx, hk⟩
      simp_all
  · intro hn
    rw [Option.eq_none_iff_forall_ne_some]
    intro r hr
    obtain ⟨h1, h2⟩ := (h.rightOfWays id r).1 hr
    exact hn _ h1 (by simp [key, h2])

theorem step_addRightOfWay {b : Book} {l : List AnyRule} (h : Inv b l) (r : RightOfWayRule) :
    StepOk b l (.add (.rightOfWay r)) := by
  have hk := get_rightOfWays_none h r.id
  unfold StepOk
  simp only [Rejected, step, addRightOfWay, apply]
  by_cases hr : ∃ x ∈ l, key x = key (.rightOfWay r)
  · have hne : b.rightOfWays.get? r.id ≠ none := by
      rw [Ne, hk]; push Not; obtain ⟨x, hx, hx'⟩ := hr; exact ⟨x, hx, hx'⟩
    rw [Map.emplace_old hne]
    simp [hr]
  · have hne : b.rightOfWays.get? r.id = none := by
      rw [hk]; intro x hx hx'; exact hr ⟨x, hx, hx'⟩
    obtain ⟨h1, h2⟩ := Map.emplace_new r hne
    simp only [h1, if_true, hr, not_false_eq_true, true_implies, if_false, false_implies, and_true, true_and]
    constructor
    · intro id r'
      rw [h2]
      split
      next he => subst he; simp only [Option.some.injEq, List.mem_append, List.mem_singleton]
                 constructor
                 · rintro rfl; exact ⟨Or.inr rfl, rfl⟩
                 · rintro ⟨hm | hm, hid⟩
                   · exact absurd ⟨_, hm, by simp [key, hid]⟩ hr
                   · cases hm; rfl
      next he => rw [h.rightOfWays]; simp only [List.mem_append, List.mem_singleton]
                 constructor
                 · rintro ⟨a, b⟩; exact ⟨Or.inl a, b⟩
                 · rintro ⟨a | a, b⟩
                   · exact ⟨a, b⟩
                   · cases a; exact absurd b.symm he
    · intro id r'; rw [h.speedLimits]; simp
    · intro id r'; rw [h.directionUsageRules]; simp
    · intro id r'; rw [h.discreteValueRules]; simp
    · intro id r'; rw [h.rangeValueRules]; simp
    · exact unique_add h.unique (fun x hx hx' => hr ⟨x, hx, hx'⟩)
    · exact index_add (r := .rightOfWay r) h.index

theorem step_removeRightOfWay {b : Book} {l : List AnyRule} (h : Inv b l) (id : String)
    (hn : ∀ r ∈ l, key r = .rightOfWay id → ((zone r).map (·.laneId)).Nodup) :
    StepOk b l (.remove (.rightOfWay id)) := by
  have hk := get_rightOfWays_none h id
  unfold StepOk
  simp only [Rejected, step, removeRightOfWay]
  generalize ho : b.rightOfWays.get? id = o
  rcases o with _ | r
  · rw [ho] at hk
    have := hk.1 rfl
    exact ⟨fun hc => absurd this hc, fun _ => rfl⟩
  · obtain ⟨h1, rfl⟩ := (h.rightOfWays id r).1 ho
    obtain ⟨ix, h2, h3⟩ := inv_removeRanges h h1 (hn _ h1 rfl)
    simp only [key, zone] at h2 h3
    simp only [h2, afterIndex]
    refine ⟨fun _ => ⟨trivial, ?_⟩, fun hc => absurd rfl (hc _ h1)⟩
    constructor
    · intro id' r'
      rw [Map.get?_erase, apply_remove]
      split
      next he => simp only [reduceCtorEq, false_iff]; rintro ⟨⟨-, h4⟩, h5⟩; exact h4 (by simp [key, h5, he])
      next he => rw [h.rightOfWays]; simp only [key, ne_eq, IdVariant.rightOfWay.injEq]; grind
    · intro id' r'; rw [h.speedLimits, apply_remove]; simp [key]
    · intro id' r'; rw [h.directionUsageRules, apply_remove]; simp [key]
    · intro id' r'; rw [h.discreteValueRules, apply_remove]; simp [key]
    · intro id' r'; rw [h.rangeValueRules, apply_remove]; simp [key]
    · exact unique_remove h.unique _
    · exact h3

theorem get_speedLimits_none {b : Book} {l : List AnyRule} (h : Inv b l) (id : String) :
    b.speedLimits.get? id = none ↔ ∀ x ∈ l, key x ≠ .speedLimit id := by
  constructor
  · intro hn x hx hk
    cases x <;> simp only [key, reduceCtorEq, IdVariant.speedLimit.injEq] at hk
    next r => 
      have := (h.speedLimits id r).2 ⟨hx, hk⟩
      simp_all
  · intro hn
    rw [Option.eq_none_iff_forall_ne_some]
    intro r hr
    obtain ⟨h1, h2⟩ := (h.speedLimits id r).1 hr
    exact hn _ h1 (by simp [key, h2])

theorem step_addSpeedLimit {b : Book} {l : List AnyRule} (h : Inv b l) (r : SpeedLimitRule) :
    StepOk b l (.add (.speedLimit r)) := by
  have hk := get_speedLimits_none h r.id
  unfold StepOk
  simp only [Rejected, step, addSpeedLimit, apply]
  by_cases hr : ∃ x ∈ l, key x = key (.speedLimit r)
  · have hne : b.speedLimits.get? r.id ≠ none := by
      rw [Ne, hk]; push Not; obtain ⟨x, hx, hx'⟩ := hr; exact ⟨x, hx, hx'⟩
    rw [Map.emplace_old hne]
    simp [hr]
  · have hne : b.speedLimits.get? r.id = none := by
      rw [hk]; intro x hx hx'; exact hr ⟨x, hx, hx'⟩
    obtain ⟨h1, h2⟩ := Map.emplace_new r hne
    simp only [h1, if_true, hr, not_false_eq_true, true_implies, if_false, false_implies, and_true, true_and]
    constructor
    · intro id r'; rw [h.rightOfWays]; simp
    · intro id r'
      rw [h2]
      split
      next he => subst he; simp only [Option.some.injEq, List.mem_append, List.mem_singleton]
                 constructor
                 · rintro rfl; exact ⟨Or.inr rfl, rfl⟩
                 · rintro ⟨hm | hm, hid⟩
                   · exact absurd ⟨_, hm, by simp [key, hid]⟩ hr
                   · cases hm; rfl
      next he => rw [h.speedLimits]; simp only [List.mem_append, List.mem_singleton]
                 constructor
                 · rintro ⟨a, b⟩; exact ⟨Or.inl a, b⟩
                 · rintro ⟨a | a, b⟩
                   · exact ⟨a, b⟩
                   · cases a; exact absurd b.symm he
    · intro id r'; rw [h.directionUsageRules]; simp
    · intro id r'; rw [h.discreteValueRules]; simp
    · intro id r'; rw [h.rangeValueRules]; simp
    · exact unique_add h.unique (fun x hx hx' => hr ⟨x, hx, hx'⟩)
    · exact index_add (r := .speedLimit r) h.index

theorem step_removeSpeedLimit {b : Book} {l : List AnyRule} (h : Inv b l) (id : String)
    (hn : ∀ r ∈ l, key r = .speedLimit id → ((zone r).map (·.laneId)).Nodup) :
    StepOk b l (.remove (.speedLimit id)) := by
  have hk := get_speedLimits_none h id
  unfold StepOk
  simp only [Rejected, step, removeSpeedLimit]
  generalize ho : b.speedLimits.get? id = o
  rcases o with _ | r
  · rw [ho] at hk
    have := hk.1 rfl
    exact ⟨fun hc => absurd this hc, fun _ => rfl⟩
  · obtain ⟨h1, rfl⟩ := (h.speedLimits id r).1 ho
    obtain ⟨ix, h2, h3⟩ := inv_removeRanges h h1 (hn _ h1 rfl)
    simp only [key, zone] at h2 h3
    simp only [h2, afterIndex]
    refine ⟨fun _ => ⟨trivial, ?_⟩, fun hc => absurd rfl (hc _ h1)⟩
    constructor
    · intro id' r'; rw [h.rightOfWays, apply_remove]; simp [key]
    · intro id' r'
      rw [Map.get?_erase, apply_remove]
      split
      next he => simp only [reduceCtorEq, false_iff]; rintro ⟨⟨-, h4⟩, h5⟩; exact h4 (by simp [key, h5, he])
      next he => rw [h.speedLimits]; simp only [key, ne_eq, IdVariant.speedLimit.injEq]; grind
    · intro id' r'; rw [h.directionUsageRules, apply_remove]; simp [key]
    · intro id' r'; rw [h.discreteValueRules, apply_remove]; simp [key]
    · intro id' r'; rw [h.rangeValueRules, apply_remove]; simp [key]
    · exact unique_remove h.unique _
    · exact h3

theorem get_directionUsageRules_none {b : Book} {l : List AnyRule} (h : Inv b l) (id : String) :
    b.directionUsageRules.get? id = none ↔ ∀ x ∈ l, key x ≠ .directionUsage id := by
  constructor
  · intro hn x hx hk
    cases x <;> simp only [key, reduceCtorEq, IdVariant.directionUsage.injEq] at hk
    next r => 
      have := (h.directionUsageRules id r).2 ⟨hx, hk⟩
      simp_all
  · intro hn
    rw [Option.eq_none_iff_forall_ne_some]
    intro r hr
    obtain ⟨h1, h2⟩ := (h.directionUsageRules id r).1 hr
    exact hn _ h1 (by simp [key, h2])

theorem step_addDirectionUsage {b : Book} {l : List AnyRule} (h : Inv b l) (r : DirectionUsageRule) :
    StepOk b l (.add (.directionUsage r)) := by
  have hk := get_directionUsageRules_none h r.id
  unfold StepOk
  simp only [Rejected, step, addDirectionUsage, apply]
  by_cases hr : ∃ x ∈ l, key x = key (.directionUsage r)
  · have hne : b.directionUsageRules.get? r.id ≠ none := by
      rw [Ne, hk]; push Not; obtain ⟨x, hx, hx'⟩ := hr; exact ⟨x, hx, hx'⟩
    rw [Map.emplace_old hne]
    simp [hr]
  · have hne : b.directionUsageRules.get? r.id = none := by
      rw [hk]; intro x hx hx'; exact hr ⟨x, hx, hx'⟩
    obtain ⟨h1, h2⟩ := Map.emplace_new r hne
    simp only [h1, if_true, hr, not_false_eq_true, true_implies, if_false, false_implies, and_true, true_and]
    constructor
    · intro id r'; rw [h.rightOfWays]; simp
    · intro id r'; rw [h.speedLimits]; simp
    · intro id r'
      rw [h2]
      split
      next he => subst he; simp only [Option.some.injEq, List.mem_append, List.mem_singleton]
                 constructor
                 · rintro rfl; exact ⟨Or.inr rfl, rfl⟩
                 · rintro ⟨hm | hm, hid⟩
                   · exact absurd ⟨_, hm, by simp [key, hid]⟩ hr
                   · cases hm; rfl
      next he => rw [h.directionUsageRules]; simp only [List.mem_append, List.mem_singleton]
                 constructor
                 · rintro ⟨a, b⟩; exact ⟨Or.inl a, b⟩
                 · rintro ⟨a | a, b⟩
                   · exact ⟨a, b⟩
                   · cases a; exact absurd b.symm he
    · intro id r'; rw [h.discreteValueRules]; simp
    · intro id r'; rw [h.rangeValueRules]; simp
    · exact unique_add h.unique (fun x hx hx' => hr ⟨x, hx, hx'⟩)
    · exact index_add (r := .directionUsage r) h.index

theorem step_removeDirectionUsage {b : Book} {l : List AnyRule} (h : Inv b l) (id : String)
    (hn : ∀ r ∈ l, key r = .directionUsage id → ((zone r).map (·.laneId)).Nodup) :
    StepOk b l (.remove (.directionUsage id)) := by
  have hk := get_directionUsageRules_none h id
  unfold StepOk
  simp only [Rejected, step, removeDirectionUsage]
  generalize ho : b.directionUsageRules.get? id = o
  rcases o with _ | r
  · rw [ho] at hk
    have := hk.1 rfl
    exact ⟨fun hc => absurd this hc, fun _ => rfl⟩
  · obtain ⟨h1, rfl⟩ := (h.directionUsageRules id r).1 ho
    obtain ⟨ix, h2, h3⟩ := inv_removeRanges h h1 (hn _ h1 rfl)
    simp only [key, zone] at h2 h3
    simp only [h2, afterIndex]
    refine ⟨fun _ => ⟨trivial, ?_⟩, fun hc => absurd rfl (hc _ h1)⟩
    constructor
    · intro id' r'; rw [h.rightOfWays, apply_remove]; simp [key]
    · intro id' r'; rw [h.speedLimits, apply_remove]; simp [key]
    · intro id' r'
      rw [Map.get?_erase, apply_remove]
      split
      next he => simp only [reduceCtorEq, false_iff]; rintro ⟨⟨-, h4⟩, h5⟩; exact h4 (by simp [key, h5, he])
      next he => rw [h.directionUsageRules]; simp only [key, ne_eq, IdVariant.directionUsage.injEq]; grind
    · intro id' r'; rw [h.discreteValueRules, apply_remove]; simp [key]
    · intro id' r'; rw [h.rangeValueRules, apply_remove]; simp [key]
    · exact unique_remove h.unique _
    · exact h3

theorem get_rule_none {b : Book} {l : List AnyRule} (h : Inv b l) (id : String) :
    (b.discreteValueRules.get? id = none ∧ b.rangeValueRules.get? id = none) ↔ ∀ x ∈ l, key x ≠ .rule id := by
  constructor
  · rintro ⟨hn, hn'⟩ x hx hk
    cases x <;> simp only [key, reduceCtorEq, IdVariant.rule.injEq] at hk
    · next r =>
      have := (h.discreteValueRules id r).2 ⟨hx, hk⟩
      simp_all
    · next r =>
      have := (h.rangeValueRules id r).2 ⟨hx, hk⟩
      simp_all
  · intro hn
    constructor
    · rw [Option.eq_none_iff_forall_ne_some]
      intro r hr
      obtain ⟨h1, h2⟩ := (h.discreteValueRules id r).1 hr
      exact hn _ h1 (by simp [key, h2])
    · rw [Option.eq_none_iff_forall_ne_some]
      intro r hr
      obtain ⟨h1, h2⟩ := (h.rangeValueRules id r).1 hr
      exact hn _ h1 (by simp [key, h2])

theorem step_addDiscreteValueRule {b : Book} {l : List AnyRule} (h : Inv b l) (r : DiscreteValueRule) :
    StepOk b l (.add (.discreteValue r)) := by
  have hk := get_rule_none h r.id
  unfold StepOk
  simp only [Rejected, step, addDiscreteValueRule, apply]
  by_cases hr : ∃ x ∈ l, key x = key (.discreteValue r)
  · have hne : ¬ (b.discreteValueRules.get? r.id = none ∧ b.rangeValueRules.get? r.id = none) := by
      rw [hk]; push Not; obtain ⟨x, hx, hx'⟩ := hr; exact ⟨x, hx, hx'⟩
    by_cases ho : b.rangeValueRules.get? r.id = none
    · have hne : b.discreteValueRules.get? r.id ≠ none := by tauto
      rw [Map.emplace_old hne, Map.has_false.2 ho]
      simp [hr]
    · have : b.rangeValueRules.has r.id = true := by
        rw [Map.has, Option.isSome_iff_ne_none]; exact ho
      rw [this]
      simp [hr]
  · have hne : b.discreteValueRules.get? r.id = none ∧ b.rangeValueRules.get? r.id = none := by
      rw [hk]; intro x hx hx'; exact hr ⟨x, hx, hx'⟩
    have hne1 : b.discreteValueRules.get? r.id = none := by tauto
    have hne2 : b.rangeValueRules.has r.id = false := by rw [Map.has_false]; tauto
    obtain ⟨h1, h2⟩ := Map.emplace_new r hne1
    simp only [h1, hne2, if_true, hr, not_false_eq_true, true_implies, if_false, false_implies, and_true, true_and,
      Bool.false_eq_true]
    constructor
    · intro id r'; rw [h.rightOfWays]; simp
    · intro id r'; rw [h.speedLimits]; simp
    · intro id r'; rw [h.directionUsageRules]; simp
    · intro id r'
      rw [h2]
      split
      next he => subst he; simp only [Option.some.injEq, List.mem_append, List.mem_singleton]
                 constructor
                 · rintro rfl; exact ⟨Or.inr rfl, rfl⟩
                 · rintro ⟨hm | hm, hid⟩
                   · exact absurd ⟨_, hm, by simp [key, hid]⟩ hr
                   · cases hm; rfl
      next he => rw [h.discreteValueRules]; simp only [List.mem_append, List.mem_singleton]
                 constructor
                 · rintro ⟨a, b⟩; exact ⟨Or.inl a, b⟩
                 · rintro ⟨a | a, b⟩
                   · exact ⟨a, b⟩
                   · cases a; exact absurd b.symm he
    · intro id r'; rw [h.rangeValueRules]; simp
    · exact unique_add h.unique (fun x hx hx' => hr ⟨x, hx, hx'⟩)
    · exact index_add (r := .discreteValue r) h.index

theorem step_addRangeValueRule {b : Book} {l : List AnyRule} (h : Inv b l) (r : RangeValueRule) :
    StepOk b l (.add (.rangeValue r)) := by
  have hk := get_rule_none h r.id
  unfold StepOk
  simp only [Rejected, step, addRangeValueRule, apply]
  by_cases hr : ∃ x ∈ l, key x = key (.rangeValue r)
  · have hne : ¬ (b.discreteValueRules.get? r.id = none ∧ b.rangeValueRules.get? r.id = none) := by
      rw [hk]; push Not; obtain ⟨x, hx, hx'⟩ := hr; exact ⟨x, hx, hx'⟩
    by_cases ho : b.discreteValueRules.get? r.id = none
    · have hne : b.rangeValueRules.get? r.id ≠ none := by tauto
      rw [Map.emplace_old hne, Map.has_false.2 ho]
      simp [hr]
    · have : b.discreteValueRules.has r.id = true := by
        rw [Map.has, Option.isSome_iff_ne_none]; exact ho
      rw [this]
      simp [hr]
  · have hne : b.discreteValueRules.get? r.id = none ∧ b.rangeValueRules.get? r.id = none := by
      rw [hk]; intro x hx hx'; exact hr ⟨x, hx, hx'⟩
    have hne1 : b.rangeValueRules.get? r.id = none := by tauto
    have hne2 : b.discreteValueRules.has r.id = false := by rw [Map.has_false]; tauto
    obtain ⟨h1, h2⟩ := Map.emplace_new r hne1
    simp only [h1, hne2, if_true, hr, not_false_eq_true, true_implies, if_false, false_implies, and_true, true_and,
      Bool.false_eq_true]
    constructor
    · intro id r'; rw [h.rightOfWays]; simp
    · intro id r'; rw [h.speedLimits]; simp
    · intro id r'; rw [h.directionUsageRules]; simp
    · intro id r'; rw [h.discreteValueRules]; simp
    · intro id r'
      rw [h2]
      split
      next he => subst he; simp only [Option.some.injEq, List.mem_append, List.mem_singleton]
                 constructor
                 · rintro rfl; exact ⟨Or.inr rfl, rfl⟩
                 · rintro ⟨hm | hm, hid⟩
                   · exact absurd ⟨_, hm, by simp [key, hid]⟩ hr
                   · cases hm; rfl
      next he => rw [h.rangeValueRules]; simp only [List.mem_append, List.mem_singleton]
                 constructor
                 · rintro ⟨a, b⟩; exact ⟨Or.inl a, b⟩
                 · rintro ⟨a | a, b⟩
                   · exact ⟨a, b⟩
                   · cases a; exact absurd b.symm he
    · exact unique_add h.unique (fun x hx hx' => hr ⟨x, hx, hx'⟩)
    · exact index_add (r := .rangeValue r) h.index

theorem step_removeRule {b : Book} {l : List AnyRule} (h : Inv b l) (id : String)
    (hn : ∀ r ∈ l, key r = .rule id → ((zone r).map (·.laneId)).Nodup) :
    StepOk b l (.remove (.rule id)) := by
  have hk := get_rule_none h id
  unfold StepOk
  simp only [Rejected, step, removeRule]
  generalize ho : b.discreteValueRules.get? id = o
  rcases o with _ | r
  · rw [ho] at hk
    generalize ho : b.rangeValueRules.get? id = o
    rcases o with _ | r
    · rw [ho] at hk
      have := hk.1 ⟨rfl, rfl⟩
      exact ⟨fun hc => absurd this hc, fun _ => rfl⟩
    · clear hk
      obtain ⟨h1, rfl⟩ := (h.rangeValueRules id r).1 ho
      obtain ⟨ix, h2, h3⟩ := inv_removeRanges h h1 (hn _ h1 rfl)
      simp only [key, zone] at h2 h3
      simp only [h2, afterIndex]
      refine ⟨fun _ => ⟨trivial, ?_⟩, fun hc => absurd rfl (hc _ h1)⟩
      constructor
      · intro id' r'; rw [h.rightOfWays, apply_remove]; simp [key]
      · intro id' r'; rw [h.speedLimits, apply_remove]; simp [key]
      · intro id' r'; rw [h.directionUsageRules, apply_remove]; simp [key]
      · intro id' r'
        rw [h.discreteValueRules, apply_remove]
        constructor
        · rintro ⟨h5, h6⟩
          refine ⟨⟨h5, fun h7 => ?_⟩, h6⟩
          cases h.unique _ h5 _ h1 (by simpa [key] using h7)
        · rintro ⟨⟨h5, -⟩, h6⟩; exact ⟨h5, h6⟩
      · intro id' r'
        rw [Map.get?_erase, apply_remove]
        split
        next he => simp only [reduceCtorEq, false_iff]; rintro ⟨⟨-, h4⟩, h5⟩; exact h4 (by simp [key, h5, he])
        next he => rw [h.rangeValueRules]; simp only [key, ne_eq, IdVariant.rule.injEq]; grind
      · exact unique_remove h.unique _
      · exact h3
  · clear hk
    obtain ⟨h1, rfl⟩ := (h.discreteValueRules id r).1 ho
    obtain ⟨ix, h2, h3⟩ := inv_removeRanges h h1 (hn _ h1 rfl)
    simp only [key, zone] at h2 h3
    simp only [h2, afterIndex]
    refine ⟨fun _ => ⟨trivial, ?_⟩, fun hc => absurd rfl (hc _ h1)⟩
    constructor
    · intro id' r'; rw [h.rightOfWays, apply_remove]; simp [key]
    · intro id' r'; rw [h.speedLimits, apply_remove]; simp [key]
    · intro id' r'; rw [h.directionUsageRules, apply_remove]; simp [key]
    · intro id' r'
      rw [Map.get?_erase, apply_remove]
      split
      next he => simp only [reduceCtorEq, false_iff]; rintro ⟨⟨-, h4⟩, h5⟩; exact h4 (by simp [key, h5, he])
      next he => rw [h.discreteValueRules]; simp only [key, ne_eq, IdVariant.rule.injEq]; grind
    · intro id' r'
      rw [h.rangeValueRules, apply_remove]
      constructor
      · rintro ⟨h5, h6⟩
        refine ⟨⟨h5, fun h7 => ?_⟩, h6⟩
        cases h.unique _ h5 _ h1 (by simpa [key] using h7)
      · rintro ⟨⟨h5, -⟩, h6⟩; exact ⟨h5, h6⟩
    · exact unique_remove h.unique _
    · exact h3

theorem step_ok {b : Book} {l : List AnyRule} (h : Inv b l) (op : Op)
    (hn : ∀ k, op = .remove k → ∀ r ∈ l, key r = k → ((zone r).map (·.laneId)).Nodup) : StepOk b l op := by
  rcases op with r | k | _
  · rcases r with r | r | r | r | r
    · exact step_addRightOfWay h r
    · exact step_addSpeedLimit h r
    · exact step_addDirectionUsage h r
    · exact step_addDiscreteValueRule h r
    · exact step_addRangeValueRule h r
  · have := hn k rfl
    rcases k with k | k | k | k
    · exact step_removeRightOfWay h k this
    · exact step_removeSpeedLimit h k this
    · exact step_removeDirectionUsage h k this
    · exact step_removeRule h k this
  · exact ⟨fun _ => ⟨rfl, inv_empty⟩, fun hc => hc.elim⟩

theorem apply_rejected {l : List AnyRule} {op : Op} (h : Rejected l op) : apply l op = l := by
  rcases op with r | k | _
  · simp only [Rejected] at h; simp [apply, h]
  · simp only [Rejected] at h
    simp only [apply, List.filter_eq_self, decide_eq_true_eq]; exact h
  · exact h.elim

theorem inv_step {b : Book} {l : List AnyRule} (h : Inv b l) (op : Op)
    (hn : ∀ k, op = .remove k → ∀ r ∈ l, key r = k → ((zone r).map (·.laneId)).Nodup) :
    Inv (step b op).1 (apply l op) := by
  obtain ⟨h1, h2⟩ := step_ok h op hn
  by_cases hr : Rejected l op
  · rw [h2 hr, apply_rejected hr]; exact h
  · exact (h1 hr).2

theorem noRepeat_prefix {ops : List Op} {op : Op} (h : NoRepeatedLaneRemoved (ops ++ [op])) :
    NoRepeatedLaneRemoved ops := by
  intro pre k post he
  exact h pre k (post ++ [op]) (by rw [he]; simp)

theorem live_snoc (ops : List Op) (op : Op) : live (ops ++ [op]) = apply (live ops) op := by
  simp [live]

theorem run_snoc (ops : List Op) (op : Op) : run (ops ++ [op]) = (step (run ops) op).1 := by
  simp [run]

theorem inv_run (ops : List Op) : NoRepeatedLaneRemoved ops → Inv (run ops) (live ops) := by
  induction ops using List.reverseRecOn with
  | nil => intro _; exact inv_empty
  | append_singleton ops op ih =>
    intro h
    rw [run_snoc, live_snoc]
    apply inv_step (ih (noRepeat_prefix h))
    intro k hk
    exact h ops k [] (by rw [hk])

theorem live_added (ops : List Op) : ∀ r ∈ live ops, Op.add r ∈ ops := by
  induction ops using List.reverseRecOn with
  | nil => simp [live]
  | append_singleton ops op ih =>
    intro r hr
    rw [live_snoc] at hr
    rw [List.mem_append, List.mem_singleton]
    rcases op with x | k | _
    · simp only [apply] at hr
      split at hr
      · exact Or.inl (ih r hr)
      · rw [List.mem_append, List.mem_singleton] at hr
        rcases hr with hr | rfl
        · exact Or.inl (ih r hr)
        · exact Or.inr rfl
    · rw [apply_remove] at hr; exact Or.inl (ih r hr.1)
    · simp [apply] at hr

/-- A query result holding the live rules whose id satisfies `S`. -/
def Holds (l : List AnyRule) (q : QueryResults) (S : IdVariant → Prop) : Prop :=
  ∀ k r, (k, r) ∈ contents q ↔ k = key r ∧ r ∈ l ∧ S k

theorem mem_contents (q : QueryResults) (k : IdVariant) (r : AnyRule) : (k, r) ∈ contents q ↔
    match r with
    | .rightOfWay r => ∃ id, k = .rightOfWay id ∧ q.rightOfWay.get? id = some r
    | .speedLimit r => ∃ id, k = .speedLimit id ∧ q.speedLimit.get? id = some r
    | .directionUsage r => ∃ id, k = .directionUsage id ∧ q.directionUsage.get? id = some r
    | .discreteValue r => ∃ id, k = .rule id ∧ q.discreteValueRules.get? id = some r
    | .rangeValue r => ∃ id, k = .rule id ∧ q.rangeValueRules.get? id = some r := by
  simp only [contents, List.mem_append, List.mem_map, Prod.mk.injEq, Map.get?_eq_some]
  rcases r with r | r | r | r | r <;>
    simp only [reduceCtorEq, and_false, exists_false, or_false, false_or, AnyRule.rightOfWay.injEq,
      AnyRule.speedLimit.injEq, AnyRule.directionUsage.injEq, AnyRule.discreteValue.injEq,
      AnyRule.rangeValue.injEq] <;>
    (constructor
     · rintro ⟨⟨a, b⟩, h, rfl, rfl⟩; exact ⟨a, rfl, h⟩
     · rintro ⟨a, rfl, h⟩; exact ⟨_, h, rfl, rfl⟩)

theorem inv_contents {b : Book} {l : List AnyRule} (h : Inv b l) : Holds l (rules b) (fun _ => True) := by
  intro k r
  rw [mem_contents]
  rcases r with r | r | r | r | r <;> simp only [rules, key]
  · simp only [h.rightOfWays]; constructor <;> [(rintro ⟨id, rfl, h, rfl⟩; exact ⟨rfl, h, trivial⟩); (rintro ⟨rfl, h, -⟩; exact ⟨_, rfl, h, rfl⟩)]
  · simp only [h.speedLimits]; constructor <;> [(rintro ⟨id, rfl, h, rfl⟩; exact ⟨rfl, h, trivial⟩); (rintro ⟨rfl, h, -⟩; exact ⟨_, rfl, h, rfl⟩)]
  · simp only [h.directionUsageRules]; constructor <;> [(rintro ⟨id, rfl, h, rfl⟩; exact ⟨rfl, h, trivial⟩); (rintro ⟨rfl, h, -⟩; exact ⟨_, rfl, h, rfl⟩)]
  · simp only [h.discreteValueRules]; constructor <;> [(rintro ⟨id, rfl, h, rfl⟩; exact ⟨rfl, h, trivial⟩); (rintro ⟨rfl, h, -⟩; exact ⟨_, rfl, h, rfl⟩)]
  · simp only [h.rangeValueRules]; constructor <;> [(rintro ⟨id, rfl, h, rfl⟩; exact ⟨rfl, h, trivial⟩); (rintro ⟨rfl, h, -⟩; exact ⟨_, rfl, h, rfl⟩)]

/-- `emplace` of the rule with the right id adds exactly that entry. -/
theorem emplace_some {α : Type} (m : Map String α) (id : String) (v : α) (h : ∀ w, m.get? id = some w → w = v) (id' : String)
    (w : α) : (m.emplace id v).1.get? id' = some w ↔ m.get? id' = some w ∨ (id' = id ∧ w = v) := by
  rw [Map.get?_emplace]
  by_cases hn : m.get? id = none
  · by_cases hi : id' = id
    · subst hi; simp [hn, eq_comm]
    · simp [hi]
  · simp only [hn, and_false, if_false]
    constructor
    · exact Or.inl
    · rintro (h' | ⟨rfl, rfl⟩)
      · exact h'
      · obtain ⟨x, hx⟩ := Option.ne_none_iff_exists'.1 hn
        rw [hx, h x hx]

theorem collect_ok {b : Book} {l : List AnyRule} (h : Inv b l) {q : QueryResults} {S : IdVariant → Prop}
    (hq : Holds l q S) {r : AnyRule} (hr : r ∈ l) :
    ∃ q', collect b q (key r) = .ok q' ∧ Holds l q' (fun k => S k ∨ k = key r) := by
  have hold : ∀ r', (key r, r') ∈ contents q → r' = r := by
    intro r' h'
    obtain ⟨h1, h2, -⟩ := (hq _ _).1 h'
    exact h.unique _ h2 _ hr h1.symm
  have goal : ∀ q', (∀ k x, (k, x) ∈ contents q' ↔ (k, x) ∈ contents q ∨ (k = key r ∧ x = r)) →
      Holds l q' (fun k => S k ∨ k = key r) := by
    intro q' hq' k x
    rw [hq', hq]
    constructor
    · rintro (⟨h1, h2, h3⟩ | ⟨rfl, rfl⟩)
      · exact ⟨h1, h2, Or.inl h3⟩
      · exact ⟨rfl, hr, Or.inr rfl⟩
    · rintro ⟨h1, h2, h3 | h3⟩
      · exact Or.inl ⟨h1, h2, h3⟩
      · exact Or.inr ⟨h3, h.unique _ h2 _ hr (h1 ▸ h3)⟩
  rcases r with r | r | r | r | r
  · have hg := (h.rightOfWays r.id r).2 ⟨hr, rfl⟩
    refine ⟨{ q with rightOfWay := (q.rightOfWay.emplace r.id r).1 }, by
      simp only [collect, key, bind_ok, Map.at!_ok, pure_ok]; exact ⟨_, hg, rfl⟩, goal _ ?_⟩
    have := emplace_some q.rightOfWay r.id r (fun w hw => by
      have := hold (.rightOfWay w) ((mem_contents ..).2 ⟨_, rfl, hw⟩); simpa using this)
    intro k x
    rw [mem_contents, mem_contents]
    cases x <;> simp only [key, reduceCtorEq, and_false, or_false, this, AnyRule.rightOfWay.injEq]
    grind
  · have hg := (h.speedLimits r.id r).2 ⟨hr, rfl⟩
    refine ⟨{ q with speedLimit := (q.speedLimit.emplace r.id r).1 }, by
      simp only [collect, key, bind_ok, Map.at!_ok, pure_ok]; exact ⟨_, hg, rfl⟩, goal _ ?_⟩
    have := emplace_some q.speedLimit r.id r (fun w hw => by
      have := hold (.speedLimit w) ((mem_contents ..).2 ⟨_, rfl, hw⟩); simpa using this)
    intro k x
    rw [mem_contents, mem_contents]
    cases x <;> simp only [key, reduceCtorEq, and_false, or_false, this, AnyRule.speedLimit.injEq]
    grind
  · have hg := (h.directionUsageRules r.id r).2 ⟨hr, rfl⟩
    refine ⟨{ q with directionUsage := (q.directionUsage.emplace r.id r).1 }, by
      simp only [collect, key, bind_ok, Map.at!_ok, pure_ok]; exact ⟨_, hg, rfl⟩, goal _ ?_⟩
    have := emplace_some q.directionUsage r.id r (fun w hw => by
      have := hold (.directionUsage w) ((mem_contents ..).2 ⟨_, rfl, hw⟩); simpa using this)
    intro k x
    rw [mem_contents, mem_contents]
    cases x <;> simp only [key, reduceCtorEq, and_false, or_false, this, AnyRule.directionUsage.injEq]
    grind
  · have hg := (h.discreteValueRules r.id r).2 ⟨hr, rfl⟩
    have hg' : b.rangeValueRules.get? r.id = none := by
      rw [Option.eq_none_iff_forall_ne_some]
      intro w hw
      obtain ⟨h1, h2⟩ := (h.rangeValueRules _ _).1 hw
      cases h.unique _ h1 _ hr (by simp [key, h2])
    refine ⟨{ q with discreteValueRules := (q.discreteValueRules.emplace r.id r).1 }, by
      simp only [collect, key, hg, hg']; rfl, goal _ ?_⟩
    have := emplace_some q.discreteValueRules r.id r (fun w hw => by
      have := hold (.discreteValue w) ((mem_contents ..).2 ⟨_, rfl, hw⟩); simpa using this)
    intro k x
    rw [mem_contents, mem_contents]
    cases x <;> simp only [key, reduceCtorEq, and_false, or_false, this, AnyRule.discreteValue.injEq]
    grind
  · have hg := (h.rangeValueRules r.id r).2 ⟨hr, rfl⟩
    refine ⟨{ q with rangeValueRules := (q.rangeValueRules.emplace r.id r).1 }, by
      simp only [collect, key, hg]; rfl, goal _ ?_⟩
    have := emplace_some q.rangeValueRules r.id r (fun w hw => by
      have := hold (.rangeValue w) ((mem_contents ..).2 ⟨_, rfl, hw⟩); simpa using this)
    intro k x
    rw [mem_contents, mem_contents]
    cases x <;> simp only [key, reduceCtorEq, and_false, or_false, this, AnyRule.rangeValue.injEq]
    grind

/-- A loop that accumulates ids. -/
theorem foldlM_holds {α : Type} {l : List AnyRule} {f : QueryResults → α → Except Err QueryResults}
    (P : α → IdVariant → Prop) (xs : List α)
    (h : ∀ x ∈ xs, ∀ q S, Holds l q S → ∃ q', f q x = .ok q' ∧ Holds l q' (fun k => S k ∨ P x k)) :
    ∀ q S, Holds l q S → ∃ q', xs.foldlM f q = .ok q' ∧ Holds l q' (fun k => S k ∨ ∃ x ∈ xs, P x k) := by
  induction xs with
  | nil => intro q S hq; exact ⟨q, rfl, by simpa using hq⟩
  | cons x xs ih =>
    intro q S hq
    obtain ⟨q1, h1, h1'⟩ := h x (by simp) q S hq
    obtain ⟨q2, h2, h2'⟩ := ih (fun y hy => h y (by simp [hy])) q1 _ h1'
    refine ⟨q2, by rw [List.foldlM_cons, h1]; exact h2, ?_⟩
    intro k r
    rw [h2']
    simp only [List.mem_cons, exists_eq_or_imp]
    tauto

theorem findRules_ok {b : Book} {l : List AnyRule} (h : Inv b l)
    (hz : ∀ r ∈ l, ∀ z ∈ zone r, Maliput.Spec.ValidRange z.sRange) {ranges : List LaneSRange}
    (hr : ∀ x ∈ ranges, Maliput.Spec.ValidRange x.sRange) {tol : ℚ} (ht : 0 ≤ tol) :
    ∃ q, findRules b ranges tol = .ok q ∧
      Holds l q (fun k => ∃ x ∈ ranges, ∃ r ∈ l, key r = k ∧ ∃ z ∈ zone r, Maliput.Spec.CloseLaneRanges z x tol) := by
  have key1 : ∀ x ∈ ranges, ∀ q S, Holds l q S → ∃ q', (do
      let ids ← indexFind b.index x tol
      ids.foldlM (collect b) q) = .ok q' ∧ Holds l q' (fun k => S k ∨
        ∃ r ∈ l, key r = k ∧ ∃ z ∈ zone r, Maliput.Spec.CloseLaneRanges z x tol) := by
    intro x hx q S hq
    obtain ⟨es, he, he'⟩ := RouteGraph.filterM_spec (fun e : IdVariant × SRange => e.2.intersects x.sRange tol)
      (fun e => Maliput.Spec.CloseRanges e.2 x.sRange tol) (slot b.index x.laneId) (by
        rintro ⟨i, s⟩ hm
        obtain ⟨r, hr1, -, hr2⟩ := (h.index _ _ _).1 hm
        exact Props.srange_intersects_iff s x.sRange (hz r hr1 _ hr2) (hr x hx) tol ht)
    have hids : indexFind b.index x tol = .ok (es.map (·.1)) := by
      unfold indexFind
      unfold slot at he
      rw [he]; rfl
    obtain ⟨q', h1, h2⟩ := foldlM_holds (l := l) (f := collect b) (fun i k => k = i) (es.map (·.1)) (by
      intro i hi q S hq
      rw [List.mem_map] at hi
      obtain ⟨⟨i', s⟩, hm, rfl⟩ := hi
      obtain ⟨r, hr1, hr2, -⟩ := (h.index _ _ _).1 ((he' _).1 hm).1
      dsimp only
      rw [← hr2]
      exact collect_ok h hq hr1) q S hq
    refine ⟨q', by rw [hids]; exact h1, ?_⟩
    intro k r
    rw [h2]
    apply and_congr_right; intro _
    apply and_congr_right; intro _
    apply or_congr_right
    simp only [List.mem_map, Prod.exists, exists_and_right, exists_eq_right, he', h.index]
    constructor
    · rintro ⟨i, ⟨s, ⟨r', hr', rfl, hz'⟩, hc⟩, rfl⟩
      exact ⟨r', hr', rfl, _, hz', rfl, hc⟩
    · rintro ⟨r', hr', rfl, ⟨lane, s⟩, hz', hl, hc⟩
      dsimp only at hl hc
      subst hl
      exact ⟨_, ⟨s, ⟨r', hr', rfl, hz'⟩, hc⟩, rfl⟩
  obtain ⟨q, h1, h2⟩ := foldlM_holds (l := l) _ ranges key1 .empty (fun _ => False) (by
    intro k r; simp [contents, QueryResults.empty, Map.empty])
  refine ⟨q, ?_, by simpa using h2⟩
  unfold findRules
  simp only [throwUnless, ge_iff_le, ht, decide_true, if_true]
  exact h1

end Maliput.Rulebook
