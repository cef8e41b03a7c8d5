import Mathlib.Data.Fin.VecNotation
import Verif.Lemmas.Compare
import Verif.Props.Rules
import Verif.Props.GeometryBase

set_option autoImplicit false

/-! C72-C74: the comparison functions. -/
namespace Maliput.Props

open Maliput.Compare Maliput.Compare.Spec Maliput.Rules Maliput.Phases Maliput.TrafficLights

/-! ### C72 -/

/-- C72: the collector counts the results and the failures, and has a message exactly if one of the results
has one. -/
theorem collector_counts (l : List Bool) : let c := l.foldl Collector.add ⟨0, 0⟩
    c.count = l.length ∧ c.failed = l.count true ∧ (c.result = true ↔ true ∈ l) := by
  have h : ∀ (l : List Bool) (c : Collector), l.foldl Collector.add c = ⟨c.count + l.length, c.failed + l.count true⟩ := by
    intro l
    induction l with
    | nil => intro c; rfl
    | cons b l ih => intro c; rw [List.foldl_cons, ih]; cases b <;> simp [Collector.add] <;> omega
  simp only [h, Nat.zero_add, Collector.result, gt_iff_lt, decide_eq_true_eq, List.count_pos_iff, true_and]

/-- C72: routes and zones. -/
theorem compare_route (a b : List LaneSRange) : ReportsUnless (isEqualLaneSRoute a b) (SameRoute a b) :=
  reports_route a b

/-- C72: ends of lanes. -/
theorem compare_laneEnd (a b : LaneEnd) : ReportsUnless (isEqualLaneEnd a b) (a = b) :=
  (reports_collect (.cons (reports_isEqual _ _) (.cons (reports_isEqual _ _) .nil))).congr (by
    cases a; cases b; simp)

/-- C72: `IsLaneEndEqual` is the same comparison for ends of lanes that exist. -/
theorem compare_isLaneEndEqual_partial (a b : LaneEnd) (ha : a.lane ≠ none) (hb : b.lane ≠ none) :
    ReportsUnless (isLaneEndEqual a b) (a = b) := by
  obtain ⟨l, s⟩ := a
  obtain ⟨l', s'⟩ := b
  unfold isLaneEndEqual
  by_cases h : l = l'
  · subst h
    by_cases h' : s = s'
    · exact ⟨false, by simp [h'], by simp [h']⟩
    · exact ⟨true, by simp [h'], by simp [h']⟩
  · exact ⟨true, by rw [if_pos h, if_neg (by simpa using ⟨ha, hb⟩)], by simp [h]⟩

/-- C72, negative: `IsLaneEndEqual` dereferences a null lane while it writes the message. -/
theorem compare_isLaneEndEqual_null : isLaneEndEqual ⟨some 0, true⟩ ⟨none, true⟩ = .error .ub := by decide

/-- C72: speed limits. -/
theorem compare_speedLimit (a b : SpeedLimitRule) : ReportsUnless (isEqualSpeedLimitRule a b)
    (a.id = b.id ∧ SameRange a.zone b.zone ∧ a.severity = b.severity ∧ Near a.min b.min ∧ Near a.max b.max) :=
  (reports_collect (.cons (reports_isEqual _ _) (.cons (reports_laneSRange _ _) (.cons (reports_isEqual _ _)
    (.cons (reports_number _ _) (.cons (reports_number _ _) .nil)))))).congr (by simp; tauto)

/-- C72: direction usage rules. -/
theorem compare_directionUsage {idA idB : String} {za zb : LaneSRange} {la lb : List DirectionState}
    {a b : DirectionUsageRule} (ha : DirectionUsageRule.make idA za la = .ok a)
    (hb : DirectionUsageRule.make idB zb lb = .ok b) : ReportsUnless (isEqualDirectionUsageRule a b)
    (a.id = b.id ∧ SameRange a.zone b.zone ∧ SameMap a.states b.states) := by
  have hka : Keyed DirectionState.id a.states := by
    simp only [DirectionUsageRule.make, bind_ok, pure_ok] at ha
    obtain ⟨_, _, m, hm, rfl⟩ := ha
    exact indexStates_keyed (fun k s h => by simp at h) hm
  have hkb : Keyed DirectionState.id b.states := by
    simp only [DirectionUsageRule.make, bind_ok, pure_ok] at hb
    obtain ⟨_, _, m, hm, rfl⟩ := hb
    exact indexStates_keyed (fun k s h => by simp at h) hm
  unfold isEqualDirectionUsageRule
  have h4 : List.Forall₂ ReportsUnless [isEqual a.id b.id, isEqualLaneSRange a.zone b.zone,
      isEqualStates isEqualDirectionState a.states b.states,
      isEqual (decide (a.states.size = 1)) (decide (b.states.size = 1))]
      [a.id = b.id, SameRange a.zone b.zone, SameMap a.states b.states,
        decide (a.states.size = 1) = decide (b.states.size = 1)] :=
    .cons (reports_isEqual _ _) (.cons (reports_laneSRange _ _) (.cons (reports_states reports_direction _ _)
      (.cons (reports_isEqual _ _) .nil)))
  split
  · rename_i h
    refine Spec.ReportsUnless.congr (reports_collect (forall₂_append h4
      (.cons (reports_static reports_direction hka hkb h.1 h.2) .nil))) ?_
    simp only [all_append, all_cons, all_nil, and_true]
    exact ⟨fun h => ⟨h.1.1, h.1.2.1, h.1.2.2.1⟩, fun h => ⟨⟨h.1, h.2.1, h.2.2, by rw [size_of_same h.2.2]⟩, h.2.2⟩⟩
  · refine Spec.ReportsUnless.congr (reports_collect (forall₂_append h4 .nil)) ?_
    simp only [all_append, all_cons, all_nil, and_true]
    exact ⟨fun h => ⟨h.1, h.2.1, h.2.2.1⟩, fun h => ⟨h.1, h.2.1, h.2.2, by rw [size_of_same h.2.2]⟩⟩

/-- C72: range value rules; ranges are compared with their `==`. -/
theorem compare_rangeValueRule (a b : RangeValueRule) : ReportsUnless (isEqualRangeValueRule a b)
    (a.id = b.id ∧ a.typeId = b.typeId ∧ SameRoute a.zone b.zone ∧
      List.Forall₂ (fun x y => x.eq y = true) a.states b.states) :=
  (reports_collect (.cons (reports_isEqual _ _) (.cons (reports_isEqual _ _) (.cons (reports_route _ _)
    (.cons (reports_vector (r := fun x y : Range => x.eq y = true) (fun x y => ⟨_, rfl, by simp⟩) _ _) .nil))))).congr
    (by simp)

/-- C72, discrete value rules: no difference is reported exactly if the number of values is the same and every
value of the first rule is, by `==`, among the values of the second one. -/
theorem compare_discreteValueRule_partial (a b : DiscreteValueRule) : ReportsUnless (isEqualDiscreteValueRule a b)
    (a.id = b.id ∧ a.typeId = b.typeId ∧ SameRoute a.zone b.zone ∧ a.states.length = b.states.length ∧
      ∀ v ∈ a.states, ∃ w ∈ b.states, w.eq v = true) := by
  have hv : ReportsUnless (isEqualDiscreteValues a.states b.states)
      (a.states.length = b.states.length ∧ ∀ v ∈ a.states, ∃ w ∈ b.states, w.eq v = true) := by
    refine Spec.ReportsUnless.congr (reports_collect (.cons (reports_isEqual _ _) (forall₂_map
      (p := fun v => (b.states.any fun w => w.eq v) = true) fun v _ => reports_isEqual _ _))) ?_
    simp only [all_cons, all_map, List.any_eq_true]
    refine and_congr_right fun h => ?_
    rw [h, Nat.min_self, ← h, List.take_length]
  exact Spec.ReportsUnless.congr (reports_collect (.cons (reports_isEqual _ _) (.cons (reports_isEqual _ _)
    (.cons (reports_route _ _) (.cons hv .nil))))) (by simp)

theorem discreteValue_refl (v : DiscreteValue) : v.eq v = true :=
  (discreteValueEq_iff v v).2 ⟨rfl, stateEq_refl v.toState⟩

/-- C72: for two discrete value rules whose values have no related rules or ids, no difference is reported
exactly if the rules have the same values, in any order. -/
theorem compare_discreteValueRule_plain {idA idB tA tB : String} {zA zB : List LaneSRange}
    {lA lB : List DiscreteValue} {a b : DiscreteValueRule} (ha : DiscreteValueRule.make idA tA zA lA = .ok a)
    (hb : DiscreteValueRule.make idB tB zB lB = .ok b)
    (plainA : ∀ v ∈ lA, v.relatedRules = .empty ∧ v.relatedUniqueIds = .empty)
    (plainB : ∀ v ∈ lB, v.relatedRules = .empty ∧ v.relatedUniqueIds = .empty) :
    ReportsUnless (isEqualDiscreteValueRule a b)
      (a.id = b.id ∧ a.typeId = b.typeId ∧ SameRoute a.zone b.zone ∧ a.states.Perm b.states) := by
  have ha' := (discreteValueRule_make_iff _ _ _ _ _).1 ha
  have hb' := (discreteValueRule_make_iff _ _ _ _ _).1 hb
  obtain ⟨rfl, _, _, hda⟩ := ha'
  obtain ⟨rfl, _, _, hdb⟩ := hb'
  refine (compare_discreteValueRule_partial _ _).congr ?_
  refine and_congr_right fun _ => and_congr_right fun _ => and_congr_right fun _ => ?_
  have heq : ∀ v w : DiscreteValue, (v.relatedRules = .empty ∧ v.relatedUniqueIds = .empty) →
      (w.relatedRules = .empty ∧ w.relatedUniqueIds = .empty) → w.eq v = true → w = v := by
    rintro ⟨⟨s, r, u⟩, v⟩ ⟨⟨s', r', u'⟩, v'⟩ ⟨hr, hu⟩ ⟨hr', hu'⟩ h
    simp only at hr hu hr' hu'
    subst hr hu hr' hu'
    have h' := (discreteValueEq_iff _ _).1 h
    have h2 := ((stateEq_iff _ _).1 h'.2).1
    simp only at h2 h'
    rw [h2, h'.1]
  have hn : lA.Nodup := hda.imp fun {x y} h hxy => by
    subst hxy
    rw [discreteValue_refl] at h
    exact absurd h.1 (by simp)
  simp only
  constructor
  · rintro ⟨hl, h⟩
    refine (hn.subperm fun v hv => ?_).perm_of_length_le hl.ge
    obtain ⟨w, hw, hwv⟩ := h v hv
    rw [heq v w (plainA v hv) (plainB w hw) hwv] at hw
    exact hw
  · intro h
    exact ⟨h.length_eq, fun v hv => ⟨v, h.mem_iff.1 hv, discreteValue_refl v⟩⟩

/-- C72, right-of-way rules: everything is compared, except that of the bulb groups related to a traffic light
only those of the first rule are looked up in the second one. -/
theorem compare_rightOfWay_partial {idA idB : String} {zA zB : List LaneSRange} {ztA ztB : ZoneType}
    {lA lB : List RowState} {rA rB : Map String (List String)} {a b : RightOfWayRule}
    (ha : RightOfWayRule.make idA zA ztA lA rA = .ok a) (hb : RightOfWayRule.make idB zB ztB lB rB = .ok b) :
    ReportsUnless (isEqualRightOfWayRule a b)
      (a.id = b.id ∧ SameRoute a.zone b.zone ∧ a.zoneType = b.zoneType ∧ SameMap a.states b.states ∧
        a.relatedBulbGroups.size = b.relatedBulbGroups.size ∧
        ∀ light groups, a.relatedBulbGroups.get? light = some groups →
          ∃ others, b.relatedBulbGroups.get? light = some others ∧ ∀ g ∈ groups, g ∈ others) := by
  have hka : Keyed RowState.id a.states := by
    simp only [RightOfWayRule.make, bind_ok, pure_ok] at ha
    obtain ⟨_, _, m, hm, _, _, rfl⟩ := ha
    exact indexStates_keyed (fun k s h => by simp at h) hm
  have hkb : Keyed RowState.id b.states := by
    simp only [RightOfWayRule.make, bind_ok, pure_ok] at hb
    obtain ⟨_, _, m, hm, _, _, rfl⟩ := hb
    exact indexStates_keyed (fun k s h => by simp at h) hm
  unfold isEqualRightOfWayRule
  have hs : ReportsUnless (if a.states.size = 1 ∧ b.states.size = 1 then
      isEqualStatic isEqualRowState a.states b.states else isEqualStates isEqualRowState a.states b.states)
      (SameMap a.states b.states) := by
    split
    · rename_i h
      exact reports_static reports_row hka hkb h.1 h.2
    · exact reports_states reports_row _ _
  refine Spec.ReportsUnless.congr (reports_collect (.cons (reports_isEqual _ _) (.cons (reports_route _ _)
    (.cons (reports_isEqual _ _) (.cons (reports_isEqual _ _) (.cons hs (.cons (reports_related _ _) .nil))))))) ?_
  simp only [all_cons, all_nil, and_true]
  exact ⟨fun h => ⟨h.1, h.2.1, h.2.2.1, h.2.2.2.2.1, h.2.2.2.2.2⟩,
    fun h => ⟨h.1, h.2.1, h.2.2.1, by rw [size_of_same h.2.2.2.1], h.2.2.2.1, h.2.2.2.2⟩⟩

/-- C72: results of right-of-way state providers. -/
theorem compare_rightOfWayResult (a b : RightOfWayResult) : ReportsUnless (isEqualRightOfWayResult a b)
    (a.state = b.state ∧ match a.next, b.next with
      | none, none => True
      | some x, some y => x.1 = y.1 ∧ SameNumber x.2 y.2
      | _, _ => False) := by
  obtain ⟨s, n⟩ := a
  obtain ⟨s', n'⟩ := b
  have h2 : List.Forall₂ ReportsUnless [isEqual s s', isEqual n.isSome n'.isSome]
      [s = s', n.isSome = n'.isSome] := .cons (reports_isEqual _ _) (.cons (reports_isEqual _ _) .nil)
  unfold isEqualRightOfWayResult
  rcases n with _ | ⟨x, d⟩ <;> rcases n' with _ | ⟨y, e⟩
  · exact (reports_collect (forall₂_append h2 .nil)).congr (by simp)
  · exact (reports_collect (forall₂_append h2 .nil)).congr (by simp)
  · exact (reports_collect (forall₂_append h2 .nil)).congr (by simp)
  · have h3 : List.Forall₂ ReportsUnless [isEqual x y, isEqual d.isSome e.isSome] [x = y, d.isSome = e.isSome] :=
      .cons (reports_isEqual _ _) (.cons (reports_isEqual _ _) .nil)
    rcases d with _ | d <;> rcases e with _ | e
    · exact (reports_collect (forall₂_append h2 (forall₂_append h3 .nil))).congr (by simp [SameNumber])
    · exact (reports_collect (forall₂_append h2 (forall₂_append h3 .nil))).congr (by simp [SameNumber])
    · exact (reports_collect (forall₂_append h2 (forall₂_append h3 .nil))).congr (by simp [SameNumber])
    · exact (reports_collect (forall₂_append h2 (forall₂_append h3 (.cons (reports_number d e) .nil)))).congr
        (by simp [SameNumber])

/-- C72: traffic lights; if a bulb of the first one has an arrow orientation, the bulb at its place in the
second one must have one too (see `compare_bulb_throws`). -/
theorem compare_trafficLight_partial (a b : PosedLight)
    (h : ∀ p ∈ a.groups.zip b.groups, ∀ q ∈ p.1.bulbs.zip p.2.bulbs,
      q.1.bulb.arrowOrientation.isSome → q.2.bulb.arrowOrientation.isSome) :
    ReportsUnless (isEqualLight a b) (SameLight a b) := reports_light h

/-- C72, negative: comparing a bulb with an arrow to one without throws `std::bad_optional_access`, whatever
the rest; the other way round a difference is reported. -/
theorem compare_bulb_throws (a b : PosedBulb) (ha : a.bulb.arrowOrientation.isSome = true)
    (hb : b.bulb.arrowOrientation = none) : isEqualBulb a b = .error .throws ∧ isEqualBulb b a = .ok true := by
  constructor
  · obtain ⟨x, hx⟩ := Option.isSome_iff_exists.1 ha
    unfold isEqualBulb
    rw [hx, hb]
    simp [isEqualOptional, collect, isEqual, bind, Except.bind, pure, Except.pure]
  · obtain ⟨d, hd, h⟩ := reports_bulb (a := b) (b := a) (by simp [hb])
    cases d with
    | true => exact hd
    | false =>
      have := h.1 rfl
      obtain ⟨x, hx⟩ := Option.isSome_iff_exists.1 ha
      simp [SameBulb, hb, hx, SameNumber] at this

/-- C72, phases of rings: if the rules and bulbs of the first phase are all in the second one, no difference is
reported exactly if the ids are the same, the *number* of right-of-way states is the same, the discrete values
have the same text, and the bulb states are the same. -/
theorem compare_phase_partial (a b : Phase) (hd : ∀ k, a.discreteStates.has k → b.discreteStates.has k)
    (hbulb : ∀ m, a.bulbStates = some m → ∃ n, b.bulbStates = some n ∧ ∀ k, m.has k → n.has k) :
    ReportsUnless (isEqualPhase a b)
      (a.id = b.id ∧ a.ruleStates.size = b.ruleStates.size ∧
        (∀ k, (a.discreteStates.get? k).map (·.value) = (b.discreteStates.get? k).map (·.value)) ∧
        (match a.bulbStates, b.bulbStates with
          | none, none => True
          | some m, some n => SameMap m n
          | _, _ => False)) := by
  obtain ⟨ps, h1, h2⟩ := reports_atLoop (f := isEqualDiscreteValue) (g := fun v : DiscreteValue => v.value)
    (fun x y => reports_isEqual _ _) hd
  have hdisc : ReportsUnless (isEqualDiscreteStates a.discreteStates b.discreteStates) _ :=
    (reports_collect h1).congr h2
  have hbs : ReportsUnless (isEqualBulbStates a.bulbStates b.bulbStates) (match a.bulbStates, b.bulbStates with
          | none, none => True
          | some m, some n => SameMap m n
          | _, _ => False) := by
    cases ha : a.bulbStates with
    | none =>
      refine Spec.ReportsUnless.congr (reports_collect (.cons (reports_isEqual _ _) .nil)) ?_
      cases b.bulbStates <;> simp
    | some m =>
      obtain ⟨n, hn, hk⟩ := hbulb m ha
      rw [hn]
      obtain ⟨ps, h1, h2⟩ := reports_atLoop (f := isEqual) (g := id) (fun x y => reports_isEqual x y) hk
      refine Spec.ReportsUnless.congr (reports_collect (.cons (reports_isEqual _ _) h1)) ?_
      simp [h2, SameMap]
  have hr : ReportsUnless (isEqualRuleStates a.ruleStates b.ruleStates) (a.ruleStates.size = b.ruleStates.size) :=
    (reports_collect (.cons (reports_isEqual _ _) .nil)).congr (by simp)
  exact Spec.ReportsUnless.congr (reports_collect (.cons (reports_isEqual _ _) (.cons hr (.cons hdisc
    (.cons hbs .nil))))) (by simp only [all_cons, all_nil, and_true])

/-- C72, what follows a phase. -/
theorem compare_nextPhases_partial (a b : List NextPhase)
    (h : ∀ p ∈ a.zip b, p.1.durationUntil.isSome → p.2.durationUntil.isSome) :
    ReportsUnless (isEqualNextPhases a b)
      (List.Forall₂ (fun x y => x.id = y.id ∧ SameNumber x.durationUntil y.durationUntil) a b) := by
  have hp : ∀ p ∈ a.zip b, ReportsUnless (isEqualNextPhase p.1 p.2)
      (p.1.id = p.2.id ∧ SameNumber p.1.durationUntil p.2.durationUntil) := fun p hp => by
    refine Spec.ReportsUnless.congr (reports_collect (.cons (reports_isEqual _ _) (.cons (reports_isEqual _ _)
      (.cons (reports_optional (h p hp)) .nil)))) ?_
    simp only [all_cons, all_nil, and_true]
    refine and_congr_right fun _ => ⟨fun h => h.2, fun h => ⟨?_, h⟩⟩
    cases h1 : p.1.durationUntil <;> cases h2 : p.2.durationUntil <;> simp_all [SameNumber]
  unfold isEqualNextPhases
  split
  · rename_i hl
    refine Spec.ReportsUnless.congr (reports_collect (.cons (reports_isEqual _ _) (forall₂_map
      (p := fun p : NextPhase × NextPhase => p.1.id = p.2.id ∧ SameNumber p.1.durationUntil p.2.durationUntil)
      hp))) ?_
    rw [forall₂_iff_zip']
    simp only [all_cons, all_map]
  · rename_i hl
    refine Spec.ReportsUnless.congr (reports_collect (.cons (reports_isEqual _ _) .nil)) ?_
    rw [forall₂_iff_zip']
    simp [hl]

/-! Concrete cases, and the differences that are missed. -/

def pvGo : DiscreteValue := ⟨⟨0, .empty, .empty⟩, "Go"⟩
def pvStop : DiscreteValue := ⟨⟨0, .empty, .empty⟩, "Stop"⟩
def pvGoStrict : DiscreteValue := ⟨⟨1, .ofList [("Yield", ["r"])], .empty⟩, "Go"⟩

def phaseA : Phase := ⟨"p", .ofList [("row", "go")], .ofList [("d", pvGo)], none⟩
/-- Another state of another right-of-way rule, and another severity of the discrete value. -/
def phaseB : Phase := ⟨"p", .ofList [("other", "stop")], .ofList [("d", pvGoStrict)], none⟩
/-- Another discrete rule. -/
def phaseC : Phase := ⟨"p", .ofList [("row", "go")], .ofList [("e", pvGo)], none⟩
/-- With bulb states. -/
def phaseD : Phase := ⟨"p", .ofList [("row", "go")], .ofList [("d", pvGo)], some .empty⟩

/-- C72, negative: phases that put different rules in different states, and differ in the severity of a
discrete value, are reported as equal; if a rule is missing `std::out_of_range` is thrown instead of a
difference being reported; if only the first phase has bulb states the behaviour is undefined. -/
theorem compare_phase_missed :
    isEqualPhase phaseA phaseB = .ok false ∧ phaseA.ruleStates.get? "row" = some "go" ∧
      phaseB.ruleStates.get? "row" = none ∧ phaseA.discreteStates.get? "d" ≠ phaseB.discreteStates.get? "d" ∧
      isEqualPhase phaseA phaseC = .error .outOfRange ∧ isEqualPhase phaseD phaseA = .error .ub ∧
      isEqualPhase phaseA phaseD = .ok true := by decide +kernel

/-- C72, negative: a next phase with a duration compared to one without throws `std::bad_optional_access`. -/
theorem compare_nextPhase_throws (i j : String) (d : ℚ) :
    isEqualNextPhase ⟨i, some d⟩ ⟨j, none⟩ = .error .throws := by
  simp [isEqualNextPhase, isEqualOptional, collect, isEqual, bind, Except.bind, pure, Except.pure]

def zoneR : List LaneSRange := [⟨"l", ⟨0, 10⟩⟩]
def rowOne : Except Err RightOfWayRule :=
  RightOfWayRule.make "r" zoneR .stopExcluded [⟨"go", .go, []⟩] (.ofList [("light", ["g"])])
def rowTwo : Except Err RightOfWayRule :=
  RightOfWayRule.make "r" zoneR .stopExcluded [⟨"go", .go, []⟩] (.ofList [("light", ["g", "h"])])

/-- C72, negative: a right-of-way rule related to one bulb group of a traffic light is reported as equal to a
rule related to two, but not the other way round. -/
theorem compare_rightOfWay_missed : ∃ a b, rowOne = .ok a ∧ rowTwo = .ok b ∧
    isEqualRightOfWayRule a b = .ok false ∧ isEqualRightOfWayRule b a = .ok true ∧
    a.relatedBulbGroups.get? "light" ≠ b.relatedBulbGroups.get? "light" := by
  refine ⟨⟨"r", zoneR, .stopExcluded, .ofList [("go", ⟨"go", .go, []⟩)], .ofList [("light", ["g"])]⟩,
    ⟨"r", zoneR, .stopExcluded, .ofList [("go", ⟨"go", .go, []⟩)], .ofList [("light", ["g", "h"])]⟩, ?_, ?_, ?_, ?_, ?_⟩ <;>
    decide +kernel

/-- C72, negative: vectors of discrete values with a repeated value. -/
theorem compare_discreteValues_missed : isEqualDiscreteValues [pvGo, pvGo] [pvGo, pvStop] = .ok false ∧
    isEqualDiscreteValues [pvGo, pvStop] [pvGo, pvGo] = .ok true := by decide +kernel

example : isEqualLaneSRoute zoneR zoneR = .ok false ∧ isEqualLaneSRoute zoneR [⟨"l", ⟨0, 9⟩⟩] = .ok true := by
  decide +kernel
example : isEqualDirectionUsageRule ⟨"d", ⟨"l", ⟨0, 1⟩⟩, .ofList [("a", ⟨"a", .withS, .strict⟩)]⟩
    ⟨"d", ⟨"l", ⟨0, 1⟩⟩, .ofList [("a", ⟨"a", .againstS, .strict⟩)]⟩ = .ok true := by decide +kernel
example : ∃ a b, DiscreteValueRule.make "r" "t" zoneR [pvGo, pvStop] = .ok a ∧
    DiscreteValueRule.make "r" "t" zoneR [pvStop, pvGo] = .ok b ∧ isEqualDiscreteValueRule a b = .ok false := by
  refine ⟨⟨"r", "t", zoneR, [pvGo, pvStop]⟩, ⟨"r", "t", zoneR, [pvStop, pvGo]⟩, ?_, ?_, ?_⟩ <;> decide +kernel
example : isEqualNextPhases [⟨"a", none⟩, ⟨"b", some 2⟩] [⟨"a", some 1⟩, ⟨"b", some 2⟩] = .ok true := by
  decide +kernel

/-! ### C73 -/

/-- C73: positions, and the roll, pitch and yaw angles of rotations. -/
theorem close_triple (t : ℚ) (a b : Triple) : isTripleClose a b (.fin t) = false ↔ TripleWithin t a b :=
  isTripleClose_iff t a b

/-- C73: bounds. -/
theorem close_bounds (t : ℚ) (a b : Dbl × Dbl) :
    isBoundsClose a b (.fin t) = false ↔ Within t a.1 b.1 ∧ Within t a.2 b.2 := by
  unfold isBoundsClose
  rw [isClose_iff]
  simp

/-- C73: results of `ToLanePosition`. -/
theorem close_lanePositionResult (t : ℚ) (a b : LanePositionResult) :
    isLanePositionResultClose a b (.fin t) = false ↔ TripleWithin t a.lanePosition b.lanePosition ∧
      TripleWithin t a.nearestPosition b.nearestPosition ∧ Within t a.distance b.distance := by
  unfold isLanePositionResultClose
  rw [← isTripleClose_iff, ← isTripleClose_iff, ← gt_absDiff]
  cases isTripleClose a.lanePosition b.lanePosition (.fin t) <;>
    cases isTripleClose a.nearestPosition b.nearestPosition (.fin t) <;> simp

/-- C73: results of `ToRoadPosition`: on the same existing lane. -/
theorem close_roadPositionResult (t : ℚ) (a b : RoadPositionResult) :
    isRoadPositionResultClose a b (.fin t) = false ↔ (∃ l, a.lane = some l ∧ b.lane = some l) ∧
      TripleWithin t a.pos b.pos ∧ TripleWithin t a.nearestPosition b.nearestPosition ∧
      Within t a.distance b.distance := by
  unfold isRoadPositionResultClose
  cases ha : a.lane with
  | none => simp
  | some l =>
    cases hb : b.lane with
    | none => simp
    | some l' =>
      by_cases h : l = l'
      · subst h
        simp [close_lanePositionResult]
      · have h' : l' ≠ l := fun e => h e.symm
        simp [h, h']

/-- C73: positions in a route. -/
theorem close_routePositionResult (t : ℚ) (a b : RoutePositionResult) :
    isRoutePositionResultClose a b (.fin t) = false ↔ a.phaseIndex = b.phaseIndex ∧
      a.phasePositionResult.laneSRangeIndex = b.phasePositionResult.laneSRangeIndex ∧
      TripleWithin t a.phasePositionResult.lanePosition b.phasePositionResult.lanePosition ∧
      TripleWithin t a.phasePositionResult.inertialPosition b.phasePositionResult.inertialPosition ∧
      Within t a.phasePositionResult.distance b.phasePositionResult.distance := by
  unfold isRoutePositionResultClose isPhasePositionResultClose
  rw [← isTripleClose_iff, ← isTripleClose_iff, ← gt_absDiff]
  by_cases h : a.phaseIndex = b.phaseIndex <;>
    by_cases h' : a.phasePositionResult.laneSRangeIndex = b.phasePositionResult.laneSRangeIndex <;>
    cases isTripleClose a.phasePositionResult.lanePosition b.phasePositionResult.lanePosition (.fin t) <;>
    cases isTripleClose a.phasePositionResult.inertialPosition b.phasePositionResult.inertialPosition (.fin t) <;>
    simp [h, h']

/-- C73: being close is symmetric, and reflexive for a tolerance that is not negative. -/
theorem close_symm (t : ℚ) (a b : Triple) : isTripleClose a b (.fin t) = isTripleClose b a (.fin t) := by
  have key : ∀ x y, Within t x y ↔ Within t y x := by
    intro x y
    cases x <;> cases y <;> simp [Within, abs_sub_comm]
  rw [Bool.eq_iff_iff, ← not_iff_not, Bool.not_eq_true, Bool.not_eq_true, isTripleClose_iff, isTripleClose_iff]
  unfold TripleWithin
  rw [key a.x, key a.y, key a.z]

theorem close_refl (t : ℚ) (ht : 0 ≤ t) (a : Triple) : isTripleClose a a (.fin t) = false := by
  have key : ∀ x, Within t x x := by intro x; cases x <;> simp [Within, ht]
  exact (isTripleClose_iff t a a).2 ⟨key _, key _, key _⟩

/-- C73: tolerances of finite positions add up. -/
theorem close_trans (s t : ℚ) (a b c : ℚ × ℚ × ℚ)
    (h1 : isTripleClose ⟨.fin a.1, .fin a.2.1, .fin a.2.2⟩ ⟨.fin b.1, .fin b.2.1, .fin b.2.2⟩ (.fin s) = false)
    (h2 : isTripleClose ⟨.fin b.1, .fin b.2.1, .fin b.2.2⟩ ⟨.fin c.1, .fin c.2.1, .fin c.2.2⟩ (.fin t) = false) :
    isTripleClose ⟨.fin a.1, .fin a.2.1, .fin a.2.2⟩ ⟨.fin c.1, .fin c.2.1, .fin c.2.2⟩ (.fin (s + t)) = false := by
  rw [isTripleClose_iff] at *
  exact ⟨(abs_sub_le _ b.1 _).trans (add_le_add h1.1 h2.1), (abs_sub_le _ b.2.1 _).trans (add_le_add h1.2.1 h2.2.1),
    (abs_sub_le _ b.2.2 _).trans (add_le_add h1.2.2 h2.2.2)⟩

/-- C73, negative: a position with a NaN is reported to be as close as one likes to every position. -/
theorem close_nan (t : ℚ) (b : Triple) : isTripleClose ⟨.nan, .nan, .nan⟩ b (.fin t) = false :=
  (isTripleClose_iff t _ _).2 ⟨trivial, trivial, trivial⟩

/-- C73, `CompareVectors` with an absolute tolerance: the elements are pairwise the same non-finite value, or
finite and at most the tolerance apart. -/
theorem compareVectors_absolute {n : Nat} (t : ℚ) (v w : Fin n → Dbl) : compareVectors false t v w = false ↔
    ∀ i, (v i = w i ∧ ∀ q, v i ≠ .fin q) ∨ ∃ a b, v i = .fin a ∧ w i = .fin b ∧ |a - b| ≤ t := by
  unfold compareVectors
  rw [any_finRange]
  refine forall_congr' fun i => ?_
  cases v i <;> cases w i <;> simp [compareElement, absDiff, gt]

/-- C73, `CompareVectors` with a relative tolerance, on finite elements. -/
theorem compareVectors_relative_partial {n : Nat} (t : ℚ) (v w : Fin n → ℚ) :
    compareVectors true t (fun i => .fin (v i)) (fun i => .fin (w i)) = false ↔
      ∀ i, |v i - w i| ≤ t * Max.max 1 (Max.max |v i| |w i|) := by
  unfold compareVectors
  rw [any_finRange]
  refine forall_congr' fun i => ?_
  have hm : ∀ a b : ℚ, Compare.max (.fin a) (.fin b) = .fin (Max.max a b) := by
    intro a b
    unfold Compare.max
    simp only [gt, gt_iff_lt, decide_eq_true_eq]
    split
    · rename_i h; rw [max_eq_right h.le]
    · rename_i h; rw [max_eq_left (not_lt.1 h)]
  simp [compareElement, absDiff, gt, Compare.abs, hm, scale]

/-- C73, negative: with a relative tolerance an infinite element is reported as equal to every number. -/
theorem compareVectors_relative_infinite (t : ℚ) (ht : 0 ≤ t) (x : Dbl) (hx : x ≠ .nan) :
    compareVectors true t ![Dbl.posInf] ![x] = false := by
  unfold compareVectors
  rw [any_finRange]
  intro i
  have : i = 0 := Subsingleton.elim _ _
  subst this
  rcases ht.lt_or_eq with h | h
  · cases x <;> simp_all [compareElement, absDiff, gt, Compare.abs, Compare.max, scale]
  · subst h
    cases x <;> simp_all [compareElement, absDiff, gt, Compare.abs, Compare.max, scale]

/-- C73: `CompareMatrices` compares the rows with `CompareVectors`. -/
theorem compareMatrices_rows {n : Nat} (relative : Bool) (t : ℚ) (m k : Fin n → Fin n → Dbl) :
    compareMatrices relative t m k = false ↔ ∀ i, compareVectors relative t (m i) (k i) = false := by
  unfold compareMatrices
  rw [any_finRange]
  rfl

example : isTripleClose ⟨.fin 1, .fin 2, .fin 3⟩ ⟨.fin 1, .fin 2, .fin (31/10)⟩ (.fin (1/10)) = false ∧
    isTripleClose ⟨.fin 1, .fin 2, .fin 3⟩ ⟨.fin 1, .fin 2, .fin (32/10)⟩ (.fin (1/10)) = true := by decide +kernel
example : compareVectors false (1/2) ![Dbl.fin 1, .posInf, .nan] ![Dbl.fin (3/2), .posInf, .nan] = false ∧
    compareVectors false (1/2) ![Dbl.fin 1, .posInf] ![Dbl.fin (3/2), .fin 0] = true ∧
    compareVectors true (1/2) ![Dbl.fin 100] ![Dbl.fin 140] = false := by decide +kernel

/-! ### C74 -/

open Maliput.Build

/-- C74: `CheckIdIndexing` reports nothing exactly if every junction, segment and lane of the road geometry,
and, if there is a junction, every branch point, is found by its id. -/
theorem checkIdIndexing_iff_partial (w : World) : ReportsUnless (checkIdIndexing w)
    ((∀ j ∈ w.junctions, getJunction w (w.junction j).id = some j) ∧
      (∀ s, HasSegment w s → getSegment w (w.segment s).id = some s) ∧
      (∀ l, HasLane w l → getLane w (w.lane l).id = some l) ∧
      (w.junctions ≠ [] → ∀ b ∈ w.branchPoints, getBranchPoint w (w.branchPointId b) = some b)) := by
  refine Spec.ReportsUnless.congr (reports_collect (reports_flatMap (p := fun j =>
    (getJunction w (w.junction j).id = some j) ::
      ((w.junction j).segments.flatMap fun s => (getSegment w (w.segment s).id = some s) ::
        (w.segment s).lanes.map fun l => getLane w (w.lane l).id = some l) ++
      w.branchPoints.map fun b => getBranchPoint w (w.branchPointId b) = some b) fun j _ => ?_)) ?_
  · exact .cons (reports_isEqual _ _) (forall₂_append (reports_flatMap fun s _ => .cons (reports_isEqual _ _)
      (forall₂_map fun l _ => reports_isEqual _ _)) (forall₂_map fun b _ => reports_isEqual _ _))
  · simp only [all_flatMap, all_cons, all_append, all_map, List.cons_append]
    constructor
    · intro h
      refine ⟨fun j hj => (h j hj).1, ?_, ?_, ?_⟩
      · rintro s ⟨j, hj, hs⟩
        exact ((h j hj).2.1 s hs).1
      · rintro l ⟨s, ⟨j, hj, hs⟩, hl⟩
        exact ((h j hj).2.1 s hs).2 l hl
      · intro hne b hb
        obtain ⟨j, hj⟩ := List.exists_mem_of_ne_nil _ hne
        exact (h j hj).2.2 b hb
    · rintro ⟨h1, h2, h3, h4⟩ j hj
      exact ⟨h1 j hj, fun s hs => ⟨h2 s ⟨j, hj, hs⟩, fun l hl => h3 l ⟨s, ⟨j, hj, hs⟩, hl⟩⟩,
        h4 (List.ne_nil_of_mem hj)⟩

/-- C74: `CheckIdIndexing` reports nothing for a road geometry built by successful calls. -/
theorem checkIdIndexing_built {w : World} (h : Built w) : checkIdIndexing w = .ok false := by
  obtain ⟨d, hd, hiff⟩ := checkIdIndexing_iff_partial w
  obtain ⟨h1, h2, h3, h4⟩ := idIndex_faithful h
  rw [hd, hiff.2 ⟨fun j hj => (h3 _ _).2 ⟨hj, rfl⟩, fun s hs => (h2 _ _).2 ⟨hs, rfl⟩,
    fun l hl => (h1 _ _).2 ⟨hl, rfl⟩, fun _ b hb => (h4 _ _).2 ⟨hb, rfl⟩⟩]

/-- C74: after a lane with a repeated id was rejected, `CheckIdIndexing` reports it. -/
theorem checkIdIndexing_finds_rejected : ∃ w, Reach w ∧ checkIdIndexing w = .ok true ∧ HasLane w 1 ∧
    getLane w (w.lane 1).id ≠ some 1 := by
  have h : (runOps .init [.newSegment "s", .newJunction "j", .addSegment 0 0, .addJunction 0, .addLane 0 "a",
    .addLane 0 "a"]).isSome := by decide
  refine ⟨_, reach_runOps .init _ (Option.some_get h).symm, ?_, ⟨0, ⟨0, ?_, ?_⟩, ?_⟩, ?_⟩ <;> decide +revert

/-- C74, negative: without a junction the branch points are not checked; here the second one, which was
rejected because of its id, is not found by its id. -/
theorem checkIdIndexing_misses_branchPoints : ∃ w, Reach w ∧ checkIdIndexing w = .ok false ∧
    1 ∈ w.branchPoints ∧ getBranchPoint w (w.branchPointId 1) ≠ some 1 := by
  have h : (runOps .init [.addBranchPoint "p", .addBranchPoint "p"]).isSome := by decide
  refine ⟨_, reach_runOps .init _ (Option.some_get h).symm, ?_, ?_, ?_⟩ <;> decide +revert

example : ∃ w, Built w ∧ w.junctions = [0] ∧ HasLane w 0 ∧ w.branchPoints = [0] := by
  have h : (buildOps .init [.newSegment "s", .newJunction "j", .addSegment 0 0, .addJunction 0, .addLane 0 "a",
    .addBranchPoint "p"]).isSome := by decide
  refine ⟨_, built_buildOps .init _ (Option.some_get h).symm, ?_, ⟨0, ⟨0, ?_, ?_⟩, ?_⟩, ?_⟩ <;> decide +revert

end Maliput.Props
