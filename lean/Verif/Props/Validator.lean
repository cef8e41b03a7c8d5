import Verif.Lemmas.Validator

set_option autoImplicit false

/-! C45 and C57: the network validator and `CheckInvariants`. -/
namespace Maliput.Props

open Maliput.Validator Maliput.Validator.Spec
open Maliput.Topo (Which LaneEnd)

variable {Pos Rot : Type}

/-! ### CheckInvariants -/

/-- C57: `CheckInvariants` of a road geometry without null pointers returns a list. -/
theorem checkInvariants_total (g : Geometry Pos Rot) (h : NoNull g) : ∃ fs, checkInvariants g = .ok fs :=
  checkInvariants_defined h

/-- C57: `CheckInvariants` reports exactly the violations: every message is true of the road geometry, and
there is a message for every violation. -/
theorem checkInvariants_reports (g : Geometry Pos Rot)
    (hrev : ∀ r s, g.rotDist (g.reverse (g.reverse r)) s = g.rotDist r s) (fs : List Failure)
    (h : checkInvariants g = .ok fs) (f : Failure) : f ∈ fs ↔ Violation g f := mem_checkInvariants hrev h f

/-- C57: `CheckInvariants` returns an empty list exactly if the invariants hold. -/
theorem checkInvariants_empty_iff (g : Geometry Pos Rot)
    (hrev : ∀ r s, g.rotDist (g.reverse (g.reverse r)) s = g.rotDist r s) :
    checkInvariants g = .ok [] ↔ Invariants g := checkInvariants_nil g hrev

/-- C57: if the invariants hold, then any two lane ends at a branch point are within twice the linear
tolerance of each other. -/
theorem invariants_close (g : Geometry Pos Rot) (h : Invariants g)
    (hsymm : ∀ p q, g.posDist p q = g.posDist q p) (htri : ∀ p q r, g.posDist p r ≤ g.posDist p q + g.posDist q r)
    (b : Nat) (as bs : List LaneEnd) (hb : SidesOf g b as bs) (e e' : LaneEnd) (he : e ∈ as ++ bs)
    (he' : e' ∈ as ++ bs) : g.posDist (endPos g e) (endPos g e') ≤ 2 * g.linearTolerance := by
  obtain ⟨bps, hp, h⟩ := h.branchPoints
  obtain ⟨hmem, ha, hbs⟩ := hb
  have hb : b ∈ bps := by
    rw [hp] at hmem
    obtain ⟨b', h, e⟩ := List.mem_map.1 hmem
    cases e; exact h
  obtain ⟨-, x, y, hx, hy, hc⟩ := h b hb
  rw [ha] at hx; rw [hbs] at hy; cases hx; cases hy
  rcases hc with ⟨ref, as', -, hc⟩ | ⟨ref, bs', rfl, rfl, hc⟩
  · have h1 := hc.position e he
    have h2 := hc.position e' he'
    have h3 := htri (endPos g e) (endPos g ref) (endPos g e')
    rw [hsymm (endPos g e) (endPos g ref)] at h3
    linarith
  · have h1 := hc.position e (by simpa using he)
    have h2 := hc.position e' (by simpa using he')
    have h3 := htri (endPos g e) (endPos g ref) (endPos g e')
    rw [hsymm (endPos g e) (endPos g ref)] at h3
    linarith

/-! ### ValidateRoadNetwork -/

/-- C45: `ValidateRoadNetwork` returns normally exactly if what the enabled options ask for holds of the
road geometry and of the rules, lights and rings that are in the books after any histories of calls.
Missing: the state that a phase gives to a rule only has to resemble one of the rule's states
(`validate_foreign_value`), and the books' own defects (C24) are excluded by `hn`. -/
theorem validate_iff_partial (g : Geometry Pos Rot) (rules : List Rulebook.Op)
    (lights : List (Option TrafficLights.TrafficLight)) (rings : List Phases.Op) (o : Options)
    (hrev : ∀ r s, g.rotDist (g.reverse (g.reverse r)) s = g.rotDist r s) (hn : Rulebook.Spec.NoRepeatedLaneRemoved rules)
    (hz : Rulebook.Spec.ValidZones rules) (hl : ∀ t, some t ∈ lights → TrafficLights.Spec.BuiltLight t) :
    validate (network g rules lights rings) o = .ok () ↔
      (o.directionUsage = true → Covered g rules) ∧
      (o.invariants = true → Invariants g) ∧
      (o.hierarchy = true → Hierarchy g) ∧
      (o.relatedBulbGroups = true → BulbGroups rules lights) ∧
      (o.contiguity = true → Zones g rules) ∧
      (o.phaseValues = true → PhaseValues rules rings) ∧
      (o.phaseBulbs = true → PhaseBulbs lights rings) ∧
      (o.relatedRules = true → RelatedRules rules) := by
  have key : ∀ (c : Bool) (x : Except Err Unit) (u : Unit),
      check c x = .ok u ↔ (c = true → x = .ok ()) := by
    intro c x u; cases c <;> simp [check]
  have hi : throwIfInvariants (network g rules lights rings) = .ok () ↔ Invariants g := by
    rw [← checkInvariants_nil g hrev]
    simp only [throwIfInvariants, bind_ok, throwUnless_ok, decide_eq_true_eq, List.length_eq_zero_iff]
    constructor
    · rintro ⟨f, h, rfl⟩; exact h
    · exact fun h => ⟨[], h, rfl⟩
  simp only [validate, bind_ok, key, exists_const, checkDirectionUsage_ok g rules lights rings hn hz, hi,
    checkHierarchy_ok, checkRelatedBulbGroups_ok g hn lights rings, checkContiguity_ok g hn lights rings,
    checkPhaseValues_ok g hn lights rings, checkPhaseBulbs_ok g rules lights hl rings,
    checkRelatedRules_ok hn g lights rings]
  rfl

/-- C45: if there are no null pointers, a network that is not valid is rejected with an exception:
`assertion_error`, or `std::out_of_range` for a phase that mentions an unknown rule. -/
theorem validate_exceptions (g : Geometry Pos Rot) (rules : List Rulebook.Op)
    (lights : List (Option TrafficLights.TrafficLight)) (rings : List Phases.Op) (o : Options)
    (hnull : NoNull g) (hn : Rulebook.Spec.NoRepeatedLaneRemoved rules) (hz : Rulebook.Spec.ValidZones rules)
    (e : Err) (h : validate (network g rules lights rings) o = .error e) : e = .throws ∨ e = .outOfRange := by
  revert e
  change Tame (validate (network g rules lights rings) o)
  unfold validate
  exact (tame_if (tame_directionUsage g rules lights rings hn hz)).bind fun _ _ =>
    (tame_if (tame_invariants hnull)).bind fun _ _ => (tame_if (tame_hierarchy _)).bind fun _ _ =>
    (tame_if (tame_bulbGroups _)).bind fun _ _ => (tame_if (tame_contiguity _)).bind fun _ _ =>
    (tame_if (tame_phaseValues _)).bind fun _ _ => (tame_if (tame_phaseBulbs _)).bind fun _ _ =>
    tame_if (tame_relatedRules _)

/-! ### An example: two lanes in a row with rules, a light and a ring -/

/-- Lane 0 runs from 0 to 10 and lane 1 from 10 to 20 along a line; branch points 0, 1, 2. -/
def lineGeometry : Geometry ℚ Bool where
  junctions := [some 0]
  branchPoints := [some 0, some 1, some 2]
  junction := fun _ => ⟨"j", .this, [some 0, some 1]⟩
  segment := fun s => if s = 0 then ⟨"s0", some 0, [some 0]⟩ else ⟨"s1", some 0, [some 1]⟩
  lane := fun l => if l = 0 then ⟨"0", some 0, 0, 10, some 0, some 1⟩ else ⟨"1", some 1, 0, 10, some 1, some 2⟩
  branchPoint := fun b =>
    if b = 0 then ⟨"b0", .this, some [⟨0, .start⟩], some []⟩
    else if b = 1 then ⟨"b1", .this, some [⟨0, .finish⟩], some [⟨1, .start⟩]⟩
    else ⟨"b2", .this, some [], some [⟨1, .finish⟩]⟩
  lanes := .ofList [("0", 0), ("1", 1)]
  laneById := fun id => if id = "0" then some 0 else if id = "1" then some 1 else none
  segmentById := fun id => if id = "s0" then some 0 else if id = "s1" then some 1 else none
  junctionById := fun id => if id = "j" then some 0 else none
  branchPointById := fun id => if id = "b0" then some 0 else if id = "b1" then some 1 else some 2
  linearTolerance := 1
  angularTolerance := 1
  position := fun l s => if l = 0 then s else 10 + s
  orientation := fun _ _ => true
  reverse := not
  posDist := fun p q => |p - q|
  rotDist := fun p q => if p = q then 0 else 3

def lineValue : Rules.DiscreteValue := ⟨⟨0, .ofList [("Yield", ["disc"])], .empty⟩, "go"⟩

def lineRules : List Rulebook.Op :=
  [.add (.directionUsage ⟨"d0", ⟨"0", 0, 10⟩, .ofList [("s", ⟨"s", .withS, .strict⟩)]⟩),
   .add (.directionUsage ⟨"d1", ⟨"1", 2, 4⟩, .ofList [("s", ⟨"s", .withS, .strict⟩)]⟩),
   .add (.rightOfWay ⟨"a", [⟨"0", 0, 10⟩], .stopAllowed, .ofList [("s", ⟨"s", .go, []⟩)], .ofList [("l1", ["g1"])]⟩),
   .add (.discreteValue ⟨"disc", "t", [⟨"0", 0, 10⟩, ⟨"1", 0, 10⟩], [lineValue]⟩),
   .add (.rangeValue ⟨"rng", "t", [⟨"1", 0, 10⟩], [⟨⟨0, .empty, .empty⟩, "", 0, 20⟩]⟩)]

def lineRings (v : Rules.DiscreteValue) : List Phases.Op :=
  [.add ⟨"ring", .ofList [("p", ⟨"p", .empty, .ofList [("disc", v)], some (.ofList [(⟨"l1", "g1", "1"⟩, .on)])⟩)],
    .ofList [("p", [])]⟩]

def allChecks : Options := ⟨true, true, true, true, true, true, true, true⟩

theorem line_hypotheses :
    (∀ r s, lineGeometry.rotDist (lineGeometry.reverse (lineGeometry.reverse r)) s = lineGeometry.rotDist r s) ∧
    Rulebook.Spec.NoRepeatedLaneRemoved lineRules ∧ Rulebook.Spec.ValidZones lineRules ∧
    (∀ t, some t ∈ [some lightA] → TrafficLights.Spec.BuiltLight t) := by
  refine ⟨fun r s => by rw [show lineGeometry.reverse (lineGeometry.reverse r) = r from Bool.not_not r], ?_, ?_, ?_⟩
  · intro pre k post h
    have : Rulebook.Op.remove k ∈ lineRules := by rw [h]; simp
    simp [lineRules] at this
  · intro r hr z hz
    simp only [lineRules, List.mem_cons, List.not_mem_nil, or_false, Rulebook.Op.add.injEq] at hr
    rcases hr with rfl | rfl | rfl | rfl | rfl <;> simp [Rulebook.Spec.zone] at hz <;>
      (try rcases hz with hz | hz) <;> simp_all [Maliput.Spec.ValidRange]
  · intro t ht
    simp only [List.mem_singleton, Option.some.injEq] at ht
    subst ht; exact lightA_built

/-- The example passes all checks. -/
theorem line_valid : validate (network lineGeometry lineRules [some lightA] (lineRings lineValue)) allChecks =
    .ok () := by decide +kernel

/-- So it has all the properties. -/
example : Covered lineGeometry lineRules ∧ Invariants lineGeometry ∧ Hierarchy lineGeometry ∧
    Zones lineGeometry lineRules ∧ RelatedRules lineRules := by
  obtain ⟨h1, h2, h3, h4⟩ := line_hypotheses
  obtain ⟨a, b, c, -, d, -, -, e⟩ := (validate_iff_partial _ _ _ _ _ h1 h2 h3 h4).1 line_valid
  exact ⟨a rfl, b rfl, c rfl, d rfl, e rfl⟩

theorem line_noNull : NoNull lineGeometry := by
  refine ⟨fun o ho => ?_, fun o ho => ?_⟩
  · simp only [lineGeometry, List.mem_singleton] at ho
    subst ho
    refine ⟨0, rfl, by decide, fun o ho => ?_⟩
    simp only [lineGeometry, List.mem_cons, List.not_mem_nil, or_false] at ho
    rcases ho with rfl | rfl
    · refine ⟨0, rfl, by decide, fun o ho => ?_⟩
      simp only [lineGeometry, if_true, List.mem_singleton] at ho
      subst ho; exact ⟨0, rfl, by simp [lineGeometry]⟩
    · refine ⟨1, rfl, by decide, fun o ho => ?_⟩
      simp only [lineGeometry, one_ne_zero, if_false, List.mem_singleton] at ho
      subst ho; exact ⟨1, rfl, by simp [lineGeometry]⟩
  · simp only [lineGeometry, List.mem_cons, List.not_mem_nil, or_false] at ho
    rcases ho with rfl | rfl | rfl <;> exact ⟨_, rfl, by simp [lineGeometry]⟩

/-- Networks that fail one check each: an unknown bulb, an uncovered lane, a lane without a branch point, a
gap between the lanes. -/
example :
    validate (network lineGeometry lineRules [] (lineRings lineValue)) allChecks = .error .throws ∧
    validate (network lineGeometry (lineRules.drop 1) [some lightA] (lineRings lineValue)) allChecks = .error .throws ∧
    validate (network { lineGeometry with lane := fun l => { lineGeometry.lane l with bpFinish := none } }
      lineRules [some lightA] (lineRings lineValue)) allChecks = .error .throws ∧
    checkInvariants { lineGeometry with position := fun l s => if l = 0 then s else 13 + s } =
      .ok [.position ⟨1, .start⟩] := by
  decide +kernel

/-! ### Defects -/

/-- C45, defect: `CheckInvariants` runs before the hierarchy check and follows the pointers that the latter
would find to be null: the outcome is undefined instead of an exception. -/
theorem validate_null_undefined :
    let g := { lineGeometry with junctions := [none] }
    let g' := { lineGeometry with segment := fun s => { lineGeometry.segment s with junction := none } }
    checkInvariants g = .error .ub ∧ checkInvariants g' = .error .ub ∧
    checkHierarchy (network g lineRules [some lightA] (lineRings lineValue)) = .error .throws ∧
    checkHierarchy (network g' lineRules [some lightA] (lineRings lineValue)) = .error .throws ∧
    validate (network g lineRules [some lightA] (lineRings lineValue)) allChecks = .error .ub := by
  decide +kernel

/-- C45, defect: a phase may give a rule a state that is not one of the rule's: equality of states ignores
additional related rules on the right-hand side.  Here the phase's state lists a rule that does not exist. -/
theorem validate_foreign_value :
    let v : Rules.DiscreteValue := ⟨⟨0, .ofList [("Yield", ["disc", "unknown"])], .empty⟩, "go"⟩
    validate (network lineGeometry lineRules [some lightA] (lineRings v)) allChecks = .ok () ∧
    (∀ r, .discreteValue r ∈ Rulebook.Spec.live lineRules → v ∉ r.states) ∧
    ¬ HasRule lineRules "unknown" := by
  have hlive : Rulebook.Spec.live lineRules = lineRules.filterMap (fun o => match o with | .add r => some r | _ => none) := by
    decide +kernel
  refine ⟨by decide +kernel, ?_, ?_⟩
  · intro r hr
    rw [hlive] at hr
    simp only [lineRules, List.filterMap_cons, List.filterMap_nil, List.mem_cons, List.not_mem_nil, or_false,
      reduceCtorEq, Rulebook.AnyRule.discreteValue.injEq, false_or] at hr
    subst hr
    decide +kernel
  · rintro (⟨r, hr, hid⟩ | ⟨r, hr, hid⟩) <;> rw [hlive] at hr <;>
      simp only [lineRules, List.filterMap_cons, List.filterMap_nil, List.mem_cons, List.not_mem_nil, or_false,
        reduceCtorEq, Rulebook.AnyRule.discreteValue.injEq, Rulebook.AnyRule.rangeValue.injEq, false_or] at hr <;>
      subst hr <;> simp at hid

/-- C45: a phase that mentions an unknown rule is rejected with `std::out_of_range`, not with the documented
`assertion_error`. -/
theorem validate_unknown_rule :
    validate (network lineGeometry lineRules [some lightA]
      [.add ⟨"ring", .ofList [("p", ⟨"p", .empty, .ofList [("nothing", lineValue)], none⟩)], .ofList [("p", [])]⟩])
      allChecks = .error .outOfRange := by
  decide +kernel

end Maliput.Props
