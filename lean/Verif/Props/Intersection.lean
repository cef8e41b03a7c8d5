import Verif.Lemmas.Intersection
import Verif.Props.Phases

set_option autoImplicit false

/-! C43 and C55: intersections and the book of intersections. -/
namespace Maliput.Props

open Maliput.Spec Maliput.Intersections Maliput.Intersections.Spec
open Maliput.Phases (Provider)

/-! ### Adding and getting -/

/-- C43: `AddIntersection` accepts an intersection that is not null and whose id is new, and rejects null
with an exception; the book is unchanged unless the call is accepted.  For an id in use the call has
undefined behaviour instead of the exception (`intersectionBook_duplicate_undefined`). -/
theorem intersectionBook_add_partial (b : Book) (o : Option Intersection) :
    ((b.add o).2 = .ok () ↔ ∃ i, o = some i ∧ b.getIntersection i.id = none) ∧
    ((b.add o).2 ≠ .ok () → (b.add o).1 = b) ∧ (o = none → (b.add o).2 = .error .throws) := by
  cases o with
  | none => simp [Book.add]
  | some t =>
    simp only [Book.add, Book.getIntersection, Option.some.injEq, exists_eq_left']
    by_cases h : b.get? t.id = none
    · rw [(Map.emplace_new t h).1]; simp [h]
    · rw [Map.emplace_old h]; simp [h]

/-- The clause of C43 that is false of the code: adding an id in use dereferences the pointer that was
moved from, for every book and every such intersection. -/
theorem intersectionBook_duplicate_undefined (b : Book) (i : Intersection) (h : b.getIntersection i.id ≠ none) :
    (b.add (some i)).2 = .error .ub := by
  simp only [Book.add]
  rw [Map.emplace_old h]; simp

/-- C43: after any history of `AddIntersection`, `GetIntersection(id)` is the first added intersection with
that id, and null exactly if none was given. -/
theorem intersectionBook_get (ops : List (Option Intersection)) (id : String) :
    (∀ t, (Book.run ops).getIntersection id = some t ↔ FirstWithId Intersection.id ops t ∧ t.id = id) ∧
    ((Book.run ops).getIntersection id = none ↔ ∀ t, some t ∈ ops → t.id ≠ id) := by
  rw [run_eq]
  exact ⟨(addTo_fold Intersection.id ops).1 id, (addTo_fold Intersection.id ops).2 id⟩

/-- C43: `GetIntersections()` lists exactly the added intersections, each once. -/
theorem intersectionBook_list (ops : List (Option Intersection)) :
    (∀ t, t ∈ (Book.run ops).intersections ↔ FirstWithId Intersection.id ops t) ∧
    (Book.run ops).intersections.Nodup := by
  have key := (addTo_fold Intersection.id ops).1
  rw [← run_eq] at key
  have hid : ∀ e ∈ (Book.run ops).entries, e.2.id = e.1 := fun e he =>
    ((key e.1 e.2).1 (Map.get?_eq_some.2 he)).2
  constructor
  · intro t
    simp only [Book.intersections, List.mem_map]
    constructor
    · rintro ⟨⟨k, t'⟩, h, rfl⟩
      exact ((key k t').1 (Map.get?_eq_some.2 h)).1
    · intro h
      exact ⟨(t.id, t), Map.get?_eq_some.1 ((key _ _).2 ⟨h, rfl⟩), rfl⟩
  · have h1 : (Book.run ops).intersections.map (·.id) = (Book.run ops).entries.map (·.1) := by
      simp only [Book.intersections, List.map_map]
      exact List.map_congr_left fun e he => hid e he
    exact List.Nodup.of_map (·.id) (h1 ▸ (Book.run ops).nodup)

/-! ### Finding -/

/-- C43: `FindIntersection(traffic light id)` returns an intersection of the book whose current phase
refers to the traffic light, and null only if there is none; it throws only if the current phase of some
intersection is not a phase of its ring. -/
theorem findByLight_spec (b : Book) (phaseOf : PhaseOf) (id : String) :
    (∀ r, b.findByLight phaseOf id = .ok r → Finds b.intersections (RefersToLight phaseOf id) r) ∧
    (∀ e, b.findByLight phaseOf id = .error e → e = .outOfRange ∧ ∃ i ∈ b.intersections, ¬ PhaseKnown phaseOf i) := by
  constructor
  · intro r hr
    exact findFirst_ok (fun i _ => (includesLight_spec i phaseOf id).1) hr
  · intro e he
    obtain ⟨i, hi, h⟩ := findFirst_error he
    exact ⟨((includesLight_spec i phaseOf id).2 e h).1, i, hi, ((includesLight_spec i phaseOf id).2 e h).2⟩

/-- C43: the same for `FindIntersection(discrete value rule id)`. -/
theorem findByDiscrete_spec (b : Book) (phaseOf : PhaseOf) (id : String) :
    (∀ r, b.findByDiscrete phaseOf id = .ok r → Finds b.intersections (RefersToDiscrete phaseOf id) r) ∧
    (∀ e, b.findByDiscrete phaseOf id = .error e →
      e = .outOfRange ∧ ∃ i ∈ b.intersections, ¬ PhaseKnown phaseOf i) := by
  constructor
  · intro r hr
    exact findFirst_ok (fun i _ => (includesDiscrete_spec i phaseOf id).1) hr
  · intro e he
    obtain ⟨i, hi, h⟩ := findFirst_error he
    exact ⟨((includesDiscrete_spec i phaseOf id).2 e h).1, i, hi, ((includesDiscrete_spec i phaseOf id).2 e h).2⟩

/-- C43: the same for `FindIntersection(right-of-way rule id)`. -/
theorem findByRow_spec (b : Book) (phaseOf : PhaseOf) (id : String) :
    (∀ r, b.findByRow phaseOf id = .ok r → Finds b.intersections (RefersToRow phaseOf id) r) ∧
    (∀ e, b.findByRow phaseOf id = .error e → e = .outOfRange ∧ ∃ i ∈ b.intersections, ¬ PhaseKnown phaseOf i) := by
  constructor
  · intro r hr
    exact findFirst_ok (fun i _ => (includesRow_spec i phaseOf id).1) hr
  · intro e he
    obtain ⟨i, hi, h⟩ := findFirst_error he
    exact ⟨((includesRow_spec i phaseOf id).2 e h).1, i, hi, ((includesRow_spec i phaseOf id).2 e h).2⟩

/-- C43: `FindIntersection(position)` where every region is usable (see `RegionOk`): the answer is an
intersection whose region contains the position.  The other direction (an answer of null means that no
region contains it) is false of the code, see `findByPosition_misses`. -/
theorem findByPosition_partial {Pos : Type} (b : Book) (g : IncludeGeometry Pos) (pos : Pos)
    (h : ∀ i ∈ b.intersections, RegionOk g i.region) :
    ∃ r, b.findByPosition g pos = .ok r ∧
      ∀ i, r = some i → i ∈ b.intersections ∧ InRegion g pos i.region := by
  have key : ∀ i ∈ b.intersections, ∃ c, i.includesPosition g pos = .ok c ∧ (c = true → InRegion g pos i.region) :=
    fun i hi => isIncluded_sound_partial g pos i.region (h i hi)
  cases hr : b.findByPosition g pos with
  | error e =>
    obtain ⟨i, hi, h2⟩ := findFirst_error hr
    obtain ⟨c, hc, -⟩ := key i hi
    rw [hc] at h2; cases h2
  | ok r =>
    refine ⟨r, rfl, ?_⟩
    intro i hi
    have hf := findFirst_ok (P := fun i => i.includesPosition g pos = .ok true) (l := b.intersections)
      (fun i hi c hc => by rw [hc]; simp) hr
    obtain ⟨h1, h2⟩ := hf.1 i hi
    obtain ⟨c, hc, hc'⟩ := key i h1
    rw [hc] at h2
    exact ⟨h1, hc' (Except.ok.inj h2)⟩

/-- C43 where in every region at most one lane is within tolerance of the position: the answer is an
intersection whose region contains it, and null only if there is none. -/
theorem findByPosition_iff_partial {Pos : Type} (b : Book) (g : IncludeGeometry Pos) (pos : Pos)
    (h : ∀ i ∈ b.intersections, RegionOk g i.region)
    (hone : ∀ i ∈ b.intersections, ∀ r ∈ i.region, ∀ r' ∈ i.region, LaneNear g pos r → LaneNear g pos r' → r = r') :
    ∃ r, b.findByPosition g pos = .ok r ∧ Finds b.intersections (fun i => InRegion g pos i.region) r := by
  have key : ∀ i ∈ b.intersections, ∃ c, i.includesPosition g pos = .ok c ∧ (c = true ↔ InRegion g pos i.region) :=
    fun i hi => isIncluded_iff_partial g pos i.region (h i hi) (hone i hi)
  cases hr : b.findByPosition g pos with
  | error e =>
    obtain ⟨i, hi, h2⟩ := findFirst_error hr
    obtain ⟨c, hc, -⟩ := key i hi
    rw [hc] at h2; cases h2
  | ok r =>
    refine ⟨r, rfl, findFirst_ok (fun i hi c hc => ?_) hr⟩
    obtain ⟨c', hc', h3⟩ := key i hi
    rw [hc'] at hc
    obtain rfl := Except.ok.inj hc
    exact h3

/-- The clause of C43 that is false of the code: the only intersection of the book contains the position,
yet `FindIntersection(position)` answers null. -/
theorem findByPosition_misses :
    ∃ (b : Book) (g : IncludeGeometry ℚ) (pos : ℚ) (i : Intersection), i ∈ b.intersections ∧
      RegionOk g i.region ∧ InRegion g pos i.region ∧ b.findByPosition g pos = .ok none := by
  refine ⟨Book.run [some ⟨"i", [⟨"a", ⟨0, 10⟩⟩, ⟨"a", ⟨20, 30⟩⟩], lightRing⟩],
    ⟨fun _ => some (fun p => (max p 0, 0)), 0⟩, 25, ⟨"i", [⟨"a", ⟨0, 10⟩⟩, ⟨"a", ⟨20, 30⟩⟩], lightRing⟩,
    ?_, ?_, ?_, by decide +kernel⟩
  · exact ((intersectionBook_list _).1 _).2 ⟨[], [], rfl, by simp⟩
  · refine ⟨by simp, ?_, le_refl _, fun r hr => ⟨_, rfl⟩, ?_⟩
    · intro x hx; simp only [List.mem_cons, List.not_mem_nil, or_false] at hx
      rcases hx with rfl | rfl <;> constructor <;> norm_num
    · intro id f hf p
      simp only [Option.some.injEq] at hf
      subst hf
      exact le_max_right _ _
  · exact ⟨⟨"a", ⟨20, 30⟩⟩, by simp, _, rfl, le_refl _, 25, Or.inl (by norm_num), by norm_num⟩

/-- C43: `FindIntersections(region, tolerance)` returns exactly the intersections of the book whose region
comes within the tolerance of the given one, each once. -/
theorem findIntersections_iff (b : Book) (region : List LaneSRange) (tol : ℚ) (ht : 0 ≤ tol)
    (hr : ∀ x ∈ region, ValidRange x.sRange)
    (hb : ∀ i ∈ b.intersections, ∀ x ∈ i.region, ValidRange x.sRange) :
    ∃ l, b.findIntersections region tol = .ok l ∧ l.Sublist b.intersections ∧
      ∀ i, i ∈ l ↔ i ∈ b.intersections ∧ Meets region tol i :=
  findMeeting_spec region hr tol ht b.intersections hb

/-! ### The phase of an intersection -/

/-- C55: `SetPhase` of an intersection with a phase for which the provider has its ring makes `Phase()` of
every intersection with that ring return what was set, and leaves the others alone. -/
theorem intersection_setPhase (p : Provider) (i j : Intersection) (phase : String) (next : Option String)
    (duration : Option ℚ) :
    ((i.setPhase p phase next duration).2 = .ok () ↔
      basePhase p i ≠ none ∧ (duration ≠ none → next ≠ none)) ∧
    ((i.setPhase p phase next duration).2 = .ok () →
      basePhase (i.setPhase p phase next duration).1 j =
        if j.ring.id = i.ring.id then some ⟨phase, next.map fun n => (n, duration)⟩ else basePhase p j) ∧
    ((i.setPhase p phase next duration).2 ≠ .ok () → (i.setPhase p phase next duration) = (p, .error .throws)) := by
  unfold Intersection.setPhase Phases.Provider.setPhase basePhase Phases.Provider.getPhase Phases.computeNext
  by_cases h1 : (duration.isSome && !next.isSome) = true
  · rw [if_pos h1]
    simp only [Bool.and_eq_true, Bool.not_eq_true', Option.isSome_iff_ne_none] at h1
    simp_all
  · rw [if_neg h1]
    by_cases h2 : p.has i.ring.id = true
    · obtain ⟨v, hv⟩ := Map.has_iff.1 h2
      simp only [h2, Bool.not_true, Bool.false_eq_true, if_false, Map.get?_set, hv, ne_eq, reduceCtorEq,
        not_false_eq_true, true_and, not_true_eq_false, false_implies, true_implies, and_true, true_iff]
      cases duration <;> cases next <;> simp_all
    · have h3 := Bool.not_eq_true _ ▸ h2
      simp only [h3, Bool.not_false, if_true, Map.has_false.1 h3]
      simp

/-- C55: `SetPhase` does not check that the phase is one of the ring; from then on `bulb_states()`, the
lookups of the intersection and `FindIntersection` throw `std::out_of_range`. -/
theorem intersection_unknown_phase :
    ∃ (p : Provider) (i : Intersection), i.ring = lightRing ∧
      (i.setPhase p "blue" none none).2 = .ok () ∧
      i.bulbStates (basePhase (i.setPhase p "blue" none none).1) = .error .outOfRange ∧
      (Book.run [some i]).findByLight (basePhase (i.setPhase p "blue" none none).1) "light" = .error .outOfRange :=
  ⟨.ofList [("ring", ⟨"red", none⟩)], ⟨"i", [], lightRing⟩, rfl, by decide +kernel, by decide +kernel,
    by decide +kernel⟩

/-- C55: `bulb_states()`, `DiscreteValueRuleStates()` and `RuleStates()` are those of the current phase,
and nothing if no phase is current. -/
theorem intersection_states (i : Intersection) (phaseOf : PhaseOf) :
    (phaseOf i = none → i.bulbStates phaseOf = .ok none ∧ i.discreteStates phaseOf = .ok none ∧
      i.ruleStates phaseOf = .ok none) ∧
    (∀ phase, CurrentPhase phaseOf i phase → i.bulbStates phaseOf = .ok phase.bulbStates ∧
      i.discreteStates phaseOf = .ok (some phase.discreteStates) ∧
      i.ruleStates phaseOf = .ok (some phase.ruleStates)) := by
  constructor
  · intro h
    simp [Intersection.bulbStates, Intersection.discreteStates, Intersection.ruleStates, h]
  · rintro phase ⟨res, h1, h2⟩
    have h3 := Map.at!_ok.2 (Map.get?_eq_some.2 h2)
    simp [Intersection.bulbStates, Intersection.discreteStates, Intersection.ruleStates, h1, h3, bind, Except.bind,
      pure, Except.pure]

/-! ### Examples -/

def crossing : Intersection := ⟨"crossing", [⟨"a", ⟨0, 10⟩⟩, ⟨"b", ⟨20, 30⟩⟩], lightRing⟩
def crossingPhases : Provider := .ofList [("ring", ⟨"green", some ("red", some 5)⟩)]

example : (∃ phase, CurrentPhase (basePhase crossingPhases) crossing phase) ∧
    (Book.run [none, some crossing]).findByLight (basePhase crossingPhases) "light" = .ok (some crossing) ∧
    (Book.run [none, some crossing]).findByLight (basePhase crossingPhases) "other" = .ok none ∧
    (Book.run [none, some crossing]).findByRow (basePhase crossingPhases) "r" = .ok (some crossing) ∧
    (Book.run [none, some crossing]).findIntersections [⟨"b", ⟨31, 40⟩⟩] 2 = .ok [crossing] ∧
    (Book.run [none, some crossing]).findIntersections [⟨"b", ⟨31, 40⟩⟩] 0 = .ok [] ∧
    ((Book.run [none, some crossing]).add (some crossing)).2 = .error .ub := by
  refine ⟨⟨greenPhase, ⟨"green", some ("red", some 5)⟩, by decide +kernel, by decide +kernel⟩, by decide +kernel,
    by decide +kernel, by decide +kernel, by decide +kernel, by decide +kernel, by decide +kernel⟩

end Maliput.Props
