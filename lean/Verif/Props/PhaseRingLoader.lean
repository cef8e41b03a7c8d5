import Verif.Lemmas.PhaseRingErrors
import Verif.Props.TrafficLightLoader

set_option autoImplicit false

/-!
C80: loading a phase ring document for discrete value rules.  `c` is the conversion of texts to numbers.
-/
namespace Maliput.Props

open Maliput.Rules Maliput.TrafficLights Maliput.Phases Maliput.Phases.Spec Maliput.Loader Maliput.Loader.Spec
  Maliput.Yaml Maliput.Yaml.Spec

/-- C80: a document that describes valid rings, with distinct ids and no rule in common, is loaded, and the
book contains exactly the described rings. -/
theorem ring_loader_complete (rulebook : Rulebook.Book) (lights : TrafficLights.Book) (hl : BuiltLights lights)
    (c : Conv) (root : Doc) (docs : List Doc) (xs : List RingSays) (h : HasField root "PhaseRings" (.seq docs))
    (hx : List.Forall₂ (SaysRing rulebook lights c) docs xs) (hv : ∀ x ∈ xs, ValidRing x) (hs : SeparateRings xs) :
    ∃ b, loadPhaseRings rulebook lights c root = .ok b ∧ IsRingBook xs b := by
  obtain ⟨rings, h1, h2⟩ : ∃ rings, List.Forall₂ (fun d r => buildPhaseRing rulebook lights c (some d) = .ok r) docs rings ∧
      List.Forall₂ (fun (x : RingSays) (r : Ring) => IsRing x r ∧
        ∀ k, ¬ CoversRow r k ∧ (CoversDiscrete r k ↔ k ∈ x.rules.map (·.1))) xs rings := by
    clear hs h
    induction hx with
    | nil => exact ⟨[], .nil, .nil⟩
    | cons hx _ ih =>
      obtain ⟨rings, h1, h2⟩ := ih fun y hy => hv y (by simp [hy])
      obtain ⟨r, h3, h4⟩ := buildPhaseRing_of hl hx (hv _ (by simp))
      exact ⟨r :: rings, .cons h3 h1, .cons ⟨h4, h4.covers hx (hv _ (by simp))⟩ h2⟩
  have hsep := (separateRings_iff h2).2 hs
  refine ⟨_, (loadRings_ok (buildPhaseRing_valid hl)).2 ⟨docs, rings, h, h1, hsep, rfl⟩, isRingBook_of h2 hsep ?_⟩
  intro r hr
  obtain ⟨d, -, hd⟩ := forall₂_mem_right h1 hr
  exact buildPhaseRing_valid hl d r hd

/-- C80: conversely, if a document is loaded then it describes valid rings, with distinct ids and no rule in
common, and the book contains exactly the described rings. -/
theorem ring_loader_sound (rulebook : Rulebook.Book) (lights : TrafficLights.Book) (hl : BuiltLights lights)
    (c : Conv) (root : Doc) (b : Phases.Book) (h : loadPhaseRings rulebook lights c root = .ok b) :
    ∃ docs xs, HasField root "PhaseRings" (.seq docs) ∧ List.Forall₂ (SaysRing rulebook lights c) docs xs ∧
      (∀ x ∈ xs, ValidRing x) ∧ SeparateRings xs ∧ IsRingBook xs b := by
  obtain ⟨docs, rings, h1, h2, h3, rfl⟩ := (loadRings_ok (buildPhaseRing_valid hl)).1 h
  obtain ⟨xs, h4, h5⟩ := forall₂_choose (S := fun d x => SaysRing rulebook lights c d x ∧ ValidRing x)
    (T := fun (x : RingSays) (r : Ring) => (IsRing x r ∧
      ∀ k, ¬ CoversRow r k ∧ (CoversDiscrete r k ↔ k ∈ x.rules.map (·.1))) ∧ Valid r) h2 (by
    intro d r hd
    obtain ⟨x, a, b, c, d⟩ := buildPhaseRing_says hl hd
    exact ⟨x, ⟨a, b⟩, ⟨c, c.covers a b⟩, d⟩)
  have h6 := h5.imp fun _ _ h => h.1
  refine ⟨docs, xs, h1, h4.imp fun _ _ h => h.1, fun x hx => ?_, (separateRings_iff h6).1 h3,
    isRingBook_of h6 h3 fun r hr => ?_⟩
  · obtain ⟨d, -, hd⟩ := forall₂_mem_right h4 hx
    exact hd.2
  · obtain ⟨x, -, hx⟩ := forall₂_mem_right h5 hr
    exact hx.2

/-- C80: how loading can fail.  Besides an exception of the library, an `std::out_of_range` escapes for a
listed rule that is not in the rulebook, the process is aborted for a rule without one of the values "Stop",
"StopThenGo" and "Go", and the behaviour is undefined if one phase has bulb states and another has not. -/
theorem ring_loader_errors (rulebook : Rulebook.Book) (lights : TrafficLights.Book) (hl : BuiltLights lights)
    (c : Conv) (root : Doc) (e : Err) (h : loadPhaseRings rulebook lights c root = .error e) :
    e = .throws ∨ ∃ docs d, HasField root "PhaseRings" (.seq docs) ∧ d ∈ docs ∧
      ((e = .outOfRange ∧ ∃ l x id, HasField d "Rules" (.seq l) ∧ x ∈ l ∧ Reads x id ∧
        (Rulebook.rules rulebook).discreteValueRules.get? id = none) ∨
      (e = .aborts ∧ ∃ id r, Rulebook.getDiscreteValueRule rulebook id = .ok r ∧ ∀ v, ¬ IsDefaultValue r.states v) ∨
      (e = .ub ∧ ∃ l, HasField d "Phases" (.seq l) ∧ ∃ p ∈ l, ∃ q ∈ l,
        (∃ v, HasField p "TrafficLightStates" v) ∧ LacksField q "TrafficLightStates")) := by
  rcases loadRings_error (buildPhaseRing_valid hl) h with h | ⟨docs, d, h1, h2, h3⟩
  · exact Or.inl h
  · rcases buildPhaseRing_error hl h3 with h | h
    · exact Or.inl h
    · exact Or.inr ⟨docs, d, h1, h2, h⟩

/-! ### Documents -/

/-- A value of a discrete value rule. -/
def plainValue (value : String) : DiscreteValue := ⟨⟨0, .empty, .empty⟩, value⟩

/-- A discrete value rule with the given values. -/
def plainRule (id : String) (values : List String) : DiscreteValueRule :=
  ⟨id, "Right-Of-Way Rule Type", [⟨"a", 0, 5⟩], values.map plainValue⟩

/-- A rulebook with the rules. -/
def ringRulebook (rules : List DiscreteValueRule) : Rulebook.Book :=
  { Rulebook.Book.empty with discreteValueRules := .ofList (rules.map fun r => (r.id, r)) }

/-- Two rules, of which the second has no value "Stop". -/
def twoRules : Rulebook.Book := ringRulebook [plainRule "p" ["Go", "Stop"], plainRule "q" ["Go", "StopThenGo"]]

/-- A book with one traffic light, with the bulbs "red" and "arrow". -/
def oneLight : TrafficLights.Book := .ofList [("l", docLight "l")]

/-- A phase: the rule states, and the bulb states if there are any. -/
def phaseDoc (id : String) (states : List (String × Doc)) (bulbs : Option (List (String × Doc))) : Doc :=
  docMap ([("ID", .scalar id), ("RightOfWayRuleStates", docMap states)] ++
    match bulbs with
    | none => []
    | some l => [("TrafficLightStates", docMap [("l", docMap [("g", docMap l)])])])

/-- A ring. -/
def ringDoc (id : String) (rules : List String) (phases : List Doc) (graph : List (String × Doc)) : Doc :=
  docMap ([("ID", .scalar id), ("Rules", docSeq rules), ("Phases", .seq phases)] ++
    if graph = [] then [] else [("PhaseTransitionGraph", docMap graph)])

/-- A document with rings. -/
def ringsDoc (l : List Doc) : Doc := docMap [("PhaseRings", .seq l)]

/-- The bulb states of the phase of a ring of the loaded book. -/
def loadedBulbs (rulebook : Rulebook.Book) (root : Doc) (ring phase : String) :
    Except Err (Option (List (UniqueBulbId × BulbState))) := do
  let b ← loadPhaseRings rulebook oneLight docConv root
  match getPhaseRing b ring with
  | none => .error .throws
  | some r =>
    match r.getPhase phase with
    | none => .error .throws
    | some p => return p.bulbStates.map (·.entries)

/-- The rule states of the phase of a ring of the loaded book. -/
def loadedStates (rulebook : Rulebook.Book) (root : Doc) (ring phase : String) :
    Except Err (List (String × String)) := do
  let b ← loadPhaseRings rulebook oneLight docConv root
  match getPhaseRing b ring with
  | none => .error .throws
  | some r =>
    match r.getPhase phase with
    | none => .error .throws
    | some p => return p.discreteStates.entries.map fun e => (e.1, e.2.value)

/-- The next phases of the phase of a ring of the loaded book. -/
def loadedNext (rulebook : Rulebook.Book) (root : Doc) (ring phase : String) : Except Err (List NextPhase) := do
  let b ← loadPhaseRings rulebook oneLight docConv root
  match getPhaseRing b ring with
  | none => .error .throws
  | some r => r.getNextPhases phase

/-- A ring of two phases, with bulbs and a graph. -/
def goodRing : Doc :=
  ringsDoc [ringDoc "r" ["p", "q"]
    [phaseDoc "one" [("p", .scalar "Go")] (some [("red", .scalar "On")]),
      phaseDoc "two" [("p", .scalar "Stop"), ("q", .scalar "Go")] (some [("arrow", .scalar "On")])]
    [("one", .seq [docMap [("ID", .scalar "two"), ("duration_until", .scalar "5")]]),
      ("two", .seq [docMap [("ID", .scalar "one")]])]]

/-- The ring is loaded: rules without a named state get the default value, bulbs without one their default
state, and the graph is the one of the document. -/
theorem goodRing_loads :
    loadedStates twoRules goodRing "r" "one" = .ok [("q", "StopThenGo"), ("p", "Go")] ∧
    loadedStates twoRules goodRing "r" "two" = .ok [("p", "Stop"), ("q", "Go")] ∧
    loadedBulbs twoRules goodRing "r" "one" =
      .ok (some [(⟨"l", "g", "red"⟩, .on), (⟨"l", "g", "arrow"⟩, .blinking)]) ∧
    loadedBulbs twoRules goodRing "r" "two" =
      .ok (some [(⟨"l", "g", "red"⟩, .off), (⟨"l", "g", "arrow"⟩, .on)]) ∧
    loadedNext twoRules goodRing "r" "one" = .ok [⟨"two", some 5⟩] ∧
    loadedNext twoRules goodRing "r" "two" = .ok [⟨"one", none⟩] := by
  decide +kernel

/-- C80: a rule that a phase does not name keeps the value of the phase before it in the document, instead of
its default value: the value of "p" in the second phase is "Go" although its default value is "Stop". -/
theorem ring_loader_keeps_state :
    let root := ringsDoc [ringDoc "r" ["p"] [phaseDoc "one" [("p", .scalar "Go")] none, phaseDoc "two" [] none] []]
    loadedStates twoRules root "r" "two" = .ok [("p", "Go")] ∧
      loadedStates twoRules (ringsDoc [ringDoc "r" ["p"] [phaseDoc "two" [] none, phaseDoc "one" [("p", .scalar "Go")] none] []])
        "r" "two" = .ok [("p", "Stop")] := by
  decide +kernel

/-- C80: a bulb can be given a state that it does not have: the red bulb cannot blink. -/
theorem ring_loader_bulb_state :
    BulbState.blinking ∉ docRed.states ∧
    loadedBulbs twoRules (ringsDoc [ringDoc "r" ["p"] [phaseDoc "one" [] (some [("red", .scalar "Blinking")])] []])
      "r" "one" = .ok (some [(⟨"l", "g", "red"⟩, .blinking), (⟨"l", "g", "arrow"⟩, .blinking)]) := by
  decide +kernel

/-- C80: an unknown rule is an error, except if the rulebook has no discrete value rules at all. -/
theorem ring_loader_unknown_rule :
    let root := ringsDoc [ringDoc "r" ["unknown"] [phaseDoc "one" [] none] []]
    loadedStates twoRules root "r" "one" = .error .outOfRange ∧
      loadedStates .empty root "r" "one" = .ok [] := by
  decide +kernel

/-- C80: a rule without the values "Stop", "StopThenGo" and "Go" aborts the process. -/
theorem ring_loader_abort :
    loadedStates (ringRulebook [plainRule "p" ["Yield"]]) (ringsDoc [ringDoc "r" ["p"] [phaseDoc "one" [] none] []])
      "r" "one" = .error .aborts := by
  decide +kernel

/-- C80: the behaviour is undefined if a later phase has no bulb states; if it is the first one, the others may
have them. -/
theorem ring_loader_ub :
    loadedBulbs twoRules (ringsDoc [ringDoc "r" ["p"]
      [phaseDoc "one" [] (some [("red", .scalar "On")]), phaseDoc "two" [] none] []]) "r" "one" = .error .ub ∧
    loadedBulbs twoRules (ringsDoc [ringDoc "r" ["p"]
      [phaseDoc "two" [] none, phaseDoc "one" [] (some [("red", .scalar "On"), ("arrow", .scalar "On")])] []]) "r" "one" =
      .ok (some [(⟨"l", "g", "red"⟩, .on), (⟨"l", "g", "arrow"⟩, .on)]) := by
  decide +kernel

/-- Unknown phases, bulbs, states and repeated phases, and two rings that share a rule, throw. -/
example :
    loadedStates twoRules (ringsDoc [ringDoc "r" ["p"] [phaseDoc "one" [("p", .scalar "Fly")] none] []]) "r" "one" =
      .error .throws ∧
    loadedStates twoRules (ringsDoc [ringDoc "r" ["p"] [phaseDoc "one" [("q", .scalar "Go")] none] []]) "r" "one" =
      .error .throws ∧
    loadedStates twoRules (ringsDoc [ringDoc "r" ["p"] [phaseDoc "one" [] (some [("blue", .scalar "On")])] []]) "r" "one" =
      .error .throws ∧
    loadedStates twoRules (ringsDoc [ringDoc "r" ["p"] [phaseDoc "one" [] none, phaseDoc "one" [] none] []]) "r" "one" =
      .error .throws ∧
    loadedStates twoRules (ringsDoc [ringDoc "r" ["p"] [phaseDoc "one" [] none] [("two", .seq [])]]) "r" "one" =
      .error .throws ∧
    loadedStates twoRules (ringsDoc [ringDoc "r" ["p"] [phaseDoc "one" [] none] [],
      ringDoc "s" ["p"] [phaseDoc "one" [] none] []]) "r" "one" = .error .throws := by
  decide +kernel

/-- The traffic light could have been constructed by the user. -/
theorem oneLight_built : BuiltLights oneLight := by
  have h : loadTrafficLights docConv (lightsDoc [lightDoc "l" "5" ["On", "Blinking"]]) = .ok oneLight := by decide +kernel
  obtain ⟨docs, -, -, h1, h2⟩ := light_loader_queries _ _ _ h
  exact fun id t ht => h2 t ((h1 id t).1 ht).1

/-- The hypotheses of `ring_loader_complete` are met by the ring of two phases: it is loaded, so its content
exists. -/
example : ∃ docs xs, HasField goodRing "PhaseRings" (.seq docs) ∧
    List.Forall₂ (SaysRing twoRules oneLight docConv) docs xs ∧ (∀ x ∈ xs, ValidRing x) ∧ SeparateRings xs ∧
    ∃ x ∈ xs, x.id = "r" := by
  have h : (do
      let b ← loadPhaseRings twoRules oneLight docConv goodRing
      return (getPhaseRing b "r").isSome : Except Err Bool) = .ok true := by decide +kernel
  rw [bind_ok] at h
  obtain ⟨b, h, h'⟩ := h
  obtain ⟨docs, xs, h1, h2, h3, h4, h5⟩ := ring_loader_sound _ _ oneLight_built _ _ _ h
  obtain ⟨r, hr⟩ := Option.isSome_iff_exists.1 (pure_ok.1 h')
  exact ⟨docs, xs, h1, h2, h3, h4, h5.only "r" r hr⟩

end Maliput.Props
