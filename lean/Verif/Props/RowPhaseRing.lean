import Verif.Lemmas.RowPhaseRing
import Verif.Props.PhaseRingLoader

set_option autoImplicit false

/-!
C81: loading a phase ring document for right-of-way rules.  `c` is the conversion of texts to numbers.
-/
namespace Maliput.Props

open Maliput.Rules Maliput.TrafficLights Maliput.Phases Maliput.Phases.Spec Maliput.Loader Maliput.Loader.Spec
  Maliput.Yaml Maliput.Yaml.Spec

/-- C81: a document that describes valid rings, with distinct ids and no rule in common, whose states are
mirrored by discrete value rules, is loaded, and the book contains exactly the described rings. -/
theorem rowRing_loader_complete (rulebook : Rulebook.Book) (lights : TrafficLights.Book) (hl : BuiltLights lights)
    (c : Conv) (root : Doc) (docs : List Doc) (xs : List RowRingSays) (h : HasField root "PhaseRings" (.seq docs))
    (hx : List.Forall₂ (SaysRowRing rulebook lights c) docs xs) (hv : ∀ x ∈ xs, ValidRowRing x)
    (hm : ∀ x ∈ xs, Mirrored rulebook x) (hs : SeparateRowRings xs) :
    ∃ b, loadRowPhaseRings rulebook lights c root = .ok b ∧ IsRowRingBook rulebook xs b := by
  obtain ⟨rings, h1, h2⟩ : ∃ rings, List.Forall₂ (fun d r => buildRowPhaseRing rulebook lights c (some d) = .ok r) docs rings ∧
      List.Forall₂ (fun (x : RowRingSays) (r : Ring) => IsRowRing rulebook x r ∧ ∀ k,
        (CoversRow r k ↔ k ∈ x.rules.map (·.1)) ∧
        (CoversDiscrete r k ↔ ∃ id ∈ x.rules.map (·.1), k = "Right-Of-Way Rule Type/" ++ id)) xs rings := by
    clear hs h
    induction hx with
    | nil => exact ⟨[], .nil, .nil⟩
    | cons hx _ ih =>
      obtain ⟨rings, h1, h2⟩ := ih (fun y hy => hv y (by simp [hy])) fun y hy => hm y (by simp [hy])
      obtain ⟨r, h3, h4⟩ := buildRowPhaseRing_of hl hx (hv _ (by simp)) (hm _ (by simp))
      exact ⟨r :: rings, .cons h3 h1, .cons ⟨h4, h4.covers (hv _ (by simp))⟩ h2⟩
  have hsep := (separateRowRings_iff h2).2 hs
  refine ⟨_, (loadRings_ok (buildRowPhaseRing_valid hl)).2 ⟨docs, rings, h, h1, hsep, rfl⟩, isRowRingBook_of h2 hsep ?_⟩
  intro r hr
  obtain ⟨d, -, hd⟩ := forall₂_mem_right h1 hr
  exact buildRowPhaseRing_valid hl d r hd

/-- C81: conversely, if a document is loaded then it describes valid rings, with distinct ids and no rule in
common, and the book contains exactly the described rings, whose phases give each right-of-way rule the named
or a default state, and the mirroring discrete value rule the mirrored value. -/
theorem rowRing_loader_sound (rulebook : Rulebook.Book) (lights : TrafficLights.Book) (hl : BuiltLights lights)
    (c : Conv) (root : Doc) (b : Phases.Book) (h : loadRowPhaseRings rulebook lights c root = .ok b) :
    ∃ docs xs, HasField root "PhaseRings" (.seq docs) ∧ List.Forall₂ (SaysRowRing rulebook lights c) docs xs ∧
      (∀ x ∈ xs, ValidRowRing x) ∧ SeparateRowRings xs ∧ IsRowRingBook rulebook xs b := by
  obtain ⟨docs, rings, h1, h2, h3, rfl⟩ := (loadRings_ok (buildRowPhaseRing_valid hl)).1 h
  obtain ⟨xs, h4, h5⟩ := forall₂_choose (S := fun d x => SaysRowRing rulebook lights c d x ∧ ValidRowRing x)
    (T := fun (x : RowRingSays) (r : Ring) => (IsRowRing rulebook x r ∧ ∀ k,
      (CoversRow r k ↔ k ∈ x.rules.map (·.1)) ∧
      (CoversDiscrete r k ↔ ∃ id ∈ x.rules.map (·.1), k = "Right-Of-Way Rule Type/" ++ id)) ∧ Valid r) h2 (by
    intro d r hd
    obtain ⟨x, a, b, c, d⟩ := buildRowPhaseRing_says hl hd
    exact ⟨x, ⟨a, b⟩, ⟨c, c.covers b⟩, d⟩)
  have h6 := h5.imp fun _ _ h => h.1
  refine ⟨docs, xs, h1, h4.imp fun _ _ h => h.1, fun x hx => ?_, (separateRowRings_iff h6).1 h3,
    isRowRingBook_of h6 h3 fun r hr => ?_⟩
  · obtain ⟨d, -, hd⟩ := forall₂_mem_right h4 hx
    exact hd.2
  · obtain ⟨x, -, hx⟩ := forall₂_mem_right h5 hr
    exact hx.2

/-- C81: how loading can fail.  Besides an exception of the library, an `std::out_of_range` escapes for a
listed rule that is not in the rulebook or has no mirroring rule, the process is aborted for a right-of-way
rule without states, and the behaviour is undefined if one phase has bulb states and another has not. -/
theorem rowRing_loader_errors (rulebook : Rulebook.Book) (lights : TrafficLights.Book) (hl : BuiltLights lights)
    (c : Conv) (root : Doc) (e : Err) (h : loadRowPhaseRings rulebook lights c root = .error e) :
    e = .throws ∨ ∃ docs d, HasField root "PhaseRings" (.seq docs) ∧ d ∈ docs ∧
      ((e = .outOfRange ∧ ∃ l x id, HasField d "Rules" (.seq l) ∧ x ∈ l ∧ Reads x id ∧
        (rulebook.rightOfWays.get? id = none ∨
          rulebook.discreteValueRules.get? ("Right-Of-Way Rule Type/" ++ id) = none)) ∨
      (e = .aborts ∧ ∃ id r, Rulebook.getRightOfWay rulebook id = .ok r ∧ ∀ k, r.states.get? k = none) ∨
      (e = .ub ∧ ∃ l, HasField d "Phases" (.seq l) ∧ ∃ p ∈ l, ∃ q ∈ l,
        (∃ v, HasField p "TrafficLightStates" v) ∧ LacksField q "TrafficLightStates")) := by
  rcases loadRings_error (buildRowPhaseRing_valid hl) h with h | ⟨docs, d, h1, h2, h3⟩
  · exact Or.inl h
  · rcases buildRowPhaseRing_error hl h3 with h | h
    · exact Or.inl h
    · exact Or.inr ⟨docs, d, h1, h2, h⟩

/-! ### Rulebooks that were loaded -/

/-- C81: in a rulebook that was loaded, every right-of-way rule has a state, the states are known by their
ids, and each of them is mirrored. -/
theorem loaded_rulebook_mirrors (g : String → Option ℚ) (c : Conv) (root : Doc) (rulebook : Rulebook.Book)
    (h : loadRulebook g c root = .ok rulebook) (id : String) (r : RightOfWayRule)
    (hr : Rulebook.getRightOfWay rulebook id = .ok r) :
    (∃ k s, r.states.get? k = some s) ∧
      ∀ k t, r.states.get? k = some t → t.id = k ∧ ∃ v, IsMirror rulebook id k v := by
  obtain ⟨rowDocs, dirDocs, rows, dirs, stops, mirrors, all, -, h2, -, -, h5, rfl, h7, h8, -⟩ :=
    rulebook_loader_sound g c root rulebook h
  have hn : Rulebook.Spec.NoRepeatedLaneRemoved (all.map Rulebook.Op.add) := by
    intro pre k post he
    have : Rulebook.Op.remove k ∈ List.map Rulebook.Op.add all := by rw [he]; simp
    simp at this
  have hget := rulebook_get_partial (all.map Rulebook.Op.add) hn
  rw [h7] at hget
  obtain ⟨hall, rfl⟩ := ((hget id).1 r).1 hr
  have hrow : r ∈ rows := by
    rcases (h8 _).1 hall with ⟨r', h, he⟩ | ⟨d, -, he⟩ | ⟨d, -, he⟩ | ⟨d, -, he⟩
    · injection he with he
      rwa [he]
    all_goals cases he
  obtain ⟨d, -, hsay, hval⟩ := forall₂_mem_right h2 hrow
  obtain ⟨m, hm, hmir⟩ := forall₂_mem_left h5 hrow
  refine ⟨?_, fun k t ht => ⟨?_, ?_⟩⟩
  · exact map_entries_ne hval.some
  · obtain ⟨v, -, -, hst⟩ := hsay.states
    obtain ⟨_, _, _, -, -, -, rfl⟩ := (hst k t).1 ht
    rfl
  · obtain ⟨v, hv, hi⟩ := forall₂_mem_left hmir.values (Map.get?_eq_some.1 ht)
    refine ⟨v, r, t, m, v, hr, ht, hi, ((hget _).2.2.2.1 m).2 ⟨(h8 _).2 (Or.inr (Or.inr (Or.inl ⟨m, hm, rfl⟩))), hmir.id⟩,
      hv, ?_⟩
    unfold DiscreteValue.eq
    rw [stateEq_refl]
    simp

/-- C81: with a rulebook that was loaded, a document that describes rings is loaded if each of its rings has
a phase and names only states that the rules have, the phases have distinct ids and mention the same bulbs,
the graph is about these phases, and the rings are separate. -/
theorem rowRing_loader_with_loaded_rulebook (g : String → Option ℚ) (c : Conv) (bookRoot : Doc)
    (rulebook : Rulebook.Book) (hb : loadRulebook g c bookRoot = .ok rulebook)
    (lights : TrafficLights.Book) (hl : BuiltLights lights) (root : Doc) (docs : List Doc) (xs : List RowRingSays)
    (h : HasField root "PhaseRings" (.seq docs)) (hx : List.Forall₂ (SaysRowRing rulebook lights c) docs xs)
    (hne : ∀ x ∈ xs, x.phases ≠ []) (hids : ∀ x ∈ xs, (x.phases.map (·.id)).Nodup)
    (hbulbs : ∀ x ∈ xs, ∀ p ∈ x.phases, ∀ q ∈ x.phases, SameBulbsSaid p.bulbs q.bulbs)
    (hnext : ∀ x ∈ xs, ValidGraph (x.phases.map (·.id)) x.next)
    (hnamed : ∀ x ∈ xs, ∀ y ∈ x.phases, ∀ a ∈ y.named, ∃ r t, (a.1, r) ∈ x.rules ∧ r.states.get? a.2 = some t)
    (hs : SeparateRowRings xs) :
    ∃ b, loadRowPhaseRings rulebook lights c root = .ok b ∧ IsRowRingBook rulebook xs b := by
  have hbook : ∀ x ∈ xs, ∀ id r, (id, r) ∈ x.rules → Rulebook.getRightOfWay rulebook id = .ok r := by
    intro x hx' id r hr
    obtain ⟨d, -, hd⟩ := forall₂_mem_right hx hx'
    obtain ⟨l, -, hl⟩ := hd.rules
    obtain ⟨e, -, -, -, he⟩ := forall₂_mem_right hl hr
    exact he
  refine rowRing_loader_complete rulebook lights hl c root docs xs h hx (fun x hx' => ?_) (fun x hx' => ?_) hs
  · refine ⟨fun r hr => ?_, hne x hx', hids x hx', ?_, hnext x hx'⟩
    · exact (loaded_rulebook_mirrors g c bookRoot rulebook hb r.1 r.2 (hbook x hx' r.1 r.2 hr)).1
    · intro p ps hp _ q hq
      exact hbulbs x hx' p (by rw [hp]; simp) q (by rw [hp]; simp [hq])
  · rintro y hy id s (⟨as, bs, he, -⟩ | ⟨-, r, t, hr, ⟨⟨k, hk⟩, -⟩, rfl⟩)
    · obtain ⟨r, t, hr, ht⟩ := hnamed x hx' y hy (id, s) (by rw [he]; simp)
      exact ((loaded_rulebook_mirrors g c bookRoot rulebook hb id r (hbook x hx' id r hr)).2 s t ht).2
    · obtain ⟨rfl, hm⟩ := (loaded_rulebook_mirrors g c bookRoot rulebook hb id r (hbook x hx' id r hr)).2 k t hk
      exact hm

/-- C81: conversely, the states of the rings that are loaded with a rulebook that was loaded are mirrored, so
that then `rowRing_loader_complete` describes exactly the documents that are loaded. -/
theorem rowRing_loader_mirrored (g : String → Option ℚ) (c : Conv) (bookRoot : Doc)
    (rulebook : Rulebook.Book) (hb : loadRulebook g c bookRoot = .ok rulebook)
    (lights : TrafficLights.Book) (docs : List Doc) (xs : List RowRingSays) (b : Phases.Book)
    (hx : List.Forall₂ (SaysRowRing rulebook lights c) docs xs) (hi : IsRowRingBook rulebook xs b) :
    ∀ x ∈ xs, Mirrored rulebook x := by
  intro x hxm y hy id s hs
  obtain ⟨d, -, hd⟩ := forall₂_mem_right hx hxm
  obtain ⟨l, -, hl⟩ := hd.rules
  rcases hs with hlast | ⟨-, r, t, hr, ⟨⟨k, hk⟩, -⟩, rfl⟩
  · obtain ⟨ring, -, hring, -⟩ := hi.rings x hxm
    obtain ⟨p, -, hp⟩ := hring.phases y hy
    obtain ⟨pl, -, hpl⟩ := hd.phases
    obtain ⟨dp, -, hdp⟩ := forall₂_mem_right hpl hy
    have hrule : ∃ r, (id, r) ∈ x.rules := by
      obtain ⟨as, bs, he, -⟩ := hlast
      exact hdp.rule (id, s) (by rw [he]; simp)
    obtain ⟨s', hs'⟩ := (hp.rows id).2 hrule
    have heq : s' = s := by
      have huniq : ∀ u, LastOf y.named id u ↔ (assign .empty y.named).get? id = some u := by
        intro u
        rw [assign_get]
        simp
      rcases hp.row id s' hs' with h | ⟨h, -⟩
      · rw [huniq] at h hlast
        rw [h] at hlast
        exact Option.some.inj hlast
      · obtain ⟨as, bs, he, -⟩ := hlast
        exact absurd rfl (h (id, s) (by rw [he]; simp))
    subst heq
    obtain ⟨r, hr⟩ := hrule
    obtain ⟨v, hv⟩ := (hp.keys ("Right-Of-Way Rule Type/" ++ id)).2 ⟨id, r, hr, rfl⟩
    exact ⟨v, hp.discrete id s' v hs' hv⟩
  · obtain ⟨e, -, -, -, he⟩ := forall₂_mem_right hl hr
    obtain ⟨rfl, hm⟩ := (loaded_rulebook_mirrors g c bookRoot rulebook hb id r he).2 k t hk
    exact hm

/-! ### A document -/

/-- The states of rules in the phase of a ring of the book that is loaded with the rulebook of `bookDoc`. -/
def loadedRowStates (root : Doc) (ring phase : String) : Except Err (List (String × String)) := do
  let rulebook ← loadRulebook docLanes docConv (bookDoc "1" "5")
  let b ← loadRowPhaseRings rulebook oneLight docConv root
  match getPhaseRing b ring with
  | none => .error .throws
  | some r =>
    match r.getPhase phase with
    | none => .error .throws
    | some p => return p.ruleStates.entries ++ p.discreteStates.entries.map fun e => (e.1, e.2.value)

/-- A ring for the rule "r" of `bookDoc`. -/
def rowRingDoc : Doc :=
  ringsDoc [ringDoc "ring" ["r"]
    [phaseDoc "one" [("r", .scalar "Go")] (some [("red", .scalar "On")]), phaseDoc "two" [] (some [])] []]

/-- The ring is loaded.  Here every phase starts from the default states. -/
theorem rowRingDoc_loads :
    loadedRowStates rowRingDoc "ring" "one" = .ok [("r", "Go"), ("Right-Of-Way Rule Type/r", "Go")] ∧
    loadedRowStates rowRingDoc "ring" "two" = .ok [("r", "Stop"), ("Right-Of-Way Rule Type/r", "Stop")] := by
  decide +kernel

/-- An unknown state throws; an unknown rule is a `std::out_of_range`. -/
example :
    loadedRowStates (ringsDoc [ringDoc "ring" ["r"] [phaseDoc "one" [("r", .scalar "Fly")] none] []]) "ring" "one" =
      .error .throws ∧
    loadedRowStates (ringsDoc [ringDoc "ring" ["q"] [phaseDoc "one" [] none] []]) "ring" "one" = .error .outOfRange := by
  decide +kernel

/-- C81: if the rulebook has the right-of-way rule but not its mirror, an `std::out_of_range` escapes. -/
theorem rowRing_loader_no_mirror :
    (do
      let rulebook ← loadRulebook docLanes docConv (bookDoc "1" "5")
      let _ ← loadRowPhaseRings { rulebook with discreteValueRules := .empty } oneLight docConv rowRingDoc
      return : Except Err Unit) = .error .outOfRange := by
  decide +kernel

/-- The hypotheses of `rowRing_loader_complete` are met by the document: it is loaded, so its content exists. -/
example : ∃ rulebook docs xs, loadRulebook docLanes docConv (bookDoc "1" "5") = .ok rulebook ∧
    HasField rowRingDoc "PhaseRings" (.seq docs) ∧
    List.Forall₂ (SaysRowRing rulebook oneLight docConv) docs xs ∧ (∀ x ∈ xs, ValidRowRing x) ∧
    (∀ x ∈ xs, Mirrored rulebook x) ∧ SeparateRowRings xs ∧ ∃ x ∈ xs, x.id = "ring" := by
  have h : (do
      let rulebook ← loadRulebook docLanes docConv (bookDoc "1" "5")
      let b ← loadRowPhaseRings rulebook oneLight docConv rowRingDoc
      return (getPhaseRing b "ring").isSome : Except Err Bool) = .ok true := by decide +kernel
  rw [bind_ok] at h
  obtain ⟨rulebook, hb, h⟩ := h
  rw [bind_ok] at h
  obtain ⟨b, h, h'⟩ := h
  obtain ⟨docs, xs, h1, h2, h3, h4, h5⟩ := rowRing_loader_sound _ _ oneLight_built _ _ _ h
  obtain ⟨r, hr⟩ := Option.isSome_iff_exists.1 (pure_ok.1 h')
  exact ⟨rulebook, docs, xs, hb, h1, h2, h3, rowRing_loader_mirrored _ _ _ _ hb _ _ _ _ h2 h5, h4,
    h5.only "ring" r hr⟩

end Maliput.Props
