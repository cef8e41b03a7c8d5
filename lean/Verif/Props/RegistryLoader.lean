import Verif.Lemmas.RegistryRulebook
import Verif.Props.RulebookLoader

set_option autoImplicit false

/-!
C76: loading rule registry documents.  C77: loading rulebook documents that use a rule registry.  C78: the rule
types that come with the library.
-/
namespace Maliput.Props

open Maliput.Rules Maliput.RuleRegistry Maliput.RuleRegistry.Spec Maliput.Loader Maliput.Loader.Spec Maliput.Yaml
  Maliput.Yaml.Spec

/-! ### C76 -/

/-- C76: whatever document is loaded, the registry is the one with exactly the rule types of the document, in
order; their ids differ and each type is acceptable (so that C30 describes every query); a type id is
reported with the values the document gives it and no other id is reported. -/
theorem registry_loader_sound (c : Conv) (root : Doc) (reg : Registry) (h : loadRegistry c root = .ok reg) :
    ∃ types ops, IsRegistry root types ∧
      List.Forall₂ (fun e op => SaysType c e.1 e.2 op ∧ Acceptable op) types ops ∧ (ops.map typeOf).Nodup ∧
      reg = run ops ∧ ∀ t v, getPossibleStates reg t = some v ↔ ∃ op ∈ ops, typeOf op = t ∧ v = (t, valuesOf op) := by
  obtain ⟨types, ops, h1, h2, h3, h4, rfl⟩ := loadRegistry_ok.1 h
  refine ⟨types, ops, h1, ?_, h4, rfl, fun t v => ?_⟩
  · have : ∀ {types : List (Doc × Doc)} {ops : List Op}, List.Forall₂ (TypeOp c) types ops →
        (∀ op ∈ ops, Acceptable op) →
        List.Forall₂ (fun e op => SaysType c e.1 e.2 op ∧ Acceptable op) types ops := by
      intro types ops h
      induction h with
      | nil => intro _; exact .nil
      | cons h _ ih => exact fun hx => .cons ⟨typeOp_says h, hx _ (by simp)⟩ (ih fun o ho => hx o (by simp [ho]))
    exact this h2 h3
  · rw [registry_reports]
    constructor
    · rintro ⟨o, ⟨pre, post, rfl, -, -⟩, h5, h6⟩
      exact ⟨o, by simp, h5, h6⟩
    · rintro ⟨o, ho, h5, h6⟩
      refine ⟨o, ?_, h5, h6⟩
      obtain ⟨pre, post, rfl⟩ := List.append_of_mem ho
      refine ⟨pre, post, rfl, h3 o ho, fun x hx he => ?_⟩
      rw [List.map_append, List.nodup_append] at h4
      exact (h4.2.2 _ (List.mem_map_of_mem hx) (typeOf o) (by simp) he).elim

/-- C76: a document that describes acceptable rule types with distinct ids is loaded. -/
theorem registry_loader_complete (c : Conv) (root : Doc) (types : List (Doc × Doc)) (ops : List Op)
    (h : IsRegistry root types)
    (hops : List.Forall₂ (fun e op => SaysType c e.1 e.2 op ∧ Acceptable op) types ops)
    (hn : (ops.map typeOf).Nodup) : ∃ reg, loadRegistry c root = .ok reg := by
  have : ∀ {types : List (Doc × Doc)} {ops : List Op},
      List.Forall₂ (fun e op => SaysType c e.1 e.2 op ∧ Acceptable op) types ops →
      ∃ ops', List.Forall₂ (TypeOp c) types ops' ∧ (∀ op ∈ ops', Acceptable op) ∧ ops'.map typeOf = ops.map typeOf := by
    intro types ops h
    induction h with
    | nil => exact ⟨[], .nil, by simp, rfl⟩
    | cons h _ ih =>
      obtain ⟨op, h1, h2, h3⟩ := typeOp_of h.1 h.2
      obtain ⟨ops', h4, h5, h6⟩ := ih
      refine ⟨op :: ops', .cons h1 h4, fun o ho => ?_, by rw [List.map_cons, List.map_cons, h3, h6]⟩
      rcases List.mem_cons.1 ho with rfl | ho
      exacts [h2, h5 o ho]
  obtain ⟨ops', h1, h2, h3⟩ := this hops
  exact ⟨_, loadRegistry_ok.2 ⟨types, ops', h, h1, h2, by rw [h3]; exact hn, rfl⟩⟩

/-- C76: loading any document either succeeds or throws. -/
theorem registry_loader_errors (c : Conv) (root : Doc) (e : Err) (h : loadRegistry c root = .error e) :
    e = .throws :=
  OnlyThrows.loadRegistry c root e h

/-- A registry document with a discrete type and a range type. -/
def registryDoc : Doc :=
  docMap [("RuleRegistry", docMap [
    ("row", .seq [
      docMap [("value", .scalar "Go"), ("related_rules", .seq [.scalar "yield"])],
      docMap [("value", .scalar "Stop"), ("severity", .scalar "1")]]),
    ("speed", .seq [docMap [("range", .seq [.scalar "0", .scalar "5"]), ("description", .scalar "slow")]])])]

/-- The registry of that document. -/
def docRegistry : Registry :=
  run [.discrete "row" [⟨⟨0, .ofList [("yield", [])], .empty⟩, "Go"⟩, ⟨⟨1, .empty, .empty⟩, "Stop"⟩],
    .range "speed" [⟨⟨0, .empty, .empty⟩, "slow", 0, 5⟩]]

/-- The document is loaded, with the values it describes. -/
example :
    (do
      let reg ← loadRegistry docConv registryDoc
      return ["row", "speed", "other"].map (getPossibleStates reg) : Except Err (List (Option (String × Values)))) =
    .ok [some ("row", .discreteValues [⟨⟨0, .ofList [("yield", [])], .empty⟩, "Go"⟩, ⟨⟨1, .empty, .empty⟩, "Stop"⟩]),
      some ("speed", .ranges [⟨⟨0, .empty, .empty⟩, "slow", 0, 5⟩]), none] := by
  decide +kernel

/-- The hypotheses of `registry_loader_complete` hold of that document. -/
example : ∃ types ops, IsRegistry registryDoc types ∧
    List.Forall₂ (fun e op => SaysType docConv e.1 e.2 op ∧ Acceptable op) types ops ∧ (ops.map typeOf).Nodup ∧
    ops.length = 2 := by
  have h : (loadRegistry docConv registryDoc).toBool = true := by decide +kernel
  cases hb : loadRegistry docConv registryDoc with
  | error e => rw [hb] at h; cases h
  | ok b =>
    obtain ⟨types, ops, h1, h2, h3, -⟩ := registry_loader_sound _ _ _ hb
    refine ⟨types, ops, h1, h2, h3, ?_⟩
    have e1 := lookup_some.2 h1
    injection (show some (Doc.map _) = some (Doc.map types) from e1) with e1
    injection e1 with e1
    rw [← h2.length_eq, ← e1]
    rfl

/-- A registry document whose type has the given values. -/
def oneTypeDoc (values : List Doc) : Doc := docMap [("RuleRegistry", docMap [("t", .seq values)])]

/-- C76: a value with a key that does not exist is rejected on its own, but accepted next to one that is
well-formed. -/
theorem registry_loader_malformed :
    (loadRegistry docConv (oneTypeDoc [docMap [("value", .scalar "B"), ("severty", .scalar "1")]])).toBool = false ∧
    (do
      let reg ← loadRegistry docConv (oneTypeDoc [docMap [("value", .scalar "A")],
        docMap [("value", .scalar "B"), ("severty", .scalar "1")]])
      return getPossibleStates reg "t" : Except Err (Option (String × Values))) =
      .ok (some ("t", .discreteValues [⟨⟨0, .empty, .empty⟩, "A"⟩, ⟨⟨0, .empty, .empty⟩, "B"⟩])) := by
  decide +kernel

/-! ### C77 -/

/-- C77: whatever document is loaded with a registry, each of its entries is a discrete value rule or a
range value rule that is valid and allowed by the registry, and the rulebook consists of exactly these rules. -/
theorem registry_rulebook_sound (g : String → Option ℚ) (c : Conv) (ops : List Op) (root : Doc) (b : Rulebook.Book)
    (h : loadRulebookWith g c (run ops) root = .ok b) : ∃ entries all, IsRuleList root entries ∧
      List.Forall₂ (fun d x =>
        (∃ r, x = .discreteValue r ∧ SaysDiscreteRule g c d r ∧ ValidDiscreteRule g (run ops) r) ∨
          ∃ r, x = .rangeValue r ∧ SaysRangeRule g c d r ∧ ValidRangeRule g (run ops) r) entries all ∧
      b = Rulebook.run (all.map Rulebook.Op.add) ∧ Rulebook.Spec.live (all.map Rulebook.Op.add) = all ∧
      ∀ k x, (k, x) ∈ Rulebook.Spec.contents (Rulebook.rules b) ↔ k = Rulebook.Spec.key x ∧ x ∈ all := by
  obtain ⟨entries, rss, h1, h2, h3⟩ := loadRulebookWith_ok.1 h
  obtain ⟨hn, rfl⟩ := addAll_empty.1 h3
  refine ⟨entries, rss.flatten, h1, ?_, rfl, live_adds hn, fun k x => ?_⟩
  · clear h1 h3 hn h
    induction h2 with
    | nil => exact .nil
    | @cons d rs entries rss hd _ ih =>
      rcases hd with ⟨r, hk, hr, rfl⟩ | ⟨r, hk, hr, rfl⟩
      · refine .cons (.inl ⟨r, rfl, ?_⟩) ih
        obtain ⟨m, rfl, ⟨-, h4, -⟩ | ⟨h4, -⟩⟩ := evaluateRule_ok (by simp) hk
        · exact discreteRule_says h4 hr
        · cases h4
      · refine .cons (.inr ⟨r, rfl, ?_⟩) ih
        obtain ⟨m, rfl, ⟨h4, -⟩ | ⟨-, h4⟩⟩ := evaluateRule_ok (by simp) hk
        · cases h4
        · exact rangeRule_says h4 hr
  · rw [rulebook_rules_partial, live_adds hn]
    intro pre k post he
    have : Rulebook.Op.remove k ∈ List.map Rulebook.Op.add rss.flatten := by rw [he]; simp
    simp at this

/-- C77: a document whose entries are valid rules, allowed by the registry and with distinct ids, is loaded. -/
theorem registry_rulebook_complete (g : String → Option ℚ) (c : Conv) (ops : List Op) (root : Doc)
    (entries : List Doc) (all : List Rulebook.AnyRule) (h : IsRuleList root entries)
    (hall : List.Forall₂ (fun d x =>
      (∃ r, x = .discreteValue r ∧ LacksField d "ranges" ∧ SaysDiscreteRule g c d r ∧
        ValidDiscreteRule g (run ops) r) ∨
      ∃ r, x = .rangeValue r ∧ LacksField d "values" ∧ SaysRangeRule g c d r ∧ ValidRangeRule g (run ops) r)
      entries all)
    (hn : (all.map Rulebook.Spec.key).Nodup) : ∃ b, loadRulebookWith g c (run ops) root = .ok b := by
  obtain ⟨rss, h1, h2⟩ : ∃ rss, List.Forall₂ (EntryRules g c (run ops)) entries rss ∧
      rss.flatten.map Rulebook.Spec.key = all.map Rulebook.Spec.key := by
    clear h hn
    induction hall with
    | nil => exact ⟨[], .nil, rfl⟩
    | @cons d x entries all hd _ ih =>
      obtain ⟨rss, h1, h2⟩ := ih
      rcases hd with ⟨r, rfl, hl, hs, hv⟩ | ⟨r, rfl, hl, hs, hv⟩
      · obtain ⟨v, hf, -⟩ := hs.id
        obtain ⟨m, rfl⟩ := hf.isMap
        obtain ⟨r', hr', hid⟩ := discreteRule_of hs hv
        obtain ⟨l, hl1, hl2⟩ := hs.values
        have hent : ∀ d ∈ l, isDiscreteValue (some d) = .ok true := fun d hd => by
          obtain ⟨v, -, hv⟩ := forall₂_mem_left hl2 hd
          exact isDiscreteValue_of hv.entry
        refine ⟨[.discreteValue r'] :: rss, .cons (.inl ⟨r', ?_, hr', rfl⟩) h1, ?_⟩
        · exact evaluateRule_of (size_ne_zero hf) (isRuleWith_of hs.toSaysRuleBase hl1 hent)
            (isRuleWith_lacks hs.toSaysRuleBase hl)
        · simp only [List.flatten_cons, h2, List.map_cons, Rulebook.Spec.key, hid,
            List.singleton_append]
      · obtain ⟨v, hf, -⟩ := hs.id
        obtain ⟨m, rfl⟩ := hf.isMap
        obtain ⟨r', hr', hid⟩ := rangeRule_of hs hv
        obtain ⟨l, hl1, hl2⟩ := hs.ranges
        have hent : ∀ d ∈ l, isRangeValue (some d) = .ok true := fun d hd => by
          obtain ⟨v, -, hv⟩ := forall₂_mem_left hl2 hd
          exact isRangeValue_of hv.entry
        refine ⟨[.rangeValue r'] :: rss, .cons (.inr ⟨r', ?_, hr', rfl⟩) h1, ?_⟩
        · exact evaluateRule_of (size_ne_zero hf) (isRuleWith_lacks hs.toSaysRuleBase hl)
            (isRuleWith_of hs.toSaysRuleBase hl1 hent)
        · simp only [List.flatten_cons, h2, List.map_cons, Rulebook.Spec.key, hid,
            List.singleton_append]
  exact ⟨_, loadRulebookWith_ok.2 ⟨entries, rss, h, h1, addAll_empty.2 ⟨by rw [h2]; exact hn, rfl⟩⟩⟩

/-- C77: loading any document either succeeds or throws. -/
theorem registry_rulebook_errors (g : String → Option ℚ) (c : Conv) (reg : Registry) (root : Doc) (e : Err)
    (h : loadRulebookWith g c reg root = .error e) : e = .throws :=
  OnlyThrows.loadRulebookWith g c reg root e h

/-- The discrete values of the rule below. -/
def ruleValuesDoc : Doc :=
  .seq [docMap [("value", .scalar "Go"), ("severity", .scalar "0"),
    ("related_rules", .seq [docMap [("yield", .seq [.scalar "x", .scalar "y"])], docMap [("yield", .seq [.scalar "z"])]]),
    ("related_unique_ids", .seq [])]]

/-- The ranges of the rule below. -/
def ruleRangesDoc : Doc :=
  .seq [docMap [("range", .seq [.scalar "0", .scalar "5"]), ("description", .scalar "slow"),
    ("related_rules", .seq []), ("related_unique_ids", .seq [])]]

/-- A rule of a type with given further keys. -/
def ruleDoc (id type : String) (more : List (String × Doc)) : Doc :=
  docMap ([("id", .scalar id), ("type", .scalar type),
    ("zone", .seq [docMap [("lane_id", .scalar "a"), ("s_range", .seq [.scalar "1", .scalar "5"])]])] ++ more)

/-- A rulebook document. -/
def rulesDoc (rules : List Doc) : Doc := docMap [("RoadRulebook", .seq rules)]

/-- A rulebook with a rule of each kind is loaded; ids of the same group are joined. -/
example :
    (do
      let b ← loadRulebookWith docLanes docConv docRegistry
        (rulesDoc [ruleDoc "d" "row" [("values", ruleValuesDoc)], ruleDoc "s" "speed" [("ranges", ruleRangesDoc)]])
      return (b.discreteValueRules.entries.map (·.2), b.rangeValueRules.entries.map (·.2)) :
        Except Err (List DiscreteValueRule × List RangeValueRule)) =
    .ok ([⟨"d", "row", [⟨"a", 1, 5⟩], [⟨⟨0, .ofList [("yield", ["x", "y", "z"])], .empty⟩, "Go"⟩]⟩],
      [⟨"s", "speed", [⟨"a", 1, 5⟩], [⟨⟨0, .empty, .empty⟩, "slow", 0, 5⟩]⟩]) := by
  decide +kernel

/-- A value the registry does not have is rejected. -/
example : (loadRulebookWith docLanes docConv docRegistry
    (rulesDoc [ruleDoc "d" "speed" [("values", ruleValuesDoc)]])).toBool = false := by
  decide +kernel

/-- The hypotheses of `registry_rulebook_complete` hold of a document with a rule of each kind. -/
example : ∃ entries all, IsRuleList (rulesDoc [ruleDoc "d" "row" [("values", ruleValuesDoc)],
      ruleDoc "s" "speed" [("ranges", ruleRangesDoc)]]) entries ∧
    List.Forall₂ (fun d x =>
      (∃ r, x = .discreteValue r ∧ LacksField d "ranges" ∧ SaysDiscreteRule docLanes docConv d r ∧
        ValidDiscreteRule docLanes docRegistry r) ∨
      ∃ r, x = .rangeValue r ∧ LacksField d "values" ∧ SaysRangeRule docLanes docConv d r ∧
        ValidRangeRule docLanes docRegistry r) entries all ∧ (all.map Rulebook.Spec.key).Nodup := by
  have ht : (loadRulebookWith docLanes docConv docRegistry (rulesDoc [ruleDoc "d" "row" [("values", ruleValuesDoc)],
      ruleDoc "s" "speed" [("ranges", ruleRangesDoc)]])).toBool = true := by decide +kernel
  cases hb : loadRulebookWith docLanes docConv docRegistry (rulesDoc [ruleDoc "d" "row" [("values", ruleValuesDoc)],
      ruleDoc "s" "speed" [("ranges", ruleRangesDoc)]]) with
  | error e => rw [hb] at ht; cases ht
  | ok b =>
    obtain ⟨entries, all, h1, h2, h3, h4, -⟩ := registry_rulebook_sound _ _ _ _ _ hb
    have e1 := lookup_some.2 h1
    injection (show some (Doc.seq _) = some (Doc.seq entries) from e1) with e1
    injection e1 with e1
    have hkeys : (all.map Rulebook.Spec.key).Nodup := by
      obtain ⟨entries', rss, h5, h6, h7⟩ := loadRulebookWith_ok.1 hb
      obtain ⟨h8, h9⟩ := addAll_empty.1 h7
      have : all.map Rulebook.Spec.key = ["d", "s"].map Rulebook.IdVariant.rule := by
        rw [← e1] at h2
        cases h2 with
        | cons ha hb' =>
          cases hb' with
          | cons hb' hc =>
            cases hc
            have key : ∀ {id type : String} {more : List (String × Doc)} {id' type' : String}
                {zone : List LaneSRange}, SaysRuleBase docLanes docConv (ruleDoc id type more) id' type' zone →
                id' = id := by
              intro id type more id' type' zone h
              obtain ⟨v, hv, hr⟩ := h.id
              have := lookup_some.2 hv
              injection (show some (Doc.scalar id) = some v from this) with this
              subst this
              exact hr.unique (.inl rfl)
            rcases ha with ⟨r, rfl, ha, -⟩ | ⟨r, rfl, ha, -⟩ <;> rcases hb' with ⟨r', rfl, hb', -⟩ | ⟨r', rfl, hb', -⟩ <;>
              simp only [List.map_cons, List.map_nil, Rulebook.Spec.key, key ha.toSaysRuleBase, key hb'.toSaysRuleBase]
      rw [this]
      decide
    refine ⟨entries, all, h1, ?_, hkeys⟩
    rw [← e1] at h2 ⊢
    cases h2 with
    | cons ha hb' =>
      cases hb' with
      | cons hb' hc =>
        cases hc
        refine .cons ?_ (.cons ?_ .nil)
        · rcases ha with ⟨r, rfl, ha⟩ | ⟨r, rfl, ha, -⟩
          · exact .inl ⟨r, rfl, lookup_none.1 rfl, ha⟩
          · obtain ⟨l, hl, -⟩ := ha.ranges
            exact (hl.not_lacks (lookup_none.1 rfl)).elim
        · rcases hb' with ⟨r, rfl, ha, -⟩ | ⟨r, rfl, ha⟩
          · obtain ⟨l, hl, -⟩ := ha.values
            exact (hl.not_lacks (lookup_none.1 rfl)).elim
          · exact .inr ⟨r, rfl, lookup_none.1 rfl, ha⟩

/-- C77: a rule that has both values and ranges is loaded as a range rule, without its values. -/
theorem registry_rulebook_both_kinds :
    (do
      let b ← loadRulebookWith docLanes docConv docRegistry
        (rulesDoc [ruleDoc "s" "speed" [("values", ruleValuesDoc), ("ranges", ruleRangesDoc)]])
      return (b.discreteValueRules.size, b.rangeValueRules.entries.map (·.2)) :
        Except Err (Nat × List RangeValueRule)) =
    .ok (0, [⟨"s", "speed", [⟨"a", 1, 5⟩], [⟨⟨0, .empty, .empty⟩, "slow", 0, 5⟩]⟩]) := by
  decide +kernel

/-- C77: the related rules may be left out in the description of a value in a registry, but not in a rule. -/
theorem registry_rulebook_related_required :
    (loadRegistry docConv (oneTypeDoc [docMap [("value", .scalar "Go")]])).toBool = true ∧
    (loadRulebookWith docLanes docConv docRegistry
      (rulesDoc [ruleDoc "d" "row" [("values", .seq [docMap [("value", .scalar "Go")]])]])).toBool = false := by
  decide +kernel

/-! ### C78 -/

/-- C78: the values of the library's rule types are all combinations of a severity and a text, without related
rules or ids. -/
theorem every_combination_mem (severities : List ℤ) (values : List String) (v : DiscreteValue) :
    v ∈ everyCombination severities values ↔ v.severity ∈ severities ∧ v.value ∈ values ∧
      v.relatedRules.entries = [] ∧ v.relatedUniqueIds.entries = [] := by
  obtain ⟨⟨s, ⟨r, hr⟩, ⟨i, hi⟩⟩, t⟩ := v
  simp only [everyCombination, List.mem_flatMap, List.mem_map]
  constructor
  · rintro ⟨a, ha, b, hb, h⟩
    injection h with h h'
    injection h with h1 h2 h3
    injection h2 with h2
    injection h3 with h3
    subst h1 h' h2 h3
    exact ⟨ha, hb, rfl, rfl⟩
  · rintro ⟨ha, hb, h1, h2⟩
    subst h1 h2
    exact ⟨s, ha, t, hb, rfl⟩

/-- The library's rule types. -/
def libraryTypes : List (String × List DiscreteValue) := [directionUsageType, rightOfWayType, vehicleStopType]

/-- C78: the values of the library's rule types: a direction usage is strict, a right of way is strict or best
effort, and stopping in a zone is strict (0 is strict, 1 is best effort). -/
theorem library_values (v : DiscreteValue) :
    (v ∈ directionUsageType.2 ↔ v.severity = 0 ∧ v.value ∈ ["WithS", "AgainstS", "Bidirectional",
      "BidirectionalTurnOnly", "NoUse", "Parking", "Undefined"] ∧
      v.relatedRules.entries = [] ∧ v.relatedUniqueIds.entries = []) ∧
    (v ∈ rightOfWayType.2 ↔ (v.severity = 0 ∨ v.severity = 1) ∧ v.value ∈ ["Go", "Stop", "StopAndGo"] ∧
      v.relatedRules.entries = [] ∧ v.relatedUniqueIds.entries = []) ∧
    (v ∈ vehicleStopType.2 ↔ v.severity = 0 ∧ v.value ∈ ["DoNotStop", "5MinuteParking", "30MinuteParking",
      "45MinuteParking", "1HourParking", "2HourParking", "4HourParking", "UnconstrainedParking"] ∧
      v.relatedRules.entries = [] ∧ v.relatedUniqueIds.entries = []) := by
  refine ⟨(every_combination_mem _ _ v).trans ?_, (every_combination_mem _ _ v).trans ?_,
    (every_combination_mem _ _ v).trans ?_⟩
  · rw [List.mem_singleton]
  · rw [List.mem_pair]
  · rw [List.mem_singleton]

/-- C78: the types of the library have distinct ids and can all be registered, whatever the order. -/
theorem library_types_register (types : List (String × List DiscreteValue)) (h : types.Perm libraryTypes)
    (t : String) (l : List DiscreteValue) :
    getPossibleStates (run (types.map fun x => .discrete x.1 x.2)) t = some (t, .discreteValues l) ↔
      (t, l) ∈ libraryTypes := by
  have hacc : ∀ x ∈ libraryTypes, Acceptable (.discrete x.1 x.2) := by
    simp only [libraryTypes, List.mem_cons, List.not_mem_nil, or_false, forall_eq_or_imp, forall_eq, Acceptable]
    decide +kernel
  have hids : (types.map (·.1)).Nodup := ((h.map (·.1)).nodup_iff).2 (by decide +kernel)
  rw [possible_discrete, ← h.mem_iff]
  constructor
  · rintro ⟨pre, post, he, -⟩
    have : Op.discrete t l ∈ types.map fun x => Op.discrete x.1 x.2 := by rw [he]; simp
    obtain ⟨x, hx, he⟩ := List.mem_map.1 this
    injection he with h1 h2
    rwa [← h1, ← h2]
  · intro hm
    obtain ⟨pre, post, rfl⟩ := List.append_of_mem hm
    refine ⟨pre.map _, post.map _, by rw [List.map_append, List.map_cons], hacc _ (h.mem_iff.1 hm), ?_⟩
    intro o ho he
    obtain ⟨x, hx, rfl⟩ := List.mem_map.1 ho
    rw [List.map_append, List.nodup_append] at hids
    exact (hids.2.2 _ (List.mem_map_of_mem hx) t (by simp) he).elim

/-- C78: every value of the stop rules that are derived from right-of-way rules of the old format is a value
of the library's type for them. -/
theorem library_stop_values (r : RightOfWayRule) (d : DiscreteValueRule) (h : IsStopRule r d) :
    d.typeId = vehicleStopType.1 ∧
      ∀ v ∈ d.states, ∃ w ∈ vehicleStopType.2, w.severity = v.severity ∧ w.value = v.value := by
  refine ⟨h.typeId, fun v hv => ?_⟩
  obtain ⟨w, hw, h1, -, -, h2⟩ := h.value
  rw [hw, List.mem_singleton] at hv
  subst hv
  rw [h1, h2]
  split <;> decide +kernel

/-- C78: a value of the rules that are derived from the right-of-way rules of the old format is a value of the
library's type for them exactly if it is not "StopThenGo": the library's type calls that "StopAndGo". -/
theorem library_row_values_partial (r : RightOfWayRule) (d : DiscreteValueRule) (h : IsRowRule r d) :
    d.typeId = rightOfWayType.1 ∧ ∀ v ∈ d.states,
      ((∃ w ∈ rightOfWayType.2, w.severity = v.severity ∧ w.value = v.value) ↔ v.value ≠ "StopThenGo") := by
  refine ⟨h.typeId, fun v hv => ?_⟩
  obtain ⟨e, -, hr⟩ := forall₂_mem_left h.values.flip hv
  have h1 := hr.value
  rw [hr.severity]
  simp only [rowStateNames, List.mem_cons, List.not_mem_nil, or_false, Prod.mk.injEq] at h1
  rcases h1 with ⟨h1, -⟩ | ⟨h1, -⟩ | ⟨h1, -⟩ <;> rw [h1] <;> decide +kernel

/-- C78: so a right-of-way rule of the old format that has the state "StopThenGo" cannot be built again with
a registry that has the library's types. -/
theorem library_stop_then_go :
    (DiscreteValueRule.make "r" "Right-Of-Way Rule Type" [] [⟨⟨0, .empty, .empty⟩, "StopThenGo"⟩]).toBool = true ∧
    (buildDiscrete (run (libraryTypes.map fun x => .discrete x.1 x.2)) "r" "Right-Of-Way Rule Type" []
      [⟨⟨0, .empty, .empty⟩, "StopThenGo"⟩]).toBool = false ∧
    (buildDiscrete (run (libraryTypes.map fun x => .discrete x.1 x.2)) "r" "Right-Of-Way Rule Type" []
      [⟨⟨0, .empty, .empty⟩, "Go"⟩]).toBool = true := by
  decide +kernel

end Maliput.Props
