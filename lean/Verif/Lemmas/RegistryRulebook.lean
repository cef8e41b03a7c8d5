import Verif.Lemmas.RegistryLoader
import Verif.Lemmas.RulebookLoad
import Verif.Props.RuleRegistry

set_option autoImplicit false

/-! Lemmas about loading rulebooks with a rule registry. -/
namespace Maliput.Loader

open Maliput.Rules Maliput.Yaml Maliput.Yaml.Spec Maliput.Loader.Spec Maliput.RuleRegistry

/-! ### Related rules and ids -/

/-- A group name and an id as texts. -/
def ReadsPair (p : Doc × Doc) (i : String × String) : Prop := Reads p.1 i.1 ∧ Reads p.2 i.2 ∧ i.2 ≠ ""

/-- The fold over texts. -/
def pushAll (m : Map String (List String)) (ids : List (String × String)) : Map String (List String) :=
  ids.foldl (fun m i => pushRelated m i.1 i.2) m

theorem pushAll_append (m : Map String (List String)) (a b : List (String × String)) :
    pushAll m (a ++ b) = pushAll (pushAll m a) b := by
  simp [pushAll]

theorem pushAll_get (ids : List (String × String)) : ∀ (m : Map String (List String)) (k : String),
    (pushAll m ids).get? k = if (ids.filter fun i => decide (i.1 = k)) = [] then m.get? k
      else some ((m.get? k).getD [] ++ (ids.filter fun i => decide (i.1 = k)).map (·.2)) := by
  induction ids with
  | nil => intro m k; simp [pushAll]
  | cons i ids ih =>
    intro m k
    have hp : pushAll m (i :: ids) = pushAll (pushRelated m i.1 i.2) ids := rfl
    rw [hp, ih, pushRelated, Map.get?_set]
    by_cases hk : i.1 = k
    · subst hk
      simp only [decide_true, List.filter_cons_of_pos, reduceCtorEq, if_false, List.map_cons, if_true,
        Option.getD_some]
      split
      · rename_i he
        simp [he]
      · simp
    · have hk' : ¬ k = i.1 := fun h => hk h.symm
      simp only [hk, hk', decide_false, Bool.false_eq_true, not_false_eq_true, List.filter_cons_of_neg, if_false]

theorem relatedValuesLoop_ok {kd : Doc} {ids : List Doc} : ∀ {m r : Map String (List String)},
    relatedValuesLoop (some kd) m (ids.map some) = .ok r ↔
      ∃ ps, List.Forall₂ ReadsPair (ids.map fun i => (kd, i)) ps ∧ r = pushAll m ps := by
  induction ids with
  | nil =>
    intro m r
    simp only [List.map_nil, relatedValuesLoop, List.forall₂_nil_left_iff, exists_eq_left, pushAll,
      List.foldl_nil, Except.ok.injEq]
    exact eq_comm
  | cons i ids ih =>
    intro m r
    simp only [List.map_cons, relatedValuesLoop, bind_ok, ih, asString_ok, asId_ok]
    constructor
    · rintro ⟨k, hk, s, hs, ps, h1, rfl⟩
      exact ⟨(k, s) :: ps, .cons ⟨hk, hs⟩ h1, rfl⟩
    · rintro ⟨_, h, rfl⟩
      cases h with
      | @cons _ p _ ps h1 h2 => exact ⟨p.1, h1.1, p.2, h1.2, ps, h2, rfl⟩

theorem forall₂_append_left {α β : Type} {R : α → β → Prop} {a b : List α} : ∀ {l : List β},
    List.Forall₂ R (a ++ b) l → ∃ l1 l2, l = l1 ++ l2 ∧ List.Forall₂ R a l1 ∧ List.Forall₂ R b l2 := by
  induction a with
  | nil => intro l h; exact ⟨[], l, rfl, .nil, h⟩
  | cons x a ih =>
    intro l h
    cases h with
    | cons h1 h2 =>
      obtain ⟨l1, l2, rfl, h3, h4⟩ := ih h2
      exact ⟨_ :: l1, l2, rfl, .cons h1 h3, h4⟩

/-- The pairs listed by a mapping. -/
def mapPairs (m : List (Doc × Doc)) : List (Doc × Doc) :=
  m.flatMap fun e => (match e.2 with | .seq ids => ids | _ => []).map fun i => (e.1, i)

theorem mapItems_ok {m : List (Doc × Doc)} : ∀ {a r : Map String (List String)},
    (Node.items (some (.map m))).foldlM (fun a it => relatedValuesLoop it.first a it.second.nodes) a = .ok r ↔
      (∀ e ∈ m, ∀ m', e.2 = .map m' → m' = []) ∧ ∃ ps, List.Forall₂ ReadsPair (mapPairs m) ps ∧ r = pushAll a ps := by
  induction m with
  | nil =>
    intro a r
    simp only [Node.items, List.map_nil, List.foldlM_nil, pure_ok, mapPairs, List.flatMap_nil,
      List.forall₂_nil_left_iff, exists_eq_left, pushAll, List.foldl_nil, List.not_mem_nil, false_implies,
      implies_true, true_and]
    exact eq_comm
  | cons e m ih =>
    intro a r
    have hi : Node.items (some (.map (e :: m))) = ⟨none, some e.1, some e.2⟩ :: Node.items (some (.map m)) := rfl
    have hmp : mapPairs (e :: m) = (match e.2 with | .seq ids => ids | _ => []).map (fun i => (e.1, i)) ++ mapPairs m :=
      rfl
    have key : ∀ a1, relatedValuesLoop (some e.1) a (Node.nodes (some e.2)) = .ok a1 ↔
        (∀ m', e.2 = .map m' → m' = []) ∧ ∃ ps, List.Forall₂ ReadsPair
          ((match e.2 with | .seq ids => ids | _ => []).map (fun i => (e.1, i))) ps ∧ a1 = pushAll a ps := by
      intro a1
      have hnil : (Except.ok a : Except Err (Map String (List String))) = .ok a1 ↔
          ∃ ps, List.Forall₂ ReadsPair [] ps ∧ a1 = pushAll a ps := by
        simp only [List.forall₂_nil_left_iff, exists_eq_left, pushAll, List.foldl_nil, Except.ok.injEq]
        exact eq_comm
      rcases hd : e.2 with _ | s | l | l
      · simpa [Node.nodes, Node.items, relatedValuesLoop] using hnil
      · simpa [Node.nodes, Node.items, relatedValuesLoop] using hnil
      · rw [nodes_seq, relatedValuesLoop_ok]
        simp
      · rcases l with _ | ⟨x, l⟩
        · simpa [Node.nodes, Node.items, relatedValuesLoop] using hnil
        · have hn : Node.nodes (some (Doc.map (x :: l))) = none :: Node.nodes (some (.map l)) := rfl
          rw [hn, relatedValuesLoop]
          simp only [bind_ok, Doc.map.injEq, forall_eq', reduceCtorEq, false_and, iff_false]
          rintro ⟨_, _, _, h, _⟩
          simp [Node.asId, Node.asString, bind, Except.bind] at h
    rw [hi, List.foldlM_cons, bind_ok]
    simp only [key, ih, hmp]
    constructor
    · rintro ⟨a1, ⟨h1, ps, h2, rfl⟩, h3, qs, h4, rfl⟩
      refine ⟨?_, ps ++ qs, List.rel_append h2 h4, by rw [pushAll_append]⟩
      intro x hx
      rcases List.mem_cons.1 hx with rfl | hx
      exacts [h1, h3 x hx]
    · rintro ⟨h, ps, h1, rfl⟩
      obtain ⟨l1, l2, rfl, h2, h3⟩ := forall₂_append_left h1
      exact ⟨_, ⟨h e (by simp), _, h2, rfl⟩, fun x hx => h x (by simp [hx]), _, h3, by rw [pushAll_append]⟩

theorem otherItems_ok {d : Doc} (hd : ∀ m, d ≠ .map m) (a : Map String (List String)) :
    (Node.items (some d)).foldlM (fun a it => relatedValuesLoop it.first a it.second.nodes) a = .ok a := by
  cases d with
  | map m => exact (hd m rfl).elim
  | null => rfl
  | scalar => rfl
  | seq l =>
    have : ∀ l : List Doc, (Node.items (some (.seq l))).foldlM
        (fun a it => relatedValuesLoop it.first a it.second.nodes) a = .ok a := by
      intro l
      induction l with
      | nil => rfl
      | cons x l ih => exact ih
    exact this l

theorem listItems_ok {l : List Doc} : ∀ {a r : Map String (List String)},
    (Node.nodes (some (.seq l))).foldlM (fun a entry => (Node.items entry).foldlM
      (fun a it => relatedValuesLoop it.first a it.second.nodes) a) a = .ok r ↔
      ∃ pairs ps, ListsIds l pairs ∧ List.Forall₂ ReadsPair pairs ps ∧ r = pushAll a ps := by
  induction l with
  | nil =>
    intro a r
    rw [nodes_seq, List.map_nil, List.foldlM_nil, pure_ok]
    constructor
    · rintro rfl
      exact ⟨[], [], .nil, .nil, rfl⟩
    · rintro ⟨_, _, h, h', rfl⟩
      cases h
      cases h'
      rfl
  | cons d l ih =>
    intro a r
    rw [nodes_seq, List.map_cons, List.foldlM_cons, bind_ok, ← nodes_seq]
    simp only [ih]
    by_cases hd : ∀ m, d ≠ .map m
    · rw [otherItems_ok hd]
      constructor
      · rintro ⟨a1, h1, pairs, ps, h2, h3, rfl⟩
        injection h1 with h1
        subst h1
        exact ⟨pairs, ps, .other hd h2, h3, rfl⟩
      · rintro ⟨pairs, ps, h2, h3, rfl⟩
        cases h2 with
        | other _ h2 => exact ⟨a, rfl, pairs, ps, h2, h3, rfl⟩
        | map => exact (hd _ rfl).elim
    · obtain ⟨m, rfl⟩ : ∃ m, d = .map m := by
        by_contra hn
        exact hd fun m hm => hn ⟨m, hm⟩
      simp only [mapItems_ok]
      constructor
      · rintro ⟨a1, ⟨h1, ps, h2, rfl⟩, pairs, qs, h3, h4, rfl⟩
        exact ⟨_, ps ++ qs, .map h1 h3, List.rel_append h2 h4, by rw [pushAll_append]⟩
      · rintro ⟨pairs, ps, h2, h3, rfl⟩
        cases h2 with
        | other hx _ => exact (hx m rfl).elim
        | map h1 h4 =>
          obtain ⟨l1, l2, rfl, h5, h6⟩ := forall₂_append_left h3
          exact ⟨_, ⟨h1, l1, h5, rfl⟩, _, l2, h4, h6, by rw [pushAll_append]⟩

theorem getRelated_ok {m : List (Doc × Doc)} {key : String} {r : Map String (List String)}
    (h : getRelated (some (.map m)) key = .ok r) : SaysRelated (.map m) key r := by
  simp only [getRelated, bind_ok, needSeq_ok] at h
  obtain ⟨n, hn, _, ⟨l, rfl⟩, h⟩ := h
  obtain ⟨pairs, ps, h1, h2, rfl⟩ := listItems_ok.1 h
  rcases field_some_ok.1 hn with ⟨hn, -⟩ | ⟨v, hv, hf⟩
  · cases hn
  · injection hv with hv
    subst hv
    refine ⟨l, pairs, ps, hf, h1, h2, fun k => ?_⟩
    rw [pushAll_get]
    rfl

theorem getRelated_of {m : List (Doc × Doc)} {key : String} {r : Map String (List String)}
    (h : SaysRelated (.map m) key r) : ∃ r', getRelated (some (.map m)) key = .ok r' ∧ ∀ k, r'.get? k = r.get? k := by
  obtain ⟨l, pairs, ps, hf, h1, h2, h3⟩ := h
  refine ⟨pushAll .empty ps, ?_, fun k => ?_⟩
  · simp only [getRelated, bind_ok, needSeq_ok]
    exact ⟨_, field_some_ok.2 (.inr ⟨_, rfl, hf⟩), (), ⟨l, rfl⟩, listItems_ok.2 ⟨pairs, ps, h1, h2, rfl⟩⟩
  · rw [pushAll_get, h3]
    rfl

/-! ### Values -/

theorem ruleDiscreteValue_says {c : Conv} {d : Doc} {v : DiscreteValue} (he : IsDiscreteEntry d)
    (h : ruleDiscreteValue c (some d) = .ok v) : SaysRuleValue c d v := by
  simp only [ruleDiscreteValue, bind_ok, pure_ok, needMap_ok] at h
  obtain ⟨_, ⟨m, hm⟩, s, hs, r, hr, i, hi, t, ht, rfl⟩ := h
  injection hm with hm
  subst hm
  exact ⟨⟨getSeverity_ok.1 hs, getRelated_ok hr, getRelated_ok hi⟩, he, getText_ok.1 ht⟩

theorem ruleRange_says {c : Conv} {d : Doc} {v : Range} (he : IsRangeEntry d)
    (h : ruleRange c (some d) = .ok v) : SaysRuleRange c d v := by
  simp only [ruleRange, bind_ok, pure_ok, needMap_ok] at h
  obtain ⟨_, ⟨m, hm⟩, p, hp, s, hs, r, hr, i, hi, t, ht, rfl⟩ := h
  injection hm with hm
  subst hm
  exact ⟨⟨getSeverity_ok.1 hs, getRelated_ok hr, getRelated_ok hi⟩, he, getRangeMinMax_ok.1 hp, getText_ok.1 ht⟩

theorem ruleState_of {c : Conv} {m : List (Doc × Doc)} {s : State} (h : SaysRuleState c (.map m) s) :
    ∃ r i, getSeverity c (some (.map m)) = .ok s.severity ∧ getRelated (some (.map m)) "related_rules" = .ok r ∧
      getRelated (some (.map m)) "related_unique_ids" = .ok i ∧ SameState ⟨s.severity, r, i⟩ s := by
  obtain ⟨r, hr, hr'⟩ := getRelated_of h.rules
  obtain ⟨i, hi, hi'⟩ := getRelated_of h.ids
  exact ⟨r, i, getSeverity_ok.2 h.severity, hr, hi, rfl, hr', hi'⟩

theorem ruleDiscreteValue_of {c : Conv} {d : Doc} {v : DiscreteValue} (h : SaysRuleValue c d v) :
    ∃ v', ruleDiscreteValue c (some d) = .ok v' ∧ v'.value = v.value ∧ SameState v'.toState v.toState := by
  obtain ⟨w, hw, -⟩ := h.value
  obtain ⟨m, rfl⟩ := hw.isMap
  obtain ⟨r, i, h1, h2, h3, h4⟩ := ruleState_of h.toSaysRuleState
  refine ⟨⟨⟨v.severity, r, i⟩, v.value⟩, ?_, rfl, h4⟩
  simp only [ruleDiscreteValue, bind_ok, pure_ok]
  exact ⟨(), needMap_ok.2 ⟨m, rfl⟩, _, h1, r, h2, i, h3, v.value, getText_ok.2 h.value, rfl⟩

theorem ruleRange_of {c : Conv} {d : Doc} {v : Range} (h : SaysRuleRange c d v) :
    ∃ v', ruleRange c (some d) = .ok v' ∧ v'.description = v.description ∧ v'.min = v.min ∧ v'.max = v.max ∧
      SameState v'.toState v.toState := by
  obtain ⟨w, hw, -⟩ := h.description
  obtain ⟨m, rfl⟩ := hw.isMap
  obtain ⟨r, i, h1, h2, h3, h4⟩ := ruleState_of h.toSaysRuleState
  refine ⟨⟨⟨v.severity, r, i⟩, v.description, v.min, v.max⟩, ?_, rfl, rfl, rfl, h4⟩
  simp only [ruleRange, bind_ok, pure_ok]
  exact ⟨(), needMap_ok.2 ⟨m, rfl⟩, (v.min, v.max), getRangeMinMax_ok.2 h.bounds, _, h1, r, h2, i, h3,
    v.description, getText_ok.2 h.description, rfl⟩

/-! ### Kinds of rules -/

theorem field_lookup (m : List (Doc × Doc)) (k : String) : Node.field (some (.map m)) k = .ok (lookup m k) := rfl

theorem allM_some {f : Node → Except Err Bool} {l : List Doc} :
    allM f (l.map some) = .ok true ↔ ∀ d ∈ l, f (some d) = .ok true := by
  induction l with
  | nil => simp [allM]
  | cons d l ih =>
    simp only [List.map_cons, allM, bind_ok, List.mem_cons, forall_eq_or_imp]
    constructor
    · rintro ⟨b, h1, h2⟩
      cases b
      · cases h2
      · exact ⟨h1, ih.1 h2⟩
    · rintro ⟨h1, h2⟩
      exact ⟨true, h1, ih.2 h2⟩

/-- The entries of a value that has entries, all of which are accepted. -/
theorem allM_nodes {f : Node → Except Err Bool} (hf : f none ≠ .ok true) {v : Doc}
    (h : allM f (Node.nodes (some v)) = .ok true) (hne : Node.nodes (some v) ≠ []) :
    ∃ l, v = .seq l ∧ ∀ d ∈ l, f (some d) = .ok true := by
  cases v with
  | null => exact (hne rfl).elim
  | scalar => exact (hne rfl).elim
  | seq l => exact ⟨l, rfl, allM_some.1 (by rwa [nodes_seq] at h)⟩
  | map l =>
    cases l with
    | nil => exact (hne rfl).elim
    | cons x l =>
      have hn : Node.nodes (some (Doc.map (x :: l))) = none :: Node.nodes (some (.map l)) := rfl
      rw [hn, allM, bind_ok] at h
      obtain ⟨b, h1, h2⟩ := h
      cases b
      · cases h2
      · exact (hf h1).elim

theorem isRuleWith_true {key : String} {f : Node → Except Err Bool} {m : List (Doc × Doc)}
    (h : isRuleWith key f (some (.map m)) = .ok true) :
    ∃ v, HasField (.map m) key v ∧ allM f (Node.nodes (some v)) = .ok true := by
  simp only [isRuleWith, bind_ok] at h
  obtain ⟨b, -, h⟩ := h
  cases b
  · cases h
  · simp only [if_true, bind_ok] at h
    obtain ⟨n, hn, h⟩ := h
    rcases n with _ | v
    · cases h
    · rcases field_some_ok.1 hn with ⟨hn, -⟩ | ⟨v', hv, hf⟩
      · cases hn
      · injection hv with hv
        subst hv
        exact ⟨v, hf, h⟩

theorem hasBase_of {g : String → Option ℚ} {c : Conv} {m : List (Doc × Doc)} {id type : String}
    {zone : List LaneSRange} (h : SaysRuleBase g c (.map m) id type zone) :
    hasBaseProperties (some (.map m)) = .ok true := by
  obtain ⟨v1, h1, -⟩ := h.id
  obtain ⟨v2, h2, -⟩ := h.type
  obtain ⟨l, h3, -⟩ := h.zone
  simp only [hasBaseProperties, field_lookup, lookup_some.2 h1, lookup_some.2 h2, lookup_some.2 h3]
  rfl

theorem isRuleWith_of {g : String → Option ℚ} {c : Conv} {m : List (Doc × Doc)} {id type : String}
    {zone : List LaneSRange} (h : SaysRuleBase g c (.map m) id type zone) {key : String} {f : Node → Except Err Bool}
    {l : List Doc} (hf : HasField (.map m) key (.seq l)) (hl : ∀ d ∈ l, f (some d) = .ok true) :
    isRuleWith key f (some (.map m)) = .ok true := by
  simp only [isRuleWith, bind_ok]
  refine ⟨true, hasBase_of h, ?_⟩
  simp only [if_true, bind_ok]
  refine ⟨some (.seq l), field_some_ok.2 (.inr ⟨_, rfl, hf⟩), ?_⟩
  simp only [Node.isDefined, Option.isSome_some, if_true, nodes_seq]
  exact allM_some.2 hl

theorem isRuleWith_lacks {g : String → Option ℚ} {c : Conv} {m : List (Doc × Doc)} {id type : String}
    {zone : List LaneSRange} (h : SaysRuleBase g c (.map m) id type zone) {key : String} {f : Node → Except Err Bool}
    (hf : LacksField (.map m) key) : isRuleWith key f (some (.map m)) = .ok false := by
  simp only [isRuleWith, bind_ok]
  refine ⟨true, hasBase_of h, ?_⟩
  simp only [if_true, bind_ok]
  exact ⟨none, field_some_ok.2 (.inl ⟨rfl, hf⟩), rfl⟩

theorem evaluateRule_ok {d : Doc} {k : RuleKind} (hk : k ≠ .unknown) (h : evaluateRule (some d) = .ok k) :
    ∃ m, d = .map m ∧ ((k = .discrete ∧ isRuleWith "values" isDiscreteValue (some d) = .ok true ∧
      isRuleWith "ranges" isRangeValue (some d) = .ok false) ∨
      (k = .range ∧ isRuleWith "ranges" isRangeValue (some d) = .ok true)) := by
  simp only [evaluateRule, bind_ok, needMap_ok, pure_ok] at h
  obtain ⟨_, ⟨m, hm⟩, _, -, _, -, b1, h1, b2, h2, rfl⟩ := h
  injection hm with hm
  refine ⟨m, hm, ?_⟩
  cases b2
  · cases b1
    · exact (hk rfl).elim
    · exact .inl ⟨rfl, h1, h2⟩
  · exact .inr ⟨rfl, h2⟩

theorem size_ne_zero {m : List (Doc × Doc)} {k : String} {v : Doc} (h : HasField (.map m) k v) : m.length ≠ 0 := by
  intro h0
  have := h.mem
  rw [List.eq_nil_of_length_eq_zero h0] at this
  cases this

theorem evaluateRule_of {m : List (Doc × Doc)} (hm : m.length ≠ 0) {b1 b2 : Bool}
    (h1 : isRuleWith "values" isDiscreteValue (some (.map m)) = .ok b1)
    (h2 : isRuleWith "ranges" isRangeValue (some (.map m)) = .ok b2) :
    evaluateRule (some (.map m)) = .ok (if b2 then RuleKind.range else if b1 then RuleKind.discrete else .unknown) := by
  simp only [evaluateRule, bind_ok, needMap_ok, pure_ok, throwUnless_ok]
  exact ⟨(), ⟨m, rfl⟩, m.length, rfl, (), by simpa using hm, b1, h1, b2, h2, rfl⟩

theorem isDiscreteValue_of {d : Doc} (h : IsDiscreteEntry d) : isDiscreteValue (some d) = .ok true := by
  obtain ⟨_, l, rfl, _⟩ := id h
  obtain ⟨b, h1, h2⟩ := isDiscreteValue_map l
  rw [h1, h2.2 h]

theorem isRangeValue_of {d : Doc} (h : IsRangeEntry d) : isRangeValue (some d) = .ok true := by
  obtain ⟨_, _, l, rfl, _⟩ := id h
  obtain ⟨b, h1, h2⟩ := isRangeValue_map l
  rw [h1, h2.2 h]

/-! ### Building rules -/

theorem possible_discrete {ops : List Op} {t : String} {l : List DiscreteValue} :
    getPossibleStates (run ops) t = some (t, .discreteValues l) ↔ RuleRegistry.Spec.IsFirst ops (.discrete t l) := by
  rw [Props.registry_reports]
  constructor
  · rintro ⟨o, h1, h2, h3⟩
    cases o <;> simp_all [RuleRegistry.Spec.typeOf, RuleRegistry.Spec.valuesOf]
  · intro h
    exact ⟨_, h, rfl, rfl⟩

theorem possible_range {ops : List Op} {t : String} {l : List Range} :
    getPossibleStates (run ops) t = some (t, .ranges l) ↔ RuleRegistry.Spec.IsFirst ops (.range t l) := by
  rw [Props.registry_reports]
  constructor
  · rintro ⟨o, h1, h2, h3⟩
    cases o <;> simp_all [RuleRegistry.Spec.typeOf, RuleRegistry.Spec.valuesOf]
  · intro h
    exact ⟨_, h, rfl, rfl⟩

theorem discreteRule_says {g : String → Option ℚ} {c : Conv} {ops : List Op} {m : List (Doc × Doc)}
    {r : DiscreteValueRule} (hv : isRuleWith "values" isDiscreteValue (some (.map m)) = .ok true)
    (h : discreteRule g c (run ops) (some (.map m)) = .ok r) :
    SaysDiscreteRule g c (.map m) r ∧ ValidDiscreteRule g (run ops) r := by
  simp only [discreteRule, bind_ok, required_ok] at h
  obtain ⟨_, ⟨v1, rfl, h1⟩, values, h2, _, ⟨v2, rfl, h3⟩, id, h4, _, ⟨v3, rfl, h5⟩, t, h6, _, ⟨v4, rfl, h7⟩, zone,
    h8, h⟩ := h
  obtain ⟨⟨l, hl, hreg⟩, hmake⟩ := (Props.registry_buildDiscrete ops id t zone values r).1 h
  obtain ⟨rfl, hne, hstates, hdist⟩ := (Props.discreteValueRule_make_iff _ _ _ _ _).1 hmake
  obtain ⟨w, hw, hall⟩ := isRuleWith_true hv
  obtain rfl := hw.unique h1
  obtain ⟨h4, h4'⟩ := asId_ok.1 h4
  obtain ⟨h6, h6'⟩ := asId_ok.1 h6
  obtain ⟨lz, rfl, hz1, hz2⟩ := buildLaneSRoute_ok.1 h8
  obtain ⟨lv, rfl, hlv⟩ := allM_nodes (by simp [isDiscreteValue, Node.field, bind, Except.bind]) hall (by
    intro he
    rw [he] at h2
    simp only [List.mapM_nil, pure_ok] at h2
    exact hne h2.symm)
  rw [mapM_seq] at h2
  refine ⟨⟨⟨⟨v2, h3, h4⟩, ⟨v3, h5, h6⟩, lz, h7, hz1⟩, lv, h1, ?_⟩, ⟨h4', h6'⟩, hz2, hne, hstates, hdist, l,
    possible_discrete.2 hl, hreg⟩
  have hent : ∀ d ∈ lv, IsDiscreteEntry d := fun d hd => by
    obtain ⟨d', he, h⟩ := isDiscreteValue_true (hlv d hd)
    injection he with he
    rwa [he]
  exact ((List.forall₂_and_left _ _).2 ⟨hent, h2⟩).imp fun d v h => ruleDiscreteValue_says h.1 h.2

theorem rangeRule_says {g : String → Option ℚ} {c : Conv} {ops : List Op} {m : List (Doc × Doc)}
    {r : RangeValueRule} (hv : isRuleWith "ranges" isRangeValue (some (.map m)) = .ok true)
    (h : rangeRule g c (run ops) (some (.map m)) = .ok r) :
    SaysRangeRule g c (.map m) r ∧ ValidRangeRule g (run ops) r := by
  simp only [rangeRule, bind_ok, required_ok] at h
  obtain ⟨_, ⟨v1, rfl, h1⟩, values, h2, _, ⟨v2, rfl, h3⟩, id, h4, _, ⟨v3, rfl, h5⟩, t, h6, _, ⟨v4, rfl, h7⟩, zone,
    h8, h⟩ := h
  obtain ⟨⟨l, hl, hreg⟩, hmake⟩ := (Props.registry_buildRange ops id t zone values r).1 h
  obtain ⟨rfl, hne, hstates, hdist⟩ := (Props.rangeValueRule_make_iff _ _ _ _ _).1 hmake
  obtain ⟨w, hw, hall⟩ := isRuleWith_true hv
  obtain rfl := hw.unique h1
  obtain ⟨h4, h4'⟩ := asId_ok.1 h4
  obtain ⟨h6, h6'⟩ := asId_ok.1 h6
  obtain ⟨lz, rfl, hz1, hz2⟩ := buildLaneSRoute_ok.1 h8
  obtain ⟨lv, rfl, hlv⟩ := allM_nodes (by simp [isRangeValue, Node.field, bind, Except.bind]) hall (by
    intro he
    rw [he] at h2
    simp only [List.mapM_nil, pure_ok] at h2
    exact hne h2.symm)
  rw [mapM_seq] at h2
  refine ⟨⟨⟨⟨v2, h3, h4⟩, ⟨v3, h5, h6⟩, lz, h7, hz1⟩, lv, h1, ?_⟩, ⟨h4', h6'⟩, hz2, hne, hstates, hdist, l,
    possible_range.2 hl, hreg⟩
  have hent : ∀ d ∈ lv, IsRangeEntry d := fun d hd => by
    obtain ⟨d', he, h⟩ := isRangeValue_true (hlv d hd)
    injection he with he
    rwa [he]
  exact ((List.forall₂_and_left _ _).2 ⟨hent, h2⟩).imp fun d v h => ruleRange_says h.1 h.2

theorem forall₂_mem_left {α β : Type} {R : α → β → Prop} {l : List α} {l' : List β} (h : List.Forall₂ R l l') :
    ∀ {a : α}, a ∈ l → ∃ b ∈ l', R a b := by
  induction h with
  | nil => intro a ha; cases ha
  | cons h1 _ ih =>
    intro a ha
    rcases List.mem_cons.1 ha with rfl | ha
    · exact ⟨_, by simp, h1⟩
    · obtain ⟨b, hb, hr⟩ := ih ha
      exact ⟨b, by simp [hb], hr⟩

theorem validState_congr {a b : State} (h : SameState a b) (hb : Rules.Spec.ValidState b) :
    Rules.Spec.ValidState a := by
  obtain ⟨h1, h2, h3⟩ := h
  unfold Rules.Spec.ValidState Rules.Spec.ValidRelated at *
  simp only [Map.has, Rules.Spec.ids, h1, h2, h3] at *
  exact hb

theorem discreteRule_of {g : String → Option ℚ} {c : Conv} {ops : List Op} {m : List (Doc × Doc)}
    {r : DiscreteValueRule} (h : SaysDiscreteRule g c (.map m) r) (hv : ValidDiscreteRule g (run ops) r) :
    ∃ r', discreteRule g c (run ops) (some (.map m)) = .ok r' ∧ r'.id = r.id := by
  obtain ⟨⟨⟨v2, h3, h4⟩, ⟨v3, h5, h6⟩, lz, h7, h8⟩, lv, h1, h2⟩ := h
  obtain ⟨values, h9, h10⟩ := forall₂_exists (fun d v hd => ruleDiscreteValue_of hd) h2
  refine ⟨⟨r.id, r.typeId, r.zone, values⟩, ?_, rfl⟩
  simp only [discreteRule, bind_ok, required_ok]
  refine ⟨_, ⟨_, rfl, h1⟩, values, mapM_seq.2 h9, _, ⟨v2, rfl, h3⟩, r.id, asId_ok.2 ⟨h4, hv.id.1⟩, _, ⟨v3, rfl, h5⟩,
    r.typeId, asId_ok.2 ⟨h6, hv.id.2⟩, _, ⟨_, rfl, h7⟩, r.zone, buildLaneSRoute_ok.2 ⟨lz, rfl, h8, hv.zone⟩, ?_⟩
  obtain ⟨l, hl, hreg⟩ := hv.registered
  refine (Props.registry_buildDiscrete ops _ _ _ _ _).2 ⟨⟨l, possible_discrete.1 hl, fun v hv' => ?_⟩,
    (Props.discreteValueRule_make_iff _ _ _ _ _).2 ⟨rfl, ?_, fun v hv' => ?_, ?_⟩⟩
  · obtain ⟨w, hw, h11, h12⟩ := forall₂_mem_left h10 hv'
    obtain ⟨x, hx, h13, h14⟩ := hreg w hw
    exact ⟨x, hx, by rw [h13, h12.1], by rw [h14, h11]⟩
  · intro he
    subst he
    exact hv.some (List.forall₂_nil_left_iff.1 h10)
  · obtain ⟨w, hw, h11, h12⟩ := forall₂_mem_left h10 hv'
    exact validState_congr h12 (hv.states w hw)
  · refine pairwise_congr (f' := DiscreteValue.eq) (fun a a' b b' h h' => ?_) h10 hv.distinct
    simp only [DiscreteValue.eq, stateEq_congr h.2 h'.2, h.1, h'.1]

theorem rangeRule_of {g : String → Option ℚ} {c : Conv} {ops : List Op} {m : List (Doc × Doc)}
    {r : RangeValueRule} (h : SaysRangeRule g c (.map m) r) (hv : ValidRangeRule g (run ops) r) :
    ∃ r', rangeRule g c (run ops) (some (.map m)) = .ok r' ∧ r'.id = r.id := by
  obtain ⟨⟨⟨v2, h3, h4⟩, ⟨v3, h5, h6⟩, lz, h7, h8⟩, lv, h1, h2⟩ := h
  obtain ⟨values, h9, h10⟩ := forall₂_exists (fun d v hd => ruleRange_of hd) h2
  refine ⟨⟨r.id, r.typeId, r.zone, values⟩, ?_, rfl⟩
  simp only [rangeRule, bind_ok, required_ok]
  refine ⟨_, ⟨_, rfl, h1⟩, values, mapM_seq.2 h9, _, ⟨v2, rfl, h3⟩, r.id, asId_ok.2 ⟨h4, hv.id.1⟩, _, ⟨v3, rfl, h5⟩,
    r.typeId, asId_ok.2 ⟨h6, hv.id.2⟩, _, ⟨_, rfl, h7⟩, r.zone, buildLaneSRoute_ok.2 ⟨lz, rfl, h8, hv.zone⟩, ?_⟩
  obtain ⟨l, hl, hreg⟩ := hv.registered
  refine (Props.registry_buildRange ops _ _ _ _ _).2 ⟨⟨l, possible_range.1 hl, fun v hv' => ?_⟩,
    (Props.rangeValueRule_make_iff _ _ _ _ _).2 ⟨rfl, ?_, fun v hv' => ?_, ?_⟩⟩
  · obtain ⟨w, hw, h11, h12, h13, h14⟩ := forall₂_mem_left h10 hv'
    obtain ⟨x, hx, h15, h16, h17, h18⟩ := hreg w hw
    exact ⟨x, hx, by rw [h15, h14.1], by rw [h16, h12], by rw [h17, h13], by rw [h18, h11]⟩
  · intro he
    subst he
    exact hv.some (List.forall₂_nil_left_iff.1 h10)
  · obtain ⟨w, hw, h11, h12, h13, h14⟩ := forall₂_mem_left h10 hv'
    exact ⟨validState_congr h14 (hv.states w hw).1, by rw [h12, h13]; exact (hv.states w hw).2⟩
  · refine pairwise_congr (f' := Range.eq) (fun a a' b b' h h' => ?_) h10 hv.distinct
    simp only [Range.eq, stateEq_congr h.2.2.2 h'.2.2.2, h.1, h'.1, h.2.1, h.2.2.1, h'.2.1, h'.2.2.1]

/-! ### The rulebook -/

/-- The rule added for an entry. -/
def EntryRules (g : String → Option ℚ) (c : Conv) (reg : Registry) (d : Doc) (rs : List Rulebook.AnyRule) : Prop :=
  (∃ r, evaluateRule (some d) = .ok .discrete ∧ discreteRule g c reg (some d) = .ok r ∧ rs = [.discreteValue r]) ∨
    ∃ r, evaluateRule (some d) = .ok .range ∧ rangeRule g c reg (some d) = .ok r ∧ rs = [.rangeValue r]

theorem addEntry_ok {g : String → Option ℚ} {c : Conv} {reg : Registry} (b b' : Rulebook.Book) (d : Doc) :
    addEntry g c reg b (some d) = .ok b' ↔ ∃ rs, EntryRules g c reg d rs ∧ addAll b rs = .ok b' := by
  have single : ∀ r : Rulebook.AnyRule, addAll b [r] = .ok b' ↔ Outcome.get (Rulebook.step b (.add r)) = .ok b' := by
    intro r
    simp only [addAll, List.foldlM_cons, List.foldlM_nil, bind_ok, pure_ok]
    exact ⟨fun ⟨x, h1, h2⟩ => h2 ▸ h1, fun h => ⟨b', h, rfl⟩⟩
  unfold addEntry
  rw [bind_ok]
  constructor
  · rintro ⟨k, hk, h⟩
    cases k with
    | unknown => cases h
    | discrete =>
      obtain ⟨r, hr, h⟩ := bind_ok.1 h
      exact ⟨_, .inl ⟨r, hk, hr, rfl⟩, (single _).2 h⟩
    | range =>
      obtain ⟨r, hr, h⟩ := bind_ok.1 h
      exact ⟨_, .inr ⟨r, hk, hr, rfl⟩, (single _).2 h⟩
  · rintro ⟨_, ⟨r, hk, hr, rfl⟩ | ⟨r, hk, hr, rfl⟩, h⟩
    · exact ⟨_, hk, bind_ok.2 ⟨r, hr, (single _).1 h⟩⟩
    · exact ⟨_, hk, bind_ok.2 ⟨r, hr, (single _).1 h⟩⟩

theorem loadRulebookWith_ok {g : String → Option ℚ} {c : Conv} {reg : Registry} {root : Doc} {b : Rulebook.Book} :
    loadRulebookWith g c reg root = .ok b ↔ ∃ entries rss, IsRuleList root entries ∧
      List.Forall₂ (EntryRules g c reg) entries rss ∧ addAll .empty rss.flatten = .ok b := by
  unfold loadRulebookWith
  simp only [bind_ok, required_ok]
  constructor
  · rintro ⟨_, _, _, ⟨v, rfl, hf⟩, _, hs, h⟩
    obtain ⟨l, hl⟩ := needSeq_ok.1 hs
    injection hl with hl
    subst hl
    obtain ⟨rss, h1, h2⟩ := (foldlM_addAll addEntry_ok).1 h
    exact ⟨l, rss, hf, h1, h2⟩
  · rintro ⟨l, rss, hf, h1, h2⟩
    obtain ⟨m, rfl⟩ := Spec.HasField.isMap hf
    exact ⟨(), needMap_ok.2 ⟨m, rfl⟩, _, ⟨_, rfl, hf⟩, (), needSeq_ok.2 ⟨l, rfl⟩,
      (foldlM_addAll addEntry_ok).2 ⟨rss, h1, h2⟩⟩

/-! ### Errors -/

theorem OnlyThrows.countDefined (n : Node) (l : List String) : OnlyThrows (countDefined n l) := by
  induction l with
  | nil => exact OnlyThrows.ok _
  | cons k l ih =>
    unfold Loader.countDefined
    only_throws [ih]

theorem OnlyThrows.isDiscreteValue (n : Node) : OnlyThrows (isDiscreteValue n) := by
  unfold Loader.isDiscreteValue
  only_throws [OnlyThrows.countDefined _ _]

theorem OnlyThrows.isRangeValue (n : Node) : OnlyThrows (isRangeValue n) := by
  unfold Loader.isRangeValue
  only_throws [OnlyThrows.countDefined _ _]

theorem OnlyThrows.getSeverity (c : Conv) (n : Node) : OnlyThrows (getSeverity c n) := by
  unfold Loader.getSeverity
  only_throws []

theorem OnlyThrows.getRangeMinMax (c : Conv) (n : Node) : OnlyThrows (getRangeMinMax c n) := by
  unfold Loader.getRangeMinMax
  only_throws []

theorem OnlyThrows.getText (n : Node) (k : String) : OnlyThrows (getText n k) := by
  unfold Loader.getText
  only_throws [OnlyThrows.required _ _]

theorem OnlyThrows.evaluateLoop (l : List Node) : ∀ k, OnlyThrows (evaluateLoop k l) := by
  induction l with
  | nil => intro k; exact OnlyThrows.ok _
  | cons n l ih =>
    intro k
    unfold Loader.evaluateLoop
    only_throws [ih _, OnlyThrows.isDiscreteValue _, OnlyThrows.isRangeValue _]

theorem OnlyThrows.evaluateTypeEntry (n : Node) : OnlyThrows (evaluateTypeEntry n) := by
  unfold Loader.evaluateTypeEntry
  only_throws [OnlyThrows.evaluateLoop _ _]

theorem OnlyThrows.relatedKeysLoop (l : List Node) : ∀ m, OnlyThrows (relatedKeysLoop m l) := by
  induction l with
  | nil => intro k; exact OnlyThrows.ok _
  | cons n l ih =>
    intro k
    unfold Loader.relatedKeysLoop
    only_throws [ih _]

theorem OnlyThrows.getRelatedKeys (n : Node) (k : String) : OnlyThrows (getRelatedKeys n k) := by
  unfold Loader.getRelatedKeys
  only_throws [OnlyThrows.relatedKeysLoop _ _]

theorem OnlyThrows.typeDiscreteValue (c : Conv) (n : Node) : OnlyThrows (typeDiscreteValue c n) := by
  unfold Loader.typeDiscreteValue
  only_throws [OnlyThrows.getSeverity _ _, OnlyThrows.getRelatedKeys _ _]

theorem OnlyThrows.typeRange (c : Conv) (n : Node) : OnlyThrows (typeRange c n) := by
  unfold Loader.typeRange
  only_throws [OnlyThrows.getSeverity _ _, OnlyThrows.getRelatedKeys _ _, OnlyThrows.getRangeMinMax _ _,
    OnlyThrows.getText _ _]

theorem OnlyThrows.register (r : Registry) (op : Op) : OnlyThrows (Outcome.get (step r op)) := by
  obtain ⟨h1, h2⟩ := step_spec r op
  by_cases h : RuleRegistry.Spec.Acceptable op ∧ getPossibleStates r (RuleRegistry.Spec.typeOf op) = none
  · rw [registerOne_ok.2 ⟨h, rfl⟩]
    exact OnlyThrows.ok _
  · rw [h2 h]
    exact OnlyThrows.throws

theorem OnlyThrows.loadRegistry (c : Conv) (root : Doc) : OnlyThrows (loadRegistry c root) := by
  unfold Loader.loadRegistry Loader.addType
  only_throws [OnlyThrows.required _ _, OnlyThrows.evaluateTypeEntry _, OnlyThrows.typeDiscreteValue _ _,
    OnlyThrows.typeRange _ _, OnlyThrows.register _ (.discrete _ _), OnlyThrows.register _ (.range _ _)]

theorem OnlyThrows.allM {f : Node → Except Err Bool} (hf : ∀ n, OnlyThrows (f n)) (l : List Node) :
    OnlyThrows (allM f l) := by
  induction l with
  | nil => exact OnlyThrows.ok _
  | cons n l ih =>
    unfold Loader.allM
    only_throws [hf _, ih]

theorem OnlyThrows.isRuleWith (key : String) {f : Node → Except Err Bool} (hf : ∀ n, OnlyThrows (f n)) (n : Node) :
    OnlyThrows (isRuleWith key f n) := by
  unfold Loader.isRuleWith Loader.hasBaseProperties
  only_throws [OnlyThrows.allM hf _]

theorem OnlyThrows.evaluateRule (n : Node) : OnlyThrows (evaluateRule n) := by
  unfold Loader.evaluateRule
  only_throws [OnlyThrows.isRuleWith _ OnlyThrows.isDiscreteValue _, OnlyThrows.isRuleWith _ OnlyThrows.isRangeValue _]

theorem OnlyThrows.relatedValuesLoop (key : Node) (l : List Node) : ∀ m, OnlyThrows (relatedValuesLoop key m l) := by
  induction l with
  | nil => intro k; exact OnlyThrows.ok _
  | cons n l ih =>
    intro k
    unfold Loader.relatedValuesLoop
    only_throws [ih _]

theorem OnlyThrows.getRelated (n : Node) (k : String) : OnlyThrows (getRelated n k) := by
  unfold Loader.getRelated
  only_throws [OnlyThrows.relatedValuesLoop _ _ _]

theorem OnlyThrows.ruleDiscreteValue (c : Conv) (n : Node) : OnlyThrows (ruleDiscreteValue c n) := by
  unfold Loader.ruleDiscreteValue
  only_throws [OnlyThrows.getSeverity _ _, OnlyThrows.getRelated _ _, OnlyThrows.getText _ _]

theorem OnlyThrows.ruleRange (c : Conv) (n : Node) : OnlyThrows (ruleRange c n) := by
  unfold Loader.ruleRange
  only_throws [OnlyThrows.getSeverity _ _, OnlyThrows.getRelated _ _, OnlyThrows.getRangeMinMax _ _,
    OnlyThrows.getText _ _]

theorem OnlyThrows.rangeValueRule_make (id t : String) (zone : List LaneSRange) (ranges : List Range) :
    OnlyThrows (RangeValueRule.make id t zone ranges) := by
  unfold RangeValueRule.make validateSeverity validateRelated
  only_throws []

theorem OnlyThrows.buildDiscrete (r : Registry) (id t : String) (zone : List LaneSRange)
    (values : List DiscreteValue) : OnlyThrows (buildDiscrete r id t zone values) := by
  unfold RuleRegistry.buildDiscrete
  only_throws [OnlyThrows.discreteValueRule_make _ _ _ _]

theorem OnlyThrows.buildRange (r : Registry) (id t : String) (zone : List LaneSRange)
    (values : List Range) : OnlyThrows (buildRange r id t zone values) := by
  unfold RuleRegistry.buildRange
  only_throws [OnlyThrows.rangeValueRule_make _ _ _ _]

theorem OnlyThrows.discreteRule (g : String → Option ℚ) (c : Conv) (r : Registry) (n : Node) :
    OnlyThrows (discreteRule g c r n) := by
  unfold Loader.discreteRule
  only_throws [OnlyThrows.required _ _, OnlyThrows.ruleDiscreteValue _ _, OnlyThrows.buildLaneSRoute _ _ _ _ _,
    OnlyThrows.buildDiscrete _ _ _ _ _]

theorem OnlyThrows.rangeRule (g : String → Option ℚ) (c : Conv) (r : Registry) (n : Node) :
    OnlyThrows (rangeRule g c r n) := by
  unfold Loader.rangeRule
  only_throws [OnlyThrows.required _ _, OnlyThrows.ruleRange _ _, OnlyThrows.buildLaneSRoute _ _ _ _ _,
    OnlyThrows.buildRange _ _ _ _ _]

theorem OnlyThrows.loadRulebookWith (g : String → Option ℚ) (c : Conv) (r : Registry) (root : Doc) :
    OnlyThrows (loadRulebookWith g c r root) := by
  unfold Loader.loadRulebookWith Loader.addEntry
  only_throws [OnlyThrows.required _ _, OnlyThrows.evaluateRule _, OnlyThrows.discreteRule _ _ _ _,
    OnlyThrows.rangeRule _ _ _ _, OnlyThrows.step_add _ (.discreteValue _), OnlyThrows.step_add _ (.rangeValue _)]

end Maliput.Loader
