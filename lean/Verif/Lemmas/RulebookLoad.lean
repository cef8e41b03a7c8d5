import Verif.Lemmas.Rules
import Verif.Lemmas.RulebookLoader
import Verif.Props.Rules

set_option autoImplicit false

/-! Lemmas for the loader of rulebooks: whole rules and the collection of rules. -/
namespace Maliput.Loader

open Maliput.Rules Maliput.Rulebook Maliput.Yaml Maliput.Yaml.Spec Maliput.Loader.Spec

/-! ### Right-of-way rules -/

theorem rowRule_make_ok {id : String} {zone : List LaneSRange} {zt : ZoneType} {states : List RowState}
    {related : Map String (List String)} {r : RightOfWayRule} :
    RightOfWayRule.make id zone zt states related = .ok r ↔
      states ≠ [] ∧ (∃ m, indexStates RowState.id .empty states = .ok m ∧ r = ⟨id, zone, zt, m, related⟩) ∧
      ∀ kv ∈ related.entries, kv.2.Nodup := by
  simp only [RightOfWayRule.make, bind_ok, throwUnless_ok, forM_ok, pure_ok, decide_eq_true_eq, count_one_iff]
  constructor
  · rintro ⟨-, h1, m, h2, -, h3, rfl⟩
    refine ⟨by rintro rfl; simp at h1, ⟨m, h2, rfl⟩, h3⟩
  · rintro ⟨h1, ⟨m, h2, rfl⟩, h3⟩
    exact ⟨(), List.length_pos_iff.2 h1, m, h2, (), h3, rfl⟩

theorem rowStateNames_name {id : String} {t : RowStateType} (h : (id, t) ∈ rowStateNames) : rowStateName t = id := by
  simp only [rowStateNames, List.mem_cons, List.not_mem_nil, or_false, Prod.mk.injEq] at h
  rcases h with ⟨rfl, rfl⟩ | ⟨rfl, rfl⟩ | ⟨rfl, rfl⟩ <;> rfl

theorem rowStateName_mem (t : RowStateType) : (rowStateName t, t) ∈ rowStateNames := by
  cases t <;> decide

/-- What the rule built from a document is. -/
theorem buildRightOfWayRule_says {g : String → Option ℚ} {c : Conv} {d : Doc} {r : RightOfWayRule}
    (h : buildRightOfWayRule g c (some d) = .ok r) :
    SaysRow g c d r ∧ r.id ≠ "" ∧ r.states.entries ≠ [] ∧
      (∀ name s, r.states.get? name = some s → ∀ y ∈ s.yieldTo, y ≠ "") ∧ (∀ z ∈ r.zone, ValidLaneRange g z) ∧
      (∀ light groups, r.relatedBulbGroups.get? light = some groups →
        light ≠ "" ∧ groups.Nodup ∧ ∀ x ∈ groups, x ≠ "") := by
  unfold buildRightOfWayRule at h
  rw [bind_ok] at h
  obtain ⟨_, hm, h⟩ := h
  obtain ⟨l, hl⟩ := needMap_ok.1 hm
  injection hl with hl
  subst hl
  simp only [bind_ok, required_ok] at h
  obtain ⟨_, ⟨idv, rfl, hid⟩, id, hid', _, ⟨sv, rfl, hs⟩, states, hstates, _, ⟨zv, rfl, hz⟩, zone, hzone, zt, hzt,
    related, hrel, h⟩ := h
  obtain ⟨h1, ⟨m, h2, rfl⟩, h3⟩ := rowRule_make_ok.1 h
  obtain ⟨hnames, hnd, hy, hmem⟩ := buildRowStates_says hstates
  obtain ⟨zl, rfl, hz1, hz2⟩ := buildLaneSRoute_ok.1 hzone
  obtain ⟨hr1, hr2⟩ := buildRelatedBulbGroups_ok.1 hrel
  obtain ⟨hid1, hid2⟩ := asId_ok.1 hid'
  have hget := indexed_get h2
  have hent := ((indexStates_ok _ _ _ _).1 h2).2.2
  refine ⟨⟨⟨idv, hid, hid1⟩, ⟨sv, hs, hnames, ?_⟩, ⟨zl, hz, hz1⟩, buildZoneType_ok.1 hzt, hr1⟩, hid2, ?_, ?_, hz2, ?_⟩
  · intro name s
    rw [hget, hmem]
    constructor
    · rintro ⟨⟨t, v, ids, a, b, c, e⟩, rfl⟩
      exact ⟨t, v, ids, a, b, c, e⟩
    · rintro ⟨t, v, ids, a, b, c, rfl⟩
      exact ⟨⟨t, v, ids, a, b, c, rfl⟩, rfl⟩
  · rw [hent]
    simpa [Map.empty] using h1
  · intro name s hns
    exact hy s ((hget _ _).1 hns).1
  · intro light groups hlg
    have hm := Map.get?_eq_some.1 hlg
    exact ⟨(hr2 _ hm).1, h3 _ hm, (hr2 _ hm).2⟩

theorem map_entries_ne {α : Type} {m : Map String α} (h : m.entries ≠ []) : ∃ k v, m.get? k = some v := by
  obtain ⟨⟨k, v⟩, he⟩ := List.exists_mem_of_ne_nil _ h
  exact ⟨k, v, Map.get?_eq_some.2 he⟩

/-- Valid documents are accepted. -/
theorem buildRightOfWayRule_of {g : String → Option ℚ} {c : Conv} {d : Doc} {r : RightOfWayRule}
    (h : SaysRow g c d r) (hv : ValidRow g r) : ∃ r', buildRightOfWayRule g c (some d) = .ok r' ∧
      r'.id = r.id ∧ r'.relatedBulbGroups = r.relatedBulbGroups ∧
      ∀ name s, r'.states.get? name = some s ↔ r.states.get? name = some s := by
  obtain ⟨⟨idv, hid, hid1⟩, ⟨sv, hs, ⟨⟨sl, rfl, hk, hn⟩, hst⟩⟩, ⟨zl, hz, hz1⟩, hzt, hrel⟩ := h
  obtain ⟨hid2, hne, hy, hz2, hr2, -⟩ := hv
  obtain ⟨l, rfl⟩ := hid.isMap
  have hrel2 : ∀ kv ∈ r.relatedBulbGroups.entries, kv.1 ≠ "" ∧ kv.2.Nodup ∧ ∀ x ∈ kv.2, x ≠ "" :=
    fun kv hm => hr2 kv.1 kv.2 (Map.get?_eq_some.2 hm)
  have hall : ∀ name t v, (name, t) ∈ rowStateNames → HasField (.map sl) name v →
      ∃ ids, SaysIds v ids ∧ ∀ x ∈ ids, x ≠ "" := by
    intro name t v hm hf
    obtain ⟨-, ids, hids⟩ := hn _ hf.mem
    exact ⟨ids, hids, (hy name _ ((hst name _).2 ⟨t, v, ids, hm, hf, hids, rfl⟩)).2⟩
  obtain ⟨states, hstates⟩ := buildRowStates_of hk (fun e he => (hn e he).1) hall
  obtain ⟨-, hnd, -, hmem⟩ := buildRowStates_says hstates
  obtain ⟨m, hm⟩ := indexed_exists hnd
  have hget : ∀ name s, m.get? name = some s ↔ r.states.get? name = some s := by
    intro name s
    rw [indexed_get hm, hmem, hst]
    constructor
    · rintro ⟨⟨t, v, ids, a, b, c, e⟩, rfl⟩
      exact ⟨t, v, ids, a, b, c, e⟩
    · rintro ⟨t, v, ids, a, b, c, rfl⟩
      exact ⟨⟨t, v, ids, a, b, c, rfl⟩, rfl⟩
  have hne' : states ≠ [] := by
    obtain ⟨k, s, hks⟩ := map_entries_ne hne
    exact List.ne_nil_of_mem ((indexed_get hm _ _).1 ((hget k s).2 hks)).1
  refine ⟨⟨r.id, r.zone, r.zoneType, m, r.relatedBulbGroups⟩, ?_, rfl, rfl, hget⟩
  unfold buildRightOfWayRule
  simp only [bind_ok, required_ok]
  exact ⟨(), needMap_ok.2 ⟨l, rfl⟩, _, ⟨idv, rfl, hid⟩, r.id, asId_ok.2 ⟨hid1, hid2⟩, _, ⟨_, rfl, hs⟩, states,
    hstates, _, ⟨_, rfl, hz⟩, r.zone, buildLaneSRoute_ok.2 ⟨zl, rfl, hz1, hz2⟩, r.zoneType, buildZoneType_ok.2 hzt,
    r.relatedBulbGroups, buildRelatedBulbGroups_ok.2 ⟨hrel, fun kv h => ⟨(hrel2 kv h).1, (hrel2 kv h).2.2⟩⟩,
    rowRule_make_ok.2 ⟨hne', ⟨m, hm, rfl⟩, fun kv h => (hrel2 kv h).2.1⟩⟩

/-! ### The discrete value rules -/

theorem stopId_eq (id : String) : ruleIdFrom stopTypeId id = "Vehicle-Stop-In-Zone-Behavior Rule Type/" ++ id := by
  rw [ruleIdFrom, show stopTypeId ++ "/" = "Vehicle-Stop-In-Zone-Behavior Rule Type/" by decide]

theorem rowId_eq (id : String) : ruleIdFrom rowTypeId id = "Right-Of-Way Rule Type/" ++ id := by
  rw [ruleIdFrom, show rowTypeId ++ "/" = "Right-Of-Way Rule Type/" by decide]

theorem rowId_inj : Function.Injective (ruleIdFrom rowTypeId) := by
  intro a b h
  simpa [ruleIdFrom] using h

theorem stopId_inj : Function.Injective (ruleIdFrom stopTypeId) := by
  intro a b h
  simpa [ruleIdFrom] using h

theorem stopId_ne_rowId (a b : String) : ruleIdFrom stopTypeId a ≠ ruleIdFrom rowTypeId b := by
  intro h
  have := congrArg String.toList h
  simp [ruleIdFrom, stopTypeId, rowTypeId] at this

theorem buildStopRule_ok (r : RightOfWayRule) : ∃ d, buildStopRule r = .ok d ∧ IsStopRule r d := by
  refine ⟨_, (Maliput.Props.discreteValueRule_make_iff _ _ _ _ _).2 ⟨rfl, by simp, ?_, by simp⟩, ?_⟩
  · intro v hv
    rw [List.mem_singleton] at hv
    subst hv
    refine ⟨le_refl _, ?_, ?_⟩ <;> (intro g hg; simp [Map.has] at hg)
  · exact ⟨stopId_eq _, rfl, rfl, _, rfl, rfl, rfl, rfl, rfl⟩

theorem get_two {α : Type} {a b : String} (hab : a ≠ b) (x y : α) (k : String) :
    (Map.ofList [(a, x), (b, y)]).get? k = if k = a then some x else if k = b then some y else none := by
  simp only [Map.ofList, List.foldl_cons, List.foldl_nil, Map.get?_emplace, Map.get?_empty]
  by_cases h1 : k = a
  · subst h1
    simp [hab]
  · by_cases h2 : k = b
    · subst h2
      simp [h1]
    · simp [h1, h2]

theorem get_one {α : Type} (a : String) (x : α) (k : String) :
    (Map.ofList [(a, x)]).get? k = if k = a then some x else none := by
  simp [Map.ofList, Map.get?_emplace]

theorem key_ne : stopTypeId ≠ yieldGroupKey := by decide

theorem rowValue_valid (r : RightOfWayRule) (id : String) (s : RowState) :
    Rules.Spec.ValidState (buildRowValue r id s).toState ↔ s.yieldTo.Nodup ∧ (bulbIds r).Nodup := by
  have h1 : ∀ k, ((buildRowValue r id s).relatedRules).get? k = _ := fun k => get_two key_ne _ _ k
  have h2 : ∀ k, ((buildRowValue r id s).relatedUniqueIds).get? k = _ := fun k => get_one _ _ k
  simp only [Rules.Spec.ValidState, Rules.Spec.ValidRelated, Map.has, Rules.Spec.ids, h1, h2]
  have hb : relatedBulbIds r = bulbIds r := rfl
  constructor
  · rintro ⟨-, ha, hb'⟩
    constructor
    · have := (ha yieldGroupKey (by simp [key_ne.symm])).2
      rw [if_neg key_ne.symm, if_pos rfl, Option.getD_some] at this
      exact this.of_map _
    · have := (hb' bulbGroupKey (by simp)).2
      rwa [if_pos rfl, Option.getD_some, hb] at this
  · rintro ⟨ha, hb'⟩
    refine ⟨le_refl _, fun g hg => ?_, fun g hg => ?_⟩
    · by_cases hs : g = stopTypeId
      · subst hs
        exact ⟨by decide, by simp⟩
      · by_cases hy : g = yieldGroupKey
        · subst hy
          refine ⟨by decide, ?_⟩
          rw [if_neg hs, if_pos rfl, Option.getD_some]
          exact ha.map rowId_inj
        · simp [hs, hy] at hg
    · by_cases hs : g = bulbGroupKey
      · subst hs
        refine ⟨by decide, ?_⟩
        rw [if_pos rfl, Option.getD_some, hb]
        exact hb'
      · simp [hs] at hg

theorem rowValue_is (r : RightOfWayRule) (s : RowState) :
    IsRowValue r s (buildRowValue r (ruleIdFrom stopTypeId r.id) s) := by
  refine ⟨rowStateName_mem _, rfl, fun k l => ?_, fun k l => ?_⟩
  · rw [show (buildRowValue r (ruleIdFrom stopTypeId r.id) s).relatedRules.get? k = _ from get_two key_ne _ _ k]
    have hm : s.yieldTo.map (ruleIdFrom rowTypeId) = s.yieldTo.map fun y => "Right-Of-Way Rule Type/" ++ y := by
      simp only [List.map_inj_left]
      exact fun y _ => rowId_eq y
    rw [hm, stopId_eq]
    by_cases hs : k = stopTypeId
    · subst hs
      rw [if_pos rfl]
      simp [stopTypeId, eq_comm]
    · by_cases hy : k = yieldGroupKey
      · subst hy
        rw [if_neg hs, if_pos rfl]
        simp [yieldGroupKey, eq_comm]
      · rw [if_neg hs, if_neg hy]
        simp only [reduceCtorEq, false_iff, not_or, not_and]
        exact ⟨fun h => (hs h).elim, fun h => (hy h).elim⟩
  · rw [show (buildRowValue r (ruleIdFrom stopTypeId r.id) s).relatedUniqueIds.get? k = _ from get_one _ _ k]
    by_cases hs : k = bulbGroupKey
    · subst hs
      rw [if_pos rfl]
      simp [bulbGroupKey, eq_comm, relatedBulbIds, bulbIds]
    · rw [if_neg hs]
      simp only [reduceCtorEq, false_iff, not_and]
      exact fun h => (hs h).elim

theorem forall₂_map_right {α β : Type} {R : α → β → Prop} (f : α → β) (l : List α) (h : ∀ a ∈ l, R a (f a)) :
    List.Forall₂ R l (l.map f) := by
  induction l with
  | nil => exact .nil
  | cons a l ih => exact .cons (h a (by simp)) (ih fun b hb => h b (by simp [hb]))

theorem buildRowRule_ok {r : RightOfWayRule} {d : DiscreteValueRule} (hne : r.states.entries ≠ []) :
    buildRowRule r (ruleIdFrom stopTypeId r.id) = .ok d →
      IsRowRule r d ∧ (∀ name s, r.states.get? name = some s → s.yieldTo.Nodup) ∧ (bulbIds r).Nodup := by
  intro h
  obtain ⟨rfl, -, h1, -⟩ := (Maliput.Props.discreteValueRule_make_iff _ _ _ _ _).1 h
  refine ⟨⟨rowId_eq _, rfl, rfl, forall₂_map_right _ _ fun e _ => rowValue_is r e.2⟩, fun name s hs => ?_, ?_⟩
  · exact ((rowValue_valid _ _ _).1 (h1 _ (List.mem_map_of_mem (Map.get?_eq_some.1 hs)))).1
  · obtain ⟨k, s, hs⟩ := map_entries_ne hne
    exact ((rowValue_valid _ _ _).1 (h1 _ (List.mem_map_of_mem (Map.get?_eq_some.1 hs)))).2

theorem buildRowRule_of {r : RightOfWayRule} (hne : r.states.entries ≠ [])
    (hn : ∀ name s, r.states.get? name = some s → (name, s.type) ∈ rowStateNames)
    (hy : ∀ name s, r.states.get? name = some s → s.yieldTo.Nodup) (hb : (bulbIds r).Nodup) :
    ∃ d, buildRowRule r (ruleIdFrom stopTypeId r.id) = .ok d := by
  refine ⟨_, (Maliput.Props.discreteValueRule_make_iff _ _ _ _ _).2 ⟨rfl, by simpa using hne, ?_, ?_⟩⟩
  · intro v hv
    obtain ⟨e, he, rfl⟩ := List.mem_map.1 hv
    exact (rowValue_valid _ _ _).2 ⟨hy e.1 e.2 (Map.get?_eq_some.2 he), hb⟩
  · rw [List.pairwise_map]
    have := r.states.nodup
    rw [List.nodup_iff_pairwise_ne, List.pairwise_map] at this
    refine this.imp_of_mem fun {a b} ha hb hab => ?_
    have h1 := rowStateNames_name (hn a.1 a.2 (Map.get?_eq_some.2 ha))
    have h2 := rowStateNames_name (hn b.1 b.2 (Map.get?_eq_some.2 hb))
    have hne : rowStateName a.2.type ≠ rowStateName b.2.type := by rw [h1, h2]; exact hab
    simp only [DiscreteValue.eq, buildRowValue, Bool.and_eq_false_iff]
    exact ⟨Or.inl (decide_eq_false hne), Or.inl (decide_eq_false hne.symm)⟩

theorem says_names {g : String → Option ℚ} {c : Conv} {d : Doc} {r : RightOfWayRule} (h : SaysRow g c d r) :
    ∀ name s, r.states.get? name = some s → (name, s.type) ∈ rowStateNames := by
  obtain ⟨v, -, -, h2⟩ := h.states
  intro name s hs
  obtain ⟨t, w, ids, hm, -, -, rfl⟩ := (h2 name s).1 hs
  exact hm

/-! ### Direction usage rules -/

theorem asDirectionSeverity_ok {d : Doc} {s : DirectionSeverity} : asDirectionSeverity (some d) = .ok s ↔
    (Reads d "Strict" ∧ s = .strict) ∨ (Reads d "Preferred" ∧ s = .preferred) := by
  rw [asDirectionSeverity]
  simp only [bind_ok, asString_ok]
  constructor
  · rintro ⟨t, ht, h⟩
    split at h
    · next he =>
      subst he
      exact Or.inl ⟨ht, (pure_ok.1 h).symm⟩
    · split at h
      · next he =>
        subst he
        exact Or.inr ⟨ht, (pure_ok.1 h).symm⟩
      · cases h
  · rintro (⟨h, rfl⟩ | ⟨h, rfl⟩)
    · exact ⟨_, h, by simp [pure, Except.pure]⟩
    · exact ⟨_, h, by simp [pure, Except.pure]⟩

theorem asDirectionType_ok {d : Doc} {t : DirectionType} : asDirectionType (some d) = .ok t ↔
    ∃ name, Reads d name ∧ (name, t) ∈ directionNames := by
  rw [asDirectionType]
  simp only [bind_ok, asString_ok]
  constructor
  · rintro ⟨name, hr, h⟩
    refine ⟨name, hr, ?_⟩
    split at h
    · next e he =>
      have h1 := List.mem_of_find?_eq_some he
      have h2 := List.find?_some he
      rw [decide_eq_true_eq] at h2
      have h3 := pure_ok.1 h
      subst h2 h3
      revert h1
      simp only [directionTypeNames, directionNames, List.mem_cons, List.not_mem_nil, or_false]
      rintro (rfl | rfl | rfl | rfl | rfl | rfl) <;> simp
    · cases h
  · rintro ⟨name, hr, h⟩
    refine ⟨name, hr, ?_⟩
    simp only [directionNames, List.mem_cons, List.not_mem_nil, or_false, Prod.mk.injEq] at h
    rcases h with ⟨rfl, rfl⟩ | ⟨rfl, rfl⟩ | ⟨rfl, rfl⟩ | ⟨rfl, rfl⟩ | ⟨rfl, rfl⟩ | ⟨rfl, rfl⟩ <;> decide

theorem buildDirectionState_ok {d : Doc} {s : DirectionState} :
    buildDirectionState (some d) = .ok s ↔ SaysDirectionState d s ∧ s.id ≠ "" := by
  rw [buildDirectionState]
  simp only [bind_ok, required_ok, pure_ok]
  constructor
  · rintro ⟨_, ⟨v1, rfl, h1⟩, _, ⟨v2, rfl, h2⟩, _, ⟨v3, rfl, h3⟩, id, hid, t, ht, sev, hsev, rfl⟩
    obtain ⟨hid1, hid2⟩ := asId_ok.1 hid
    obtain ⟨name, ht1, ht2⟩ := asDirectionType_ok.1 ht
    refine ⟨⟨⟨v1, h1, hid1⟩, ⟨name, ⟨v3, h3, ht1⟩, ht2⟩, ?_⟩, hid2⟩
    rcases asDirectionSeverity_ok.1 hsev with ⟨h, rfl⟩ | ⟨h, rfl⟩
    · exact Or.inl ⟨⟨v2, h2, h⟩, rfl⟩
    · exact Or.inr ⟨⟨v2, h2, h⟩, rfl⟩
  · rintro ⟨⟨⟨v1, h1, hid1⟩, ⟨name, ⟨v3, h3, ht1⟩, ht2⟩, h⟩, hid2⟩
    obtain ⟨v2, h2, hsev⟩ : ∃ v2, HasField d "Severity" v2 ∧ asDirectionSeverity (some v2) = .ok s.severity := by
      rcases h with ⟨⟨v2, h2, h⟩, he⟩ | ⟨⟨v2, h2, h⟩, he⟩
      · exact ⟨v2, h2, asDirectionSeverity_ok.2 (Or.inl ⟨h, he⟩)⟩
      · exact ⟨v2, h2, asDirectionSeverity_ok.2 (Or.inr ⟨h, he⟩)⟩
    exact ⟨_, ⟨v1, rfl, h1⟩, _, ⟨v2, rfl, h2⟩, _, ⟨v3, rfl, h3⟩, s.id, asId_ok.2 ⟨hid1, hid2⟩, s.type,
      asDirectionType_ok.2 ⟨name, ht1, ht2⟩, s.severity, hsev, rfl⟩

theorem directionRule_make_ok {id : String} {zone : LaneSRange} {states : List DirectionState}
    {r : DirectionUsageRule} : DirectionUsageRule.make id zone states = .ok r ↔
      r.id = id ∧ r.zone = zone ∧ r.states.entries ≠ [] ∧ r.states.entries = states.map fun s => (s.id, s) := by
  simp only [DirectionUsageRule.make, bind_ok, throwUnless_ok, pure_ok, decide_eq_true_eq]
  constructor
  · rintro ⟨-, h1, m, h2, rfl⟩
    have := ((indexStates_ok _ _ _ _).1 h2).2.2
    simp only [Map.empty, List.nil_append] at this
    refine ⟨rfl, rfl, ?_, this⟩
    rw [this]
    rintro h
    rw [List.map_eq_nil_iff] at h
    subst h
    simp at h1
  · rintro ⟨rfl, rfl, h1, h2⟩
    rw [h2] at h1
    refine ⟨(), List.length_pos_iff.2 (by simpa using h1), r.states, ?_, rfl⟩
    rw [indexStates_ok]
    refine ⟨?_, by simp, by simpa [Map.empty] using h2⟩
    have := r.states.nodup
    rw [h2, List.map_map] at this
    exact this

theorem buildDirectionUsageRule_ok {g : String → Option ℚ} {c : Conv} {d : Doc} {r : DirectionUsageRule} :
    buildDirectionUsageRule g c (some d) = .ok r ↔ SaysDirection g c d r ∧ ValidDirection g r := by
  unfold buildDirectionUsageRule
  simp only [bind_ok, required_ok]
  constructor
  · rintro ⟨_, _, _, ⟨v1, rfl, h1⟩, id, hid, _, ⟨v2, rfl, h2⟩, _, hseq, states, hstates, _, ⟨v3, rfl, h3⟩, zone, hz, h⟩
    obtain ⟨hid1, hid2⟩ := asId_ok.1 hid
    obtain ⟨sl, hsl⟩ := needSeq_ok.1 hseq
    injection hsl with hsl
    subst hsl
    rw [mapM_seq] at hstates
    simp only [buildDirectionState_ok] at hstates
    obtain ⟨hs1, hs2⟩ := forall₂_and.1 hstates
    obtain ⟨hz1, hz2⟩ := buildLaneSRange_ok.1 hz
    obtain ⟨rfl, rfl, hne, hent⟩ := directionRule_make_ok.1 h
    refine ⟨⟨⟨v1, h1, hid1⟩, ⟨sl, h2, ?_⟩, ⟨v3, h3, hz1⟩⟩, ⟨hid2, hne, ?_, hz2⟩⟩
    · rw [hent, List.forall₂_map_right_iff]
      exact hs1.imp fun a b h => ⟨h, rfl⟩
    · intro name s hs
      rw [Map.get?_eq_some, hent, List.mem_map] at hs
      obtain ⟨s', hs', he⟩ := hs
      injection he with h4 h5
      rw [← h4]
      exact hs2 _ hs'
  · rintro ⟨⟨⟨v1, h1, hid1⟩, ⟨sl, h2, hs⟩, ⟨v3, h3, hz1⟩⟩, ⟨hid2, hne, hs2, hz2⟩⟩
    obtain ⟨l, rfl⟩ := h1.isMap
    have hs' := forall₂_and.1 hs
    have hent : r.states.entries = (r.states.entries.map (·.2)).map fun s => (s.id, s) := by
      rw [List.map_map]
      conv_lhs => rw [← List.map_id r.states.entries]
      rw [List.map_inj_left]
      intro e he
      rw [Function.comp_apply, ← hs'.2 e he]
      rfl
    refine ⟨(), needMap_ok.2 ⟨l, rfl⟩, _, ⟨v1, rfl, h1⟩, r.id, asId_ok.2 ⟨hid1, hid2⟩, _, ⟨_, rfl, h2⟩, (),
      needSeq_ok.2 ⟨sl, rfl⟩, r.states.entries.map (·.2), ?_, _, ⟨v3, rfl, h3⟩, r.zone,
      buildLaneSRange_ok.2 ⟨hz1, hz2⟩, directionRule_make_ok.2 ⟨rfl, rfl, hne, hent⟩⟩
    rw [mapM_seq]
    simp only [buildDirectionState_ok]
    rw [forall₂_and]
    constructor
    · rw [List.forall₂_map_right_iff]
      exact hs'.1
    · intro s hs
      obtain ⟨e, he, rfl⟩ := List.mem_map.1 hs
      rw [← hs'.2 e he]
      exact hs2 e.1 e.2 (Map.get?_eq_some.2 he)

/-! ### Adding rules to a rulebook -/

open Maliput.Rulebook.Spec (key live apply contents)

/-- The rules are added in turn. -/
def addAll (b : Book) (rs : List AnyRule) : Except Err Book :=
  rs.foldlM (fun b r => Outcome.get (step b (.add r))) b

theorem addOne_ok {b b' : Book} {l : List AnyRule} (h : Inv b l) {r : AnyRule} :
    Outcome.get (step b (.add r)) = .ok b' ↔ (∀ x ∈ l, key x ≠ key r) ∧ b' = (step b (.add r)).1 := by
  obtain ⟨h1, h2⟩ := step_ok h (.add r) (by simp)
  by_cases hr : Rulebook.Spec.Rejected l (.add r)
  · rw [h2 hr]
    simp only [Outcome.get, reduceCtorEq, false_iff, not_and]
    obtain ⟨x, hx, hk⟩ := hr
    exact fun h => (h x hx hk).elim
  · have h3 := (h1 hr).1
    simp only [Rulebook.Spec.Rejected, not_exists, not_and] at hr
    generalize step b (.add r) = o at *
    obtain ⟨b1, e⟩ := o
    dsimp only at h3
    subst h3
    simp only [Outcome.get, Except.ok.injEq]
    exact ⟨fun h => ⟨hr, h.symm⟩, fun h => h.2.symm⟩

theorem inv_addOne {b : Book} {l : List AnyRule} (h : Inv b l) {r : AnyRule} (hr : ∀ x ∈ l, key x ≠ key r) :
    Inv (step b (.add r)).1 (l ++ [r]) := by
  have := inv_step h (.add r) (by simp)
  rw [apply, if_neg] at this
  · exact this
  · rintro ⟨x, hx, hk⟩
    exact hr x hx hk

theorem addAll_ok {rs : List AnyRule} : ∀ {b b' : Book} {l : List AnyRule}, Inv b l → (l.map key).Nodup →
    (addAll b rs = .ok b' ↔
      ((l ++ rs).map key).Nodup ∧ b' = (rs.map Op.add).foldl (fun b op => (step b op).1) b) := by
  induction rs with
  | nil =>
    intro b b' l _ hl
    simp only [addAll, List.foldlM_nil, pure_ok, List.append_nil, List.map_nil, List.foldl_nil]
    exact ⟨fun h => ⟨hl, h.symm⟩, fun h => h.2.symm⟩
  | cons r rs ih =>
    intro b b' l h hl
    simp only [addAll, List.foldlM_cons, bind_ok, addOne_ok h]
    constructor
    · rintro ⟨b1, ⟨hr, rfl⟩, h'⟩
      have hl' : ((l ++ [r]).map key).Nodup := by
        rw [List.map_append, List.nodup_append]
        refine ⟨hl, by simp, ?_⟩
        intro a ha c hc
        obtain ⟨x, hx, rfl⟩ := List.mem_map.1 ha
        simp only [List.map_cons, List.map_nil, List.mem_singleton] at hc
        subst hc
        exact hr x hx
      have := (ih (inv_addOne h hr) hl').1 h'
      simpa using this
    · rintro ⟨hn, rfl⟩
      have hn' : ((l ++ [r] ++ rs).map key).Nodup := by simpa using hn
      have hl' : ((l ++ [r]).map key).Nodup := by
        rw [List.map_append] at hn'
        exact (List.nodup_append.1 hn').1
      have hr : ∀ x ∈ l, key x ≠ key r := by
        rw [List.map_append, List.nodup_append] at hl'
        intro x hx
        exact hl'.2.2 _ (List.mem_map_of_mem hx) _ (by simp)
      refine ⟨_, ⟨hr, rfl⟩, ?_⟩
      exact (ih (inv_addOne h hr) hl').2 ⟨hn', by simp⟩

/-- A rulebook filled with rules that have distinct ids. -/
theorem addAll_empty {rs : List AnyRule} {b : Book} :
    addAll .empty rs = .ok b ↔ (rs.map key).Nodup ∧ b = run (rs.map Op.add) := by
  rw [addAll_ok inv_empty (by simp)]
  rfl

theorem live_adds {rs : List AnyRule} (h : (rs.map key).Nodup) : live (rs.map Op.add) = rs := by
  induction rs using List.reverseRecOn with
  | nil => rfl
  | append_singleton rs r ih =>
    rw [List.map_append, List.nodup_append] at h
    rw [List.map_append, List.map_cons, List.map_nil, live_snoc, ih h.1, apply, if_neg]
    rintro ⟨x, hx, hk⟩
    exact h.2.2 _ (List.mem_map_of_mem hx) _ (by simp) hk

theorem addAll_append {b : Book} {rs rs' : List AnyRule} :
    addAll b (rs ++ rs') = addAll b rs >>= fun b => addAll b rs' := by
  simp [addAll]

/-- A loop that adds, for each document, the rules it describes. -/
theorem foldlM_addAll {f : Book → Node → Except Err Book} {P : Doc → List AnyRule → Prop}
    (hf : ∀ b b' d, f b (some d) = .ok b' ↔ ∃ rs, P d rs ∧ addAll b rs = .ok b') {ds : List Doc} :
    ∀ {b b' : Book}, (Node.nodes (some (.seq ds))).foldlM f b = .ok b' ↔
      ∃ rss, List.Forall₂ P ds rss ∧ addAll b rss.flatten = .ok b' := by
  rw [nodes_seq]
  induction ds with
  | nil =>
    intro b b'
    simp only [List.map_nil, List.foldlM_nil, pure_ok, List.forall₂_nil_left_iff]
    constructor
    · rintro rfl
      exact ⟨[], rfl, rfl⟩
    · rintro ⟨_, rfl, h⟩
      simpa [addAll, pure_ok] using h
  | cons d ds ih =>
    intro b b'
    simp only [List.map_cons, List.foldlM_cons, bind_ok, hf, ih]
    constructor
    · rintro ⟨b1, ⟨rs, h1, h2⟩, rss, h3, h4⟩
      refine ⟨rs :: rss, .cons h1 h3, ?_⟩
      rw [List.flatten_cons, addAll_append, bind_ok]
      exact ⟨b1, h2, h4⟩
    · rintro ⟨_, h, h'⟩
      cases h with
      | cons h1 h2 =>
        rw [List.flatten_cons, addAll_append, bind_ok] at h'
        obtain ⟨b1, h3, h4⟩ := h'
        exact ⟨b1, ⟨_, h1, h3⟩, _, h2, h4⟩

/-- The rules added for an entry of the right-of-way rules. -/
def RowRules (g : String → Option ℚ) (c : Conv) (d : Doc) (rs : List AnyRule) : Prop :=
  ∃ r stop row, buildRightOfWayRule g c (some d) = .ok r ∧ buildStopRule r = .ok stop ∧
    buildRowRule r stop.id = .ok row ∧ rs = [.rightOfWay r, .discreteValue stop, .discreteValue row]

theorem addRow_ok {g : String → Option ℚ} {c : Conv} (b b' : Book) (d : Doc) :
    addRow g c b (some d) = .ok b' ↔ ∃ rs, RowRules g c d rs ∧ addAll b rs = .ok b' := by
  simp only [addRow, bind_ok]
  constructor
  · rintro ⟨r, h1, stop, h2, b1, h3, b2, h4, row, h5, h6⟩
    refine ⟨_, ⟨r, stop, row, h1, h2, h5, rfl⟩, ?_⟩
    simp only [addAll, List.foldlM_cons, List.foldlM_nil, bind_ok, step, pure_ok]
    exact ⟨b1, h3, b2, h4, b', h6, rfl⟩
  · rintro ⟨_, ⟨r, stop, row, h1, h2, h5, rfl⟩, h⟩
    simp only [addAll, List.foldlM_cons, List.foldlM_nil, bind_ok, step, pure_ok] at h
    obtain ⟨b1, h3, b2, h4, b3, h6, rfl⟩ := h
    exact ⟨r, h1, stop, h2, b1, h3, b2, h4, row, h5, h6⟩

theorem addDirection_ok {g : String → Option ℚ} {c : Conv} (b b' : Book) (d : Doc) :
    addDirection g c b (some d) = .ok b' ↔
      ∃ rs, (∃ r, buildDirectionUsageRule g c (some d) = .ok r ∧ rs = [.directionUsage r]) ∧
        addAll b rs = .ok b' := by
  simp only [addDirection, bind_ok]
  constructor
  · rintro ⟨r, h1, h2⟩
    refine ⟨_, ⟨r, h1, rfl⟩, ?_⟩
    simp only [addAll, List.foldlM_cons, List.foldlM_nil, bind_ok, step, pure_ok]
    exact ⟨b', h2, rfl⟩
  · rintro ⟨_, ⟨r, h1, rfl⟩, h⟩
    simp only [addAll, List.foldlM_cons, List.foldlM_nil, bind_ok, step, pure_ok] at h
    obtain ⟨b1, h3, rfl⟩ := h
    exact ⟨r, h1, h3⟩

theorem loadRulebook_ok {g : String → Option ℚ} {c : Conv} {root : Doc} {b : Book} :
    loadRulebook g c root = .ok b ↔ ∃ rowDocs dirDocs rowss dirs, IsRulebook root rowDocs dirDocs ∧
      List.Forall₂ (RowRules g c) rowDocs rowss ∧
      List.Forall₂ (fun d r => SaysDirection g c d r ∧ ValidDirection g r) dirDocs dirs ∧
      addAll .empty (rowss.flatten ++ dirs.map AnyRule.directionUsage) = .ok b := by
  unfold loadRulebook
  simp only [bind_ok, required_ok]
  have hdirs : ∀ {ds : List Doc} {rss : List (List AnyRule)}, List.Forall₂ (fun d rs =>
      ∃ r, buildDirectionUsageRule g c (some d) = .ok r ∧ rs = [.directionUsage r]) ds rss →
      ∃ dirs, List.Forall₂ (fun d r => SaysDirection g c d r ∧ ValidDirection g r) ds dirs ∧
        rss.flatten = dirs.map AnyRule.directionUsage := by
    intro ds rss h
    induction h with
    | nil => exact ⟨[], .nil, rfl⟩
    | cons h _ ih =>
      obtain ⟨r, h1, rfl⟩ := h
      obtain ⟨dirs, h2, h3⟩ := ih
      exact ⟨r :: dirs, .cons (buildDirectionUsageRule_ok.1 h1) h2, by simp [h3]⟩
  constructor
  · rintro ⟨_, _, _, ⟨book, rfl, hb⟩, _, _, _, hr', _, hrs, b1, h1, _, hd', _, hds, h2⟩
    obtain ⟨rv, rfl, hr⟩ := required_ok.1 hr'
    obtain ⟨dv, rfl, hd⟩ := required_ok.1 hd'
    obtain ⟨rl, hrl⟩ := needSeq_ok.1 hrs
    obtain ⟨dl, hdl⟩ := needSeq_ok.1 hds
    injection hrl with hrl
    injection hdl with hdl
    subst hrl hdl
    obtain ⟨rowss, h3, h4⟩ := (foldlM_addAll addRow_ok).1 h1
    obtain ⟨dirss, h5, h6⟩ := (foldlM_addAll addDirection_ok).1 h2
    obtain ⟨dirs, h7, h8⟩ := hdirs h5
    refine ⟨rl, dl, rowss, dirs, ⟨book, hb, hr, hd⟩, h3, h7, ?_⟩
    rw [addAll_append, bind_ok]
    exact ⟨b1, h4, by rw [← h8]; exact h6⟩
  · rintro ⟨rl, dl, rowss, dirs, ⟨book, hb, hr, hd⟩, h3, h7, h⟩
    rw [addAll_append, bind_ok] at h
    obtain ⟨b1, h4, h6⟩ := h
    obtain ⟨l, rfl⟩ := hb.isMap
    obtain ⟨l', rfl⟩ := hr.isMap
    refine ⟨(), needMap_ok.2 ⟨_, rfl⟩, _, ⟨_, rfl, hb⟩, (), needMap_ok.2 ⟨_, rfl⟩, _, required_ok.2 ⟨_, rfl, hr⟩, (),
      needSeq_ok.2 ⟨_, rfl⟩, b1, (foldlM_addAll addRow_ok).2 ⟨rowss, h3, h4⟩, _, required_ok.2 ⟨_, rfl, hd⟩, (),
      needSeq_ok.2 ⟨_, rfl⟩, (foldlM_addAll addDirection_ok).2 ⟨dirs.map fun r => [.directionUsage r], ?_, ?_⟩⟩
    · rw [List.forall₂_map_right_iff]
      exact h7.imp fun d r h => ⟨r, buildDirectionUsageRule_ok.2 h, rfl⟩
    · rw [show (dirs.map fun r => [AnyRule.directionUsage r]).flatten = dirs.map AnyRule.directionUsage by
        clear h7 h6; induction dirs with
        | nil => rfl
        | cons r dirs ih => simpa using ih]
      exact h6

/-! ### Errors -/

theorem OnlyThrows.required (n : Node) (k : String) : OnlyThrows (required n k) := by
  unfold Loader.required; only_throws []

theorem OnlyThrows.asSRange (c : Conv) (n : Node) : OnlyThrows (asSRange c n) := by
  unfold Loader.asSRange SRange.setS0 SRange.setS1; only_throws []

theorem OnlyThrows.buildLaneSRange (g : String → Option ℚ) (c : Conv) (laneKey rangeKey : String) (n : Node) :
    OnlyThrows (buildLaneSRange g c laneKey rangeKey n) := by
  unfold Loader.buildLaneSRange obtainSRange SRange.make
  only_throws [OnlyThrows.required _ _, OnlyThrows.asSRange _ _]

theorem OnlyThrows.buildLaneSRoute (g : String → Option ℚ) (c : Conv) (laneKey rangeKey : String) (n : Node) :
    OnlyThrows (buildLaneSRoute g c laneKey rangeKey n) := by
  unfold Loader.buildLaneSRoute
  only_throws [OnlyThrows.buildLaneSRange _ _ _ _ _]

theorem OnlyThrows.buildRowStates (n : Node) : OnlyThrows (buildRowStates n) := by
  unfold Loader.buildRowStates Loader.buildRowState asYieldGroup
  only_throws []

theorem OnlyThrows.relatedLoop (l : List Item) : ∀ m, OnlyThrows (relatedBulbGroupsLoop m l) := by
  induction l with
  | nil => intro m; rw [relatedBulbGroupsLoop]; only_throws []
  | cons it l ih =>
    intro m
    rw [relatedBulbGroupsLoop]
    only_throws [ih _]

theorem OnlyThrows.indexStates {S : Type} (idOf : S → String) (l : List S) :
    ∀ m, OnlyThrows (indexStates idOf m l) := by
  induction l with
  | nil => intro m; rw [Rules.indexStates]; only_throws []
  | cons s l ih =>
    intro m
    rw [Rules.indexStates]
    only_throws [ih _]

theorem OnlyThrows.buildRightOfWayRule (g : String → Option ℚ) (c : Conv) (n : Node) :
    OnlyThrows (buildRightOfWayRule g c n) := by
  unfold Loader.buildRightOfWayRule buildZoneType buildRelatedBulbGroups RightOfWayRule.make
  only_throws [OnlyThrows.required _ _, OnlyThrows.buildRowStates _, OnlyThrows.buildLaneSRoute _ _ _ _ _,
    OnlyThrows.relatedLoop _ _, OnlyThrows.indexStates _ _ _]

theorem OnlyThrows.discreteValueRule_make (id t : String) (zone : List LaneSRange) (values : List DiscreteValue) :
    OnlyThrows (DiscreteValueRule.make id t zone values) := by
  unfold DiscreteValueRule.make validateRelated validateSeverity
  only_throws []

theorem OnlyThrows.buildDirectionUsageRule (g : String → Option ℚ) (c : Conv) (n : Node) :
    OnlyThrows (buildDirectionUsageRule g c n) := by
  unfold Loader.buildDirectionUsageRule buildDirectionState asDirectionType asDirectionSeverity
    DirectionUsageRule.make
  only_throws [OnlyThrows.required _ _, OnlyThrows.buildLaneSRange _ _ _ _ _, OnlyThrows.indexStates _ _ _]

theorem OnlyThrows.step_add (b : Book) (r : AnyRule) : OnlyThrows (Outcome.get (step b (.add r))) := by
  cases r <;> simp only [step, addRightOfWay, addSpeedLimit, addDirectionUsage, addDiscreteValueRule,
    addRangeValueRule] <;> (repeat' split) <;>
    first | exact OnlyThrows.ok _ | exact OnlyThrows.throws

theorem OnlyThrows.loadRulebook (g : String → Option ℚ) (c : Conv) (root : Doc) :
    OnlyThrows (loadRulebook g c root) := by
  unfold Loader.loadRulebook addRow addDirection buildStopRule buildRowRule
  only_throws [OnlyThrows.required _ _, OnlyThrows.buildRightOfWayRule _ _ _,
    OnlyThrows.buildDirectionUsageRule _ _ _, OnlyThrows.discreteValueRule_make _ _ _ _,
    OnlyThrows.step_add _ (.rightOfWay _), OnlyThrows.step_add _ (.discreteValue _),
    OnlyThrows.step_add _ (.directionUsage _)]

end Maliput.Loader
